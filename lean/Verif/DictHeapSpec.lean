import Verif.DictSpec
/-!
# Specification of sharing between dicts

A client holds plain dicts, sorted dicts and views of sorted dicts, passes the ones to the others, keeps what calls return, and
changes its own dicts whenever it likes.  The specification: every dict and every sorted dict is a value of its own, and a view
is nothing but the name of a sorted dict.  A call changes the sorted dict it is made on and nothing else; a call on a view
is answered from the items its sorted dict has at that moment; what a call returns is new.
-/

namespace Verif

/-- The three views of a sorted dict. -/
inductive ViewKind where
  | keys
  | items
  | values
deriving DecidableEq

/-- The argument of a call: the client's `i`-th dict, the `j`-th sorted dict (possibly the one on which the call is made), the
view `sd.items()` of the `j`-th sorted dict, or pairs that arrive one after the other, with the exception that ends them. -/
inductive DictRef (κ ν : Type) where
  | dict (i : Nat)
  | sorted (j : Nat)
  | itemsOf (j : Nat)
  | pairs (items : List (κ × ν)) (fail : Option PyErr)

/-- A call on a view. -/
inductive ViewCall where
  | len
  | iter
  /-- `view[i]` -/
  | at (i : Int)
  /-- `view[a:b:c]` -/
  | slice (sl : PySlice)
  /-- `del view[i]` -/
  | delInt (i : Int)
  /-- `del view[a:b:c]` -/
  | delSlice (sl : PySlice)

/-- The call, for a view that is made just for it: `sd.keys()[i]` and so on. -/
def ViewCall.on {κ ν : Type} : ViewCall → ViewKind → SDOp κ ν
  | .len, _ => .len
  | .iter, .keys => .iter
  | .iter, .items => .items
  | .iter, .values => .values
  | .at i, .keys => .keysAt i
  | .at i, .items => .itemsAt i
  | .at i, .values => .valuesAt i
  | .slice sl, .keys => .keysSlice sl
  | .slice sl, .items => .itemsSlice sl
  | .slice sl, .values => .valuesSlice sl
  | .delInt i, _ => .viewDelInt i
  | .delSlice sl, _ => .viewDelSlice sl

/-- What the client does next. -/
inductive DictEvent (κ ν : Type) where
  /-- `dict(pairs)` -/
  | newDict (pairs : List (κ × ν))
  /-- change the client's `i`-th dict in any way: afterwards it is `dict(pairs)` -/
  | mutate (i : Nat) (pairs : List (κ × ν))
  /-- `SortedDict(arg)` -/
  | construct (arg : DictRef κ ν)
  /-- any call on the `j`-th sorted dict, with arguments and results that the client does not keep -/
  | call (j : Nat) (op : SDOp κ ν)
  /-- `sd.update(arg)`, `sd |= arg` -/
  | update (j : Nat) (arg : DictRef κ ν)
  /-- `sd | other`; the client keeps the result -/
  | or (j : Nat) (other : DictRef κ ν)
  /-- `other | sd`; the client keeps the result -/
  | ror (j : Nat) (other : DictRef κ ν)
  /-- `sd.copy()`; the client keeps the result -/
  | copy (j : Nat)
  /-- `copy.deepcopy(sd)`, or pickling and unpickling; the client keeps the result -/
  | pickle (j : Nat)
  /-- the dict in the tuple that `sd.__reduce__()` returns (for pickling); the client keeps it -/
  | reduceArgs (j : Nat)
  /-- `sd.keys()`, `sd.items()`, `sd.values()`; the client keeps the view -/
  | view (j : Nat) (kind : ViewKind)
  /-- `sd.iloc`; the client keeps the view -/
  | iloc (j : Nat)
  /-- a call on the client's `n`-th view -/
  | viewCall (n : Nat) (op : ViewCall)

/-- Load factors are at least 1, and the pairs given to `update` are pairs. -/
def DictEvent.Valid {κ ν : Type} : DictEvent κ ν → Prop
  | .call _ op => op.Valid
  | .update _ (.pairs _ fail) => fail = none
  | _ => True

/-- The client changes its `i`-th dict. -/
def DictEvent.changesDict {κ ν : Type} (i : Nat) : DictEvent κ ν → Prop
  | .mutate i' _ => i' = i
  | _ => False

/-- A method that may change its object is called on the `j`-th sorted dict, or on a view of it; `views` are the sorted dicts
of the client's views. -/
def DictEvent.changesSorted {κ ν : Type} (views : List (ViewKind × Nat)) (j : Nat) : DictEvent κ ν → Prop
  | .call j' _ | .update j' _ => j' = j
  | .viewCall n _ => views[n]?.map Prod.snd = some j
  | _ => False

/-- What the client gets. -/
inductive DictOut (κ ν : Type) where
  | none
  | value (o : DOut κ ν)
  /-- a new dict, the client's `i`-th -/
  | newDict (i : Nat)
  /-- a new sorted dict, the `j`-th -/
  | newSorted (j : Nat)
  /-- a new view, the client's `n`-th -/
  | newView (n : Nat)
  /-- a new view, the client's `n`-th, and a DeprecationWarning -/
  | deprecated (n : Nat)
  /-- the client's `n`-th view, which it had before -/
  | oldView (n : Nat)
  /-- the client named something that it does not have -/
  | noSuch
deriving DecidableEq

/-- The client's dicts and sorted dicts, as values: lists of items in insertion order; for each view its kind and
the number of its sorted dict; and for each sorted dict on which `iloc` has been used the number of the view that it returned. -/
structure DictStore (κ ν : Type) where
  dicts : List (List (κ × ν))
  sorted : List (List (κ × ν))
  views : List (ViewKind × Nat)
  ilocs : List (Nat × Nat)

namespace DictStore
open PyDict
variable {κ ν : Type} (eqv : κ → κ → Bool) (O : Spec.Order κ)

def empty : DictStore κ ν := { dicts := [], sorted := [], views := [], ilocs := [] }

/-- The pairs of an argument, and the exception that ends them.  A sorted dict is read in the order of its keys. -/
def arg (st : DictStore κ ν) : DictRef κ ν → Option (List (κ × ν) × Option PyErr)
  | .dict i => st.dicts[i]?.map fun d => (d, none)
  | .sorted j | .itemsOf j => st.sorted[j]?.map fun d => (DictSpec.sortedItems eqv O d, none)
  | .pairs items fail => some (items, fail)

/-- The items of an argument that is a mapping. -/
def mapping (st : DictStore κ ν) : DictRef κ ν → Option (List (κ × ν))
  | .dict i => st.dicts[i]?
  | .sorted j => st.sorted[j]?.map (DictSpec.sortedItems eqv O)
  | _ => none

/-- One more sorted dict. -/
def addSorted (d : List (κ × ν)) (st : DictStore κ ν) : Except PyErr (DictOut κ ν) × DictStore κ ν :=
  (.ok (.newSorted st.sorted.length), { st with sorted := st.sorted ++ [d] })

/-- A call on the `j`-th sorted dict. -/
def call (j : Nat) (op : SDOp κ ν) : Py (DictStore κ ν) (DictOut κ ν) := fun st =>
  match st.sorted[j]? with
  | some d =>
    let r := DictSpec.step eqv O op d
    (r.1.map .value, { st with sorted := st.sorted.set j r.2 })
  | none => (.ok .noSuch, st)

/-- One event. -/
def step : DictEvent κ ν → Py (DictStore κ ν) (DictOut κ ν)
  | .newDict ps => fun st => (.ok (.newDict st.dicts.length), { st with dicts := st.dicts ++ [ofPairs eqv ps] })
  | .mutate i ps => fun st =>
    match st.dicts[i]? with
    | some _ => (.ok .none, { st with dicts := st.dicts.set i (ofPairs eqv ps) })
    | none => (.ok .noSuch, st)
  | .construct a => fun st =>
    match st.arg eqv O a with
    | some (items, none) => addSorted (ofPairs eqv items) st
    | some (_, some e) => (.error e, st)
    | none => (.ok .noSuch, st)
  | .call j op => call eqv O j op
  | .update j a => fun st =>
    match st.sorted[j]?, st.arg eqv O a with
    | some d, some (items, _) => (.ok .none, { st with sorted := st.sorted.set j (PyDict.update eqv d items) })
    | _, _ => (.ok .noSuch, st)
  | .or j a => fun st =>
    match st.sorted[j]?, st.mapping eqv O a with
    | some d, some items => addSorted (ofPairs eqv (DictSpec.sortedItems eqv O d ++ items)) st
    | _, _ => (.ok .noSuch, st)
  | .ror j a => fun st =>
    match st.sorted[j]?, st.mapping eqv O a with
    | some d, some items => addSorted (ofPairs eqv (items ++ DictSpec.sortedItems eqv O d)) st
    | _, _ => (.ok .noSuch, st)
  | .copy j => fun st =>
    match st.sorted[j]? with
    | some d => addSorted (DictSpec.sortedItems eqv O d) st
    | none => (.ok .noSuch, st)
  | .pickle j => fun st =>
    match st.sorted[j]? with
    | some d => addSorted d st
    | none => (.ok .noSuch, st)
  | .reduceArgs j => fun st =>
    match st.sorted[j]? with
    | some d => (.ok (.newDict st.dicts.length), { st with dicts := st.dicts ++ [d] })
    | none => (.ok .noSuch, st)
  | .view j kind => fun st =>
    match st.sorted[j]? with
    | some _ => (.ok (.newView st.views.length), { st with views := st.views ++ [(kind, j)] })
    | none => (.ok .noSuch, st)
  | .iloc j => fun st =>
    match st.sorted[j]?, st.ilocs.lookup j with
    | some _, some n => (.ok (.oldView n), st)
    | some _, none => (.ok (.deprecated st.views.length),
        { st with views := st.views ++ [(.keys, j)], ilocs := (j, st.views.length) :: st.ilocs })
    | none, _ => (.ok .noSuch, st)
  | .viewCall n op => fun st =>
    match st.views[n]? with
    | some (kind, j) => call eqv O j (op.on kind) st
    | none => (.ok .noSuch, st)

end DictStore
end Verif
