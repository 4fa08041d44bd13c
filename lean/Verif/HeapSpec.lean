import Verif.Spec
/-!
# Specification of sharing

A client holds ordinary lists and sorted lists, passes the ones to the others, keeps what calls return, and changes its
own lists whenever it likes.  The specification: every list and every sorted list is a value of its own.  A call changes
the sorted list it is made on and nothing else; what it returns is new.
-/

namespace Verif

/-- The argument of a call: the client's `i`-th list, the `j`-th sorted list (possibly the one on which the call is made),
or any other iterable, given by the values it yields. -/
inductive Arg (α : Type) where
  | list (i : Nat)
  | sorted (j : Nat)
  | values (xs : List α)

/-- What the client does next. -/
inductive ShareEvent (α : Type) where
  /-- create a list -/
  | newList (xs : List α)
  /-- change the client's `i`-th list in any way -/
  | mutate (i : Nat) (f : List α → List α)
  /-- look at the client's `i`-th list -/
  | read (i : Nat)
  /-- `SortedList(arg)` -/
  | construct (arg : Arg α)
  /-- any call on the `j`-th sorted list, with arguments and results that the client does not keep -/
  | call (j : Nat) (op : Op α)
  /-- `sl.update(arg)` -/
  | update (j : Nat) (arg : Arg α)
  /-- `sl += arg` -/
  | iadd (j : Nat) (arg : Arg α)
  /-- `sl + arg` or `arg + sl`; the client keeps the result -/
  | concat (j : Nat) (arg : Arg α)
  /-- `sl.copy()`; the client keeps the result -/
  | copy (j : Nat)
  /-- `sl * n`; the client keeps the result -/
  | mul (j : Nat) (n : Int)
  /-- `sl[a:b:c]`; the client keeps the list -/
  | slice (j : Nat) (sl : PySlice)
  /-- the list in the tuple that `sl.__reduce__()` returns (for pickling); the client keeps it -/
  | reduceArgs (j : Nat)

/-- Load factors are at least 1. -/
def ShareEvent.Valid {α : Type} : ShareEvent α → Prop
  | .call _ op => op.Valid
  | _ => True

/-- The client changes its `i`-th list. -/
def ShareEvent.changesList {α : Type} (i : Nat) : ShareEvent α → Prop
  | .mutate i' _ => i' = i
  | _ => False

/-- A method that may change its object is called on the `j`-th sorted list. -/
def ShareEvent.changesSorted {α : Type} (j : Nat) : ShareEvent α → Prop
  | .call j' _ | .update j' _ | .iadd j' _ => j' = j
  | _ => False

/-- What the client gets. -/
inductive ShareOut (α : Type) where
  | none
  | value (o : Out α)
  /-- a new list, the client's `i`-th -/
  | newList (i : Nat)
  /-- a new sorted list, the `j`-th -/
  | newSorted (j : Nat)
  /-- the client named a list that it does not have -/
  | noSuch
deriving DecidableEq

/-- The client's lists and sorted lists, as values. -/
structure Store (α : Type) where
  lists : List (List α)
  sorted : List (List α)
deriving DecidableEq

namespace Store
variable {α : Type} (O : Spec.Order α)

def empty : Store α := { lists := [], sorted := [] }

/-- The values of an argument. -/
def arg (st : Store α) : Arg α → Option (List α)
  | .list i => st.lists[i]?
  | .sorted j => st.sorted[j]?
  | .values xs => some xs

/-- One more list. -/
def addList (l : List α) (st : Store α) : Except PyErr (ShareOut α) × Store α :=
  (.ok (.newList st.lists.length), { st with lists := st.lists ++ [l] })

/-- One more sorted list. -/
def addSorted (l : List α) (st : Store α) : Except PyErr (ShareOut α) × Store α :=
  (.ok (.newSorted st.sorted.length), { st with sorted := st.sorted ++ [l] })

/-- One event. -/
def step : ShareEvent α → Py (Store α) (ShareOut α)
  | .newList xs => addList xs
  | .mutate i f => fun st =>
    match st.lists[i]? with
    | some l => (.ok .none, { st with lists := st.lists.set i (f l) })
    | none => (.ok .noSuch, st)
  | .read i => fun st =>
    match st.lists[i]? with
    | some l => (.ok (.value (.vals l)), st)
    | none => (.ok .noSuch, st)
  | .construct a => fun st =>
    match st.arg a with
    | some xs => addSorted (Spec.insertAll O [] xs) st
    | none => (.ok .noSuch, st)
  | .call j op => fun st =>
    match st.sorted[j]? with
    | some l =>
      let r := Spec.step O op l
      (r.1.map .value, { st with sorted := st.sorted.set j r.2 })
    | none => (.ok .noSuch, st)
  | .update j a | .iadd j a => fun st =>
    match st.sorted[j]?, st.arg a with
    | some l, some xs => (.ok .none, { st with sorted := st.sorted.set j (Spec.insertAll O l xs) })
    | _, _ => (.ok .noSuch, st)
  | .concat j a => fun st =>
    match st.sorted[j]?, st.arg a with
    | some l, some xs => addSorted (Spec.insertAll O l xs) st
    | _, _ => (.ok .noSuch, st)
  | .copy j => fun st =>
    match st.sorted[j]? with
    | some l => addSorted l st
    | none => (.ok .noSuch, st)
  | .mul j n => fun st =>
    match st.sorted[j]? with
    | some l => addSorted (Spec.insertAll O [] (repeatList l n)) st
    | none => (.ok .noSuch, st)
  | .slice j sl => fun st =>
    match st.sorted[j]? with
    | some l =>
      match (Spec.getSlice sl l).1 with
      | .ok r => addList r st
      | .error e => (.error e, st)
    | none => (.ok .noSuch, st)
  | .reduceArgs j => fun st =>
    match st.sorted[j]? with
    | some l => addList l st
    | none => (.ok .noSuch, st)

end Store
end Verif
