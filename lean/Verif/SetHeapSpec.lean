import Verif.SetSpec
/-!
# Specification of sharing between sets

A client holds built-in sets and sorted sets, passes the ones to the others, keeps what calls return, and changes its own
sets whenever it likes.  The specification: every set and every sorted set is a value of its own.  A call changes
the sorted set it is made on and nothing else; what it returns is new.

For values that are equal only if they are identical, in an order that tells different values apart: then the contents of
a built-in set are given by the sorted list of its values, too.
-/

namespace Verif

/-- The argument of a call: the client's `i`-th set, the `j`-th sorted set (possibly the one on which the call is made), or
any other iterable, given by the values it yields. -/
inductive SetArg (α : Type) where
  | set (i : Nat)
  | sorted (j : Nat)
  | values (xs : List α)

/-- What the client does next. -/
inductive SetEvent (α : Type) where
  /-- `set(xs)` -/
  | newSet (xs : List α)
  /-- change the client's `i`-th set in any way: `xs` are the values it has afterwards -/
  | mutate (i : Nat) (xs : List α)
  /-- `SortedSet(arg)` -/
  | construct (arg : SetArg α)
  /-- any call on the `j`-th sorted set, with arguments and results that the client does not keep -/
  | call (j : Nat) (op : SSOp α)
  /-- `ss op other` for a set or sorted set -/
  | compare (j : Nat) (op : CmpOp) (other : SetArg α)
  /-- `ss.update(*args)`, `ss |= arg` -/
  | update (j : Nat) (args : List (SetArg α))
  /-- `ss.difference_update(*args)`, `ss -= arg` -/
  | differenceUpdate (j : Nat) (args : List (SetArg α))
  /-- `ss.intersection_update(*args)`, `ss &= arg` -/
  | intersectionUpdate (j : Nat) (args : List (SetArg α))
  /-- `ss.symmetric_difference_update(arg)`, `ss ^= arg` -/
  | symmetricDifferenceUpdate (j : Nat) (arg : SetArg α)
  /-- `ss.copy()`; the client keeps the result -/
  | copy (j : Nat)
  /-- `ss.union(*args)`, `ss | arg`; the client keeps the result -/
  | union (j : Nat) (args : List (SetArg α))
  /-- `ss.intersection(*args)`, `ss & arg`; the client keeps the result -/
  | intersection (j : Nat) (args : List (SetArg α))
  /-- `ss.difference(*args)`, `ss - arg`; the client keeps the result -/
  | difference (j : Nat) (args : List (SetArg α))
  /-- `ss.symmetric_difference(arg)`, `ss ^ arg`; the client keeps the result -/
  | symmetricDifference (j : Nat) (arg : SetArg α)
  /-- `copy.deepcopy(ss)`, or pickling and unpickling; the client keeps the result -/
  | pickle (j : Nat)
  /-- the set in the tuple that `ss.__reduce__()` returns (for pickling); the client keeps it -/
  | reduceArgs (j : Nat)

/-- Load factors are at least 1. -/
def SetEvent.Valid {α : Type} : SetEvent α → Prop
  | .call _ op => op.Valid
  | _ => True

/-- The client asks for the tuple made for pickling, and keeps the set in it. -/
def SetEvent.isReduce {α : Type} : SetEvent α → Prop
  | .reduceArgs _ => True
  | _ => False

/-- The client changes its `i`-th set. -/
def SetEvent.changesSet {α : Type} (i : Nat) : SetEvent α → Prop
  | .mutate i' _ => i' = i
  | _ => False

/-- A method that may change its object is called on the `j`-th sorted set. -/
def SetEvent.changesSorted {α : Type} (j : Nat) : SetEvent α → Prop
  | .call j' _ | .update j' _ | .differenceUpdate j' _ | .intersectionUpdate j' _ | .symmetricDifferenceUpdate j' _ => j' = j
  | _ => False

/-- What the client gets. -/
inductive SetOut (α : Type) where
  | none
  | value (o : Out α)
  /-- a new set, the client's `i`-th -/
  | newSet (i : Nat)
  /-- a new sorted set, the `j`-th -/
  | newSorted (j : Nat)
  /-- the client named a set that it does not have -/
  | noSuch
deriving DecidableEq

/-- The client's sets and sorted sets, as values: sorted lists without repetitions. -/
structure SetStore (α : Type) where
  sets : List (List α)
  sorted : List (List α)
deriving DecidableEq

namespace SetStore
variable {α : Type} [DecidableEq α] (O : Spec.Order α)

def empty : SetStore α := { sets := [], sorted := [] }

/-- The values of an argument. -/
def arg (st : SetStore α) : SetArg α → Option (List α)
  | .set i => st.sets[i]?
  | .sorted j => st.sorted[j]?
  | .values xs => some xs

/-- The values of several arguments. -/
def args (st : SetStore α) (as : List (SetArg α)) : Option (List (List α)) := as.mapM st.arg

/-- One more sorted set. -/
def addSorted (l : List α) (st : SetStore α) : Except PyErr (SetOut α) × SetStore α :=
  (.ok (.newSorted st.sorted.length), { st with sorted := st.sorted ++ [l] })

/-- The `j`-th sorted set is changed by `f`. -/
def change {β : Type} (j : Nat) (as : Option β) (f : β → List α → List α) : Py (SetStore α) (SetOut α) := fun st =>
  match st.sorted[j]?, as with
  | some l, some b => (.ok .none, { st with sorted := st.sorted.set j (f b l) })
  | _, _ => (.ok .noSuch, st)

/-- One more sorted set, made from the `j`-th. -/
def derive {β : Type} (j : Nat) (as : Option β) (f : β → List α → List α) : Py (SetStore α) (SetOut α) := fun st =>
  match st.sorted[j]?, as with
  | some l, some b => addSorted (f b l) st
  | _, _ => (.ok .noSuch, st)

/-- One event. -/
def step : SetEvent α → Py (SetStore α) (SetOut α)
  | .newSet xs => fun st => (.ok (.newSet st.sets.length), { st with sets := st.sets ++ [SetSpec.insertAll O [] xs] })
  | .mutate i xs => fun st =>
    match st.sets[i]? with
    | some _ => (.ok .none, { st with sets := st.sets.set i (SetSpec.insertAll O [] xs) })
    | none => (.ok .noSuch, st)
  | .construct a => fun st =>
    match st.arg a with
    | some xs => addSorted (SetSpec.insertAll O [] xs) st
    | none => (.ok .noSuch, st)
  | .call j op => fun st =>
    match st.sorted[j]? with
    | some l =>
      let r := SetSpec.step O op l
      (r.1.map .value, { st with sorted := st.sorted.set j r.2 })
    | none => (.ok .noSuch, st)
  | .compare j op a => fun st =>
    match st.sorted[j]?, st.arg a with
    | some l, some r => (.ok (.value (.bool (SetSpec.compare op r l))), st)
    | _, _ => (.ok .noSuch, st)
  | .update j as => fun st => change j (st.args as) (SetSpec.union O) st
  | .differenceUpdate j as => fun st => change j (st.args as) SetSpec.difference st
  | .intersectionUpdate j as => fun st => change j (st.args as) SetSpec.intersection st
  | .symmetricDifferenceUpdate j a => fun st => change j (st.arg a) (SetSpec.symmetricDifference O) st
  | .copy j | .pickle j => derive j (some ()) fun _ l => l
  | .union j as => fun st => derive j (st.args as) (SetSpec.union O) st
  | .intersection j as => fun st => derive j (st.args as) SetSpec.intersection st
  | .difference j as => fun st => derive j (st.args as) SetSpec.difference st
  | .symmetricDifference j a => fun st => derive j (st.arg a) (SetSpec.symmetricDifference O) st
  | .reduceArgs j => fun st =>
    match st.sorted[j]? with
    | some l => (.ok (.newSet st.sets.length), { st with sets := st.sets ++ [l] })
    | none => (.ok .noSuch, st)

end SetStore
end Verif
