import Verif.Op
import Verif.Model.Threads
/-!
# Calls of several threads that take effect one at a time

Several threads make calls on one object.  The calls are *linear* if they can be put in one order such that every thread gets what it would get if the calls were made in this order, one at
a time, and if this order agrees with time: what has taken effect once comes before what takes effect later, a call takes effect not before its thread has had a turn for it, and when a
thread has finished, all its calls have taken effect.
-/

namespace Verif
variable {τ ω β κ ν α : Type}

/-- What thread `i` has got, if it has finished. -/
def Pool.result (p : Pool τ β) (i : Nat) : Option (Except PyErr β) :=
  match p.threads[i]? with
  | some (.ret x) => some x
  | _ => none

/-- The calls of thread `i` among the calls of all threads. -/
def callsOf (i : Nat) (order : List (Nat × ω)) : List ω := (order.filter (·.1 == i)).map (·.2)

/-- What thread `i` gets if the calls are made in this order, one at a time.  `step`: the plain object. -/
def answersTo (step : ω → Py τ β) (start : τ) (order : List (Nat × ω)) (i : Nat) : List (Except PyErr β) :=
  ((order.zip (runHist step (order.map (·.2)) start).1).filter (·.1.1 == i)).map (·.2)

/-- `calls i`: the calls that thread `i` makes.  `answers n i`: what it has got after `n` turns of the schedule, if it has finished then.  `order n`: the calls that have taken effect after `n` turns. -/
structure Linear (step : ω → Py τ β) (start : τ) (calls : List (List ω)) (schedule : List Nat)
    (answers : Nat → Nat → Option (Except PyErr (List (Except PyErr β)))) (order : Nat → List (Nat × ω)) : Prop where
  grows : ∀ n, order n <+: order (n + 1)
  known : ∀ n, ∀ e ∈ order n, e.1 < calls.length
  inTurn : ∀ n i cs, calls[i]? = some cs → callsOf i (order n) <+: cs
  notEarly : ∀ n i, (callsOf i (order n)).length ≤ (schedule.take n).count i
  finished : ∀ n i cs r, calls[i]? = some cs → answers n i = some r → callsOf i (order n) = cs ∧ r = .ok (answersTo step start (order n) i)

/-- The calls that ask the built-in set only. -/
def SSOp.asksStore : SSOp α → Bool
  | .contains _ | .len | .count _ | .isdisjoint _ | .issubset _ | .issuperset _ | .compare .. | .copy | .intersection _ | .difference _ | .symmetricDifference _ => true
  | _ => false

/-- Lookups, and the calls that change the built-in set in one step: all that change the set but `update` (`|=`), `difference_update` (`-=`) and `_reset`. -/
def SSOp.oneStep : SSOp α → Bool
  | .add _ | .discard _ | .remove _ | .pop _ | .delInt _ | .delSlice _ | .clear | .intersectionUpdate _ | .symmetricDifferenceUpdate _ => true
  | op => op.asksStore

/-- The calls that ask the built-in dict only. -/
def SDOp.asksStore : SDOp κ ν → Bool
  | .getitem _ | .get _ | .contains _ | .len => true
  | _ => false

/-- Lookups, and the calls that change the built-in dict in one step: all that change the dict but `update` (`|=`), `del view[i:j]` and `_reset`. -/
def SDOp.oneStep : SDOp κ ν → Bool
  | .setitem .. | .delitem _ | .clear | .pop .. | .popitem _ | .setdefault .. | .viewDelInt _ => true
  | op => op.asksStore

end Verif
