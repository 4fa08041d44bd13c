import Verif.Model.Locked
/-!
# Calls one after the other

Specification of C93: each call runs from its first access to its last, and then the next one begins.
-/

namespace Verif

/-- The calls, one after the other, without a thread switch: their answers and what they leave; `none` if one of them does not end. -/
def Task.serially {σ γ β : Type} (step : γ → Task σ β) : List γ → σ → Option (List (Except PyErr β) × σ)
  | [], s => some ([], s)
  | c :: cs, s =>
    match (step c).alone s with
    | none => none
    | some (answer, s') =>
      match serially step cs s' with
      | none => none
      | some (answers, s'') => some (answer :: answers, s'')

/-- The calls of the threads happen one after the other.  `p.log` has the calls that have ended; `p.holder` is the call under way, if any.
* The calls that have ended have the answers that they have one after the other, in the order in which the lock was given back,
* and if nobody is in a call, the object is as they leave it.
* Else the call under way goes on to what it comes to if it begins when they have ended.
* Each thread makes its calls in its order. -/
def Guarded.Serial {σ γ β : Type} (step : γ → Task σ β) (start : σ) (threads : List (List γ)) (p : Guarded σ γ β) : Prop :=
  ∃ now, Task.serially step (p.log.map fun e => e.2.1) start = some (p.log.map fun e => e.2.2, now) ∧
    (p.holder = none → p.shared = now) ∧
    (∀ i call rest, p.holder = some (i, call, rest) → rest.alone p.shared = (step call).alone now) ∧
    ∀ i calls, p.waiting[i]? = some calls → threads[i]? = some (p.ended i ++ p.current i ++ calls)

/-- The exceptions that calls on a SortedSet or SortedDict of the class raise: IndexError, ValueError, KeyError, and what a comparison, the key function or a sort of values raises. -/
def ListClass.MayRaise {α : Type} : ListClass α → PyErr → Prop
  | .plain E, e => e = .indexError ∨ e = .valueError ∨ e = .keyError ∨ (∃ op x y, E.cmp op x y = .error e) ∨ ∃ xs, E.sorted xs = .error e
  | .keyed K, e => e = .indexError ∨ e = .valueError ∨ e = .keyError ∨ (∃ x, K.key x = .error e) ∨ (∃ op x y, K.kcmp op x y = .error e) ∨ (∃ op x y, K.vcmp op x y = .error e) ∨
      ∃ xs, K.sortedByKey xs = .error e

end Verif
