import Verif.Ordered
import Verif.Model.SortedSet
import Verif.Model.SortedDict
/-!
# Sets and dicts of values that `<` does not tell apart although they are different

`==` is an equivalence, and equal values are not ordered by `<`; but of two values that are not ordered by `<`, one need not be equal to the other:
jobs that are compared by priority, say, and are equal only if they are the same job.
-/

namespace Verif
variable {α κ ν τ σ : Type}

/-- `<` is a strict weak order, `==` is `eqv`, `!=` is its negation, and equal values are not ordered by `<`. -/
structure Env.Finer (E : Env α) (lt eqv : α → α → Bool) : Prop extends E.Ordered lt where
  eq_ok : ∀ a b, E.cmp .eq a b = .ok (eqv a b)
  ne_ok : ∀ a b, E.cmp .ne a b = .ok (!eqv a b)
  fine : ∀ a b, eqv a b = true → equiv lt a b = true

/-- If `v` is in the list, then it comes first among the values that `<` does not tell apart from it: all values in front of it are less. -/
def ComesFirst (lt eqv : α → α → Bool) (v : α) (l : List α) : Prop :=
  (∃ x ∈ l, eqv x v = true) → ∃ A x B, l = A ++ x :: B ∧ eqv x v = true ∧ ∀ a ∈ A, lt a v = true

/-- The list has no value that is different from `v` and that `<` does not tell apart from it. -/
def NoOther (lt eqv : α → α → Bool) (v : α) (l : List α) : Prop :=
  ∀ x ∈ l, equiv lt x v = true → eqv x v = true

/-- What the calls that look a value up in the sorted list need, for a set that iterates as `l`. -/
def SSOp.Tame (lt eqv : α → α → Bool) (l : List α) : SSOp α → Prop
  | .discard v => ComesFirst lt eqv v l
  | .remove v => ComesFirst lt eqv v l
  | .differenceUpdate xss => ∀ v ∈ xss.flatten, NoOther lt eqv v l
  | .index v _ _ => NoOther lt eqv v l
  | _ => True

/-- What the calls that look a key up in the sorted list need, for a dict that iterates as `l`. -/
def SDOp.Tame (lt eqv : κ → κ → Bool) (l : List κ) : SDOp κ ν → Prop
  | .delitem k => ComesFirst lt eqv k l
  | .pop k _ => ComesFirst lt eqv k l
  | .index k _ _ => NoOther lt eqv k l
  | _ => True

/-- The states a SortedSet reaches by tame calls. -/
inductive SS.TameReachable (S : SetOps τ α) (L : ListAPI σ α) (lt eqv : α → α → Bool) : SS τ σ → Prop where
  | new {xs s} : SS.new S L xs = .ok s → TameReachable S L lt eqv s
  | copy {s s'} : TameReachable S L lt eqv s → SS.copy S L s = .ok s' → TameReachable S L lt eqv s'
  | union {s s' xss} : TameReachable S L lt eqv s → SS.union S L xss s = .ok s' → TameReachable S L lt eqv s'
  | intersection {s s' xss} : TameReachable S L lt eqv s → SS.intersection S L xss s = .ok s' → TameReachable S L lt eqv s'
  | difference {s s' xss} : TameReachable S L lt eqv s → SS.difference S L xss s = .ok s' → TameReachable S L lt eqv s'
  | symmetricDifference {s s' xs} : TameReachable S L lt eqv s → SS.symmetricDifference S L xs s = .ok s' → TameReachable S L lt eqv s'
  | step {s} (op : SSOp α) : op.Valid → op.Tame lt eqv (SS.iter L s) → TameReachable S L lt eqv s →
      TameReachable S L lt eqv (SS.step S L op s).2

/-- Every call of the history is tame in the state in which it is made. -/
def SD.TameFrom (eqv : κ → κ → Bool) (L : ListAPI σ κ) (lt : κ → κ → Bool) : List (SDOp κ ν) → SD κ ν σ → Prop
  | [], _ => True
  | op :: ops, s => op.Tame lt eqv (SD.iter L s) ∧ TameFrom eqv L lt ops (SD.step eqv L op s).2

/-- The states a SortedDict reaches by tame calls. -/
inductive SD.TameReachable (eqv : κ → κ → Bool) (L : ListAPI σ κ) (lt : κ → κ → Bool) : SD κ ν σ → Prop where
  | new {arg s} : arg.fail = none → SD.new eqv L arg = .ok s → TameReachable eqv L lt s
  | copy {s s'} : TameReachable eqv L lt s → SD.copy eqv L s = .ok s' → TameReachable eqv L lt s'
  | or {s s' other} : TameReachable eqv L lt s → SD.or eqv L other s = .ok s' → TameReachable eqv L lt s'
  | ror {s s' other} : TameReachable eqv L lt s → SD.ror eqv L other s = .ok s' → TameReachable eqv L lt s'
  | step {s} (op : SDOp κ ν) : op.Valid → op.Tame lt eqv (SD.iter L s) → TameReachable eqv L lt s →
      TameReachable eqv L lt (SD.step eqv L op s).2

end Verif
