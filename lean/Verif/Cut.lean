import Verif.Model.Interrupt
import Verif.Wild
/-!
# Interrupted calls: what they may leave behind
-/

namespace Verif
variable {α κ : Type}

/-- `l` is `F` without one run of at most `n` values. -/
def Lost (n : Nat) (F l : List α) : Prop :=
  ∃ a b c, F = a ++ b ++ c ∧ b.length ≤ n ∧ l = a ++ c

/-- `l` is `F` without one run of at most `n` values, or with one run of at most `n` values twice. -/
def Torn (n : Nat) (F l : List α) : Prop :=
  ∃ a b c, F = a ++ b ++ c ∧ b.length ≤ n ∧ (l = a ++ c ∨ l = a ++ b ++ b ++ c)

/-- `l` has only values that `xs` has, each at most as often. -/
def PartOf (xs l : List α) : Prop := ∃ rest, (l ++ rest).Perm xs

/-- What may be found in the list (`l`) after a call was interrupted; `before` are the values it had, `after` those it has if the call is
not interrupted. -/
def Op.Aftermath (load : Nat) (before after l : List α) : Op α → Prop
  | .add _ => l = before ∨ Lost (load + 1) after l
  | .discard _ | .remove _ | .delInt _ | .pop _ => l = before ∨ Torn (load * 2) after l
  | .clear => l = before ∨ l = []
  | .update xs | .iadd xs => PartOf (before ++ xs) l
  | .imul n => l = before ∨ PartOf (repeatList before n) l
  | .reset _ => PartOf before l
  | .delSlice _ => ∃ F, PartOf before F ∧ Torn (load * 2) F l
  | _ => l = before

/-- The SortedLists a client can have whose calls may be interrupted, any number of them, when only values with `V` were ever put in.
The comparisons may be different in every call, and calls may raise.  `rest`: the positional index may be damaged in any way. -/
inductive SL.Cut (V : α → Prop) : St α α → Prop where
  | new {E : Env α} {xs s} : E.Sane → SL.new E xs = .ok s → (∀ v ∈ xs.getD [], V v) → SL.Cut V s
  | done {E : Env α} {s} (op : Op α) : E.Sane → op.Valid → (∀ v ∈ op.inserted, V v) → SL.Cut V s →
      ((Interrupt.SL.step E op).run s).1 ≠ .error .modelGap → SL.Cut V ((Interrupt.SL.step E op).run s).2
  | cut {E : Env α} {s x} (op : Op α) : E.Sane → op.Valid → (∀ v ∈ op.inserted, V v) → SL.Cut V s →
      x ∈ (Interrupt.SL.step E op).points s → SL.Cut V x
  | rest {s} (index : List Nat) (offset : Nat) : SL.Cut V s → SL.Cut V { s with index := index, offset := offset }

/-- The same for a SortedKeyList. -/
inductive SKL.Cut (V : α → Prop) : St α κ → Prop where
  | new {K : KEnv α κ} {xs s} : K.Sane → SKL.new K xs = .ok s → (∀ v ∈ xs.getD [], V v) → SKL.Cut V s
  | done {K : KEnv α κ} {s} (op : KOp α κ) : K.Sane → op.Valid → (∀ v ∈ op.inserted, V v) → SKL.Cut V s →
      ((Interrupt.SKL.kstep K op).run s).1 ≠ .error .modelGap → SKL.Cut V ((Interrupt.SKL.kstep K op).run s).2
  | cut {K : KEnv α κ} {s x} (op : KOp α κ) : K.Sane → op.Valid → (∀ v ∈ op.inserted, V v) → SKL.Cut V s →
      x ∈ (Interrupt.SKL.kstep K op).points s → SKL.Cut V x
  | rest {s} (index : List Nat) (offset : Nat) : SKL.Cut V s → SKL.Cut V { s with index := index, offset := offset }

end Verif
