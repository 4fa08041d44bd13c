import Verif.Model.API
/-!
# Objects whose values do not compare well

The vocabulary for properties that hold although comparisons or the key function raise, contradict each other
(`nan`), or change from call to call.
-/

namespace Verif
variable {α κ : Type}

/-- The assumptions that remain: a `sorted` that returns, returns a rearrangement, and `int(log(n, 2))` is not too small. -/
structure Env.Sane (E : Env α) : Prop where
  perm : ∀ xs ys, E.sorted xs = .ok ys → ys.Perm xs
  ilog2 : ∀ n, 1 ≤ n → n < 2 ^ (E.ilog2 n + 1)

/-- The same for a SortedKeyList. -/
structure KEnv.Sane (K : KEnv α κ) : Prop where
  perm : ∀ xs ys, K.sortedByKey xs = .ok ys → ys.Perm xs
  ilog2 : ∀ n, 1 ≤ n → n < 2 ^ (K.ilog2 n + 1)

/-- `l'` is `l` with `v` put in somewhere. -/
def Inserted (v : α) (l l' : List α) : Prop := ∃ X Y, l = X ++ Y ∧ l' = X ++ v :: Y

/-- `l'` is `l` without one value, for which `p` holds. -/
def Removed (p : α → Prop) (l l' : List α) : Prop := ∃ X x Y, l = X ++ x :: Y ∧ l' = X ++ Y ∧ p x

/-- The calls that do not compare values: they go by position only. -/
def Op.positional : Op α → Bool
  | .getInt _ | .getSlice _ | .delInt _ | .pop _ | .islice .. | .iter | .reversed | .len | .clear | .unsupported _ => true
  | _ => false

/-- The states a SortedList can reach when nothing is known about the comparisons: construct it, then call methods with
valid arguments, catching exceptions.  The comparisons may be different in every call (`E` is not fixed).  The one
restriction is that a bulk call which raised halfway ends the history: after a bulk call the object is included if the
call returned or left the object as it was. -/
inductive SL.Wild : St α α → Prop where
  | new {E : Env α} {xs s} : E.Sane → SL.new E xs = .ok s → SL.Wild s
  | step {E : Env α} {s} (op : Op α) : E.Sane → op.Valid → SL.Wild s →
      (op.bulk = true → (∃ r, ((SL.api E).step op s).1 = .ok r) ∨ ((SL.api E).step op s).2 = s) →
      SL.Wild ((SL.api E).step op s).2

/-- The states a SortedKeyList can reach when nothing is known about the key function and the comparisons. -/
inductive SKL.Wild : St α κ → Prop where
  | new {K : KEnv α κ} {xs s} : K.Sane → SKL.new K xs = .ok s → SKL.Wild s
  | step {K : KEnv α κ} {s} (op : Op α) : K.Sane → op.Valid → SKL.Wild s →
      (op.bulk = true → (∃ r, ((SKL.api K).step op s).1 = .ok r) ∨ ((SKL.api K).step op s).2 = s) →
      SKL.Wild ((SKL.api K).step op s).2
  | query {K : KEnv α κ} {s} (op : KOp α κ) : K.Sane → op.isQuery = true → SKL.Wild s → SKL.Wild (SKL.kstep K op s).2

/-- The same for either class. -/
def ListClass.Wild : (c : ListClass α) → c.State → Prop
  | .plain _ => fun s => SL.Wild s
  | .keyed _ => fun s => SKL.Wild s

/-- The assumptions that remain, for either class. -/
def ListClass.Sane : ListClass α → Prop
  | .plain E => E.Sane
  | .keyed K => K.Sane

end Verif
