import Verif.WildSets
/-!
# Values that change while they are stored

A value is an object with an identity; what comparing two values, or the key function, says about them may change when the
client modifies them.  In the model that is a change of the environment between two calls, with the values staying the same.
-/

namespace Verif
variable {α κ : Type}

/-- The values whose keys a call may store, where `l` are the contents before the call: the arguments that are added, and for
the bulk calls the contents as well. -/
def Op.stores (l : List α) : Op α → List α
  | .add v => [v]
  | .update xs | .iadd xs => l ++ xs
  | .imul _ | .reset _ | .delSlice _ => l
  | _ => []

/-- For these values the key function returns what `key` says, or raises. -/
def KEnv.KeyIs (K : KEnv α κ) (key : α → κ) (vs : List α) : Prop := ∀ v ∈ vs, ∀ k, K.key v = .ok k → k = key v

/-- The states a SortedKeyList can reach when nothing is known about the comparisons, and the key function may be another one
in every call, except that the keys it stores are those that `key` gives. -/
inductive SKL.Keyed (key : α → κ) : St α κ → Prop where
  | new {K : KEnv α κ} {xs s} : K.Sane → K.KeyIs key (xs.getD []) → SKL.new K xs = .ok s → SKL.Keyed key s
  | step {K : KEnv α κ} {s} (op : Op α) : K.Sane → op.Valid → K.KeyIs key (op.stores (Core.iter s)) → SKL.Keyed key s →
      (op.bulk = true → (∃ r, ((SKL.api K).step op s).1 = .ok r) ∨ ((SKL.api K).step op s).2 = s) →
      SKL.Keyed key ((SKL.api K).step op s).2
  | query {K : KEnv α κ} {s} (op : KOp α κ) : K.Sane → op.isQuery = true → SKL.Keyed key s → SKL.Keyed key (SKL.kstep K op s).2

/-- The calls on a SortedKeyList that do not call the key function: those by position, and those that are given a key. -/
def KOp.keyless : KOp α κ → Bool
  | .op o => o.positional
  | _ => true

/-! ## Sorted sets and dicts -/

/-- What comparing says at present: `E` compares by the strict weak order `lt`, and values are equal to the built-in set or
dict (`eqv`, which does not change) when neither is less. -/
structure Env.Now (E : Env α) (lt eqv : α → α → Bool) : Prop where
  lawful : E.Lawful lt
  eqv : ∀ a b, eqv a b = equiv lt a b

/-- The sorted sets a client can have when the order of the values changes between the calls, but the contents are in
order whenever a method is called. -/
inductive SS.Living {τ : Type} (S : SetOps τ α) (eqv : α → α → Bool) : SS τ (St α α) → Prop where
  | new {E : Env α} {lt xs s} : E.Now lt eqv → SS.new S (SL.api E) xs = .ok s → SS.Living S eqv s
  | step {E : Env α} {lt s} (op : SSOp α) : E.Now lt eqv → op.Valid → SS.Living S eqv s →
      Sorted lt (SS.iter (SL.api E) s) → SS.Living S eqv (SS.step S (SL.api E) op s).2

/-- The same for sorted dicts. -/
inductive SD.Living {ν : Type} (eqv : κ → κ → Bool) : SD κ ν (St κ κ) → Prop where
  | new {E : Env κ} {lt arg s} : E.Now lt eqv → arg.fail = none → SD.new eqv (SL.api E) arg = .ok s → SD.Living eqv s
  | step {E : Env κ} {lt s} (op : SDOp κ ν) : E.Now lt eqv → op.Valid → SD.Living eqv s →
      Sorted lt (SD.iter (SL.api E) s) → SD.Living eqv (SD.step eqv (SL.api E) op s).2

end Verif
