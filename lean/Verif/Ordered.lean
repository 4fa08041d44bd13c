import Verif.Model.API
/-!
# Environments in which only `<` is known to behave
-/

namespace Verif
variable {α κ : Type}

/-- `<` does not raise and is a strict weak order, and `sorted` sorts by it.  Nothing is assumed about the other comparison operators: they may have nothing to do with `<`,
and they may raise. -/
structure Env.Ordered (E : Env α) (lt : α → α → Bool) : Prop where
  order : StrictWeakOrder lt
  lt_ok : ∀ a b, E.cmp .lt a b = .ok (lt a b)
  sorted : ∀ xs, ∃ ys, E.sorted xs = .ok ys ∧ IsStableSort lt xs ys
  ilog2 : ∀ n, 1 ≤ n → n < 2 ^ (E.ilog2 n + 1)

/-- The key function and `<` of keys do not raise, keys are ordered by a strict weak order, and `sorted` sorts by key.  Nothing is assumed about
the other comparison operators of keys and about those of values. -/
structure KEnv.Ordered (K : KEnv α κ) (key : α → κ) (klt : κ → κ → Bool) : Prop where
  order : StrictWeakOrder klt
  key_ok : ∀ a, K.key a = .ok (key a)
  lt_ok : ∀ a b, K.kcmp .lt a b = .ok (klt a b)
  sorted : ∀ xs, ∃ ys, K.sortedByKey xs = .ok ys ∧ IsStableSort (fun a b => klt (key a) (key b)) xs ys
  ilog2 : ∀ n, 1 ≤ n → n < 2 ^ (K.ilog2 n + 1)

end Verif
