import Verif.Proofs.CountedSKL
/-!
# The numbers of sublists and of values in a sublist, against the number of values
-/

namespace Verif
variable {α κ : Type} {k : α → κ} {lt : κ → κ → Bool} {keyed : Bool} {s : St α κ}

theorem mul_le_flatten {h : Nat} : ∀ (L : List (List α)), (∀ l ∈ L.dropLast, h ≤ l.length) → (∀ l ∈ L, l ≠ []) →
    L ≠ [] → (L.length - 1) * h + 1 ≤ L.flatten.length
  | [], _, _, hne => absurd rfl hne
  | [l], _, hl, _ => by
    have := List.length_pos_iff.2 (hl l (by simp))
    simp; omega
  | l :: l' :: L, hlow, hl, _ => by
    have ih := mul_le_flatten (l' :: L) (fun x hx => hlow x (by simp [hx])) (fun x hx => hl x (by simp [hx])) (by simp)
    have h1 := hlow l (by simp)
    have e : (l :: l' :: L).length - 1 = ((l' :: L).length - 1) + 1 := by simp
    rw [e, Nat.succ_mul, List.flatten_cons, List.length_append]
    omega

/-- All sublists but one hold at least half the load. -/
theorem Inv.sublists_mul (h : Inv k lt keyed s) (hne : s.lists ≠ []) :
    (s.lists.length - 1) * (s.load / 2) + 1 ≤ (Core.iter s).length :=
  mul_le_flatten s.lists h.lower h.ne_nil hne

theorem length_le_flatten : ∀ (L : List (List α)), (∀ l ∈ L, l ≠ []) → L.length ≤ L.flatten.length
  | [], _ => Nat.le_refl _
  | l :: L, hl => by
    have ih := length_le_flatten L fun x hx => hl x (by simp [hx])
    have := List.length_pos_iff.2 (hl l (by simp))
    rw [List.flatten_cons, List.length_append, List.length_cons]; omega

theorem Inv.sublists_le (h : Inv k lt keyed s) : s.lists.length ≤ (Core.iter s).length := length_le_flatten _ h.ne_nil

theorem mem_le_flatten {L : List (List α)} {l : List α} (h : l ∈ L) : l.length ≤ L.flatten.length :=
  (List.sublist_flatten_of_mem h).length_le

theorem bits_shift (n : Nat) (h : n ≠ 0) : bits (16 * n - 1) ≤ bits n + 4 := by
  refine bits_le ?_
  have := lt_pow_bits n
  rw [Nat.pow_add]; omega

theorem Inv.bits_le (h : Inv k lt keyed s) {l : List α} (hl : l ∈ s.lists) :
    bits s.lists.length + bits l.length ≤ bits (Core.iter s).length + 5 := by
  have hn := h.sublists_le
  have hne : s.lists ≠ [] := List.ne_nil_of_mem hl
  have hm0 : s.lists.length ≠ 0 := by simpa using hne
  have hl0 : l.length ≠ 0 := by simpa using h.ne_nil l hl
  have hln : l.length ≤ (Core.iter s).length := mem_le_flatten hl
  have hup := h.upper l hl
  have hmul := h.sublists_mul hne
  have hload := h.load_pos
  refine Nat.le_trans (bits_mul hm0 hl0) ?_
  suffices hs : s.lists.length * l.length ≤ 16 * (Core.iter s).length - 1 by
    have := bits_mono hs
    have := bits_shift (Core.iter s).length (by omega)
    omega
  by_cases h1 : s.lists.length = 1
  · rw [h1]; omega
  by_cases h2 : s.load = 1
  · rw [h2] at hup
    calc s.lists.length * l.length ≤ (Core.iter s).length * 2 := Nat.mul_le_mul hn (by omega)
      _ ≤ 16 * (Core.iter s).length - 1 := by omega
  · have e1 : s.lists.length ≤ 2 * (s.lists.length - 1) := by omega
    have e2 : l.length ≤ 6 * (s.load / 2) := by omega
    calc s.lists.length * l.length ≤ 2 * (s.lists.length - 1) * (6 * (s.load / 2)) := Nat.mul_le_mul e1 e2
      _ = 12 * ((s.lists.length - 1) * (s.load / 2)) := by
        rw [Nat.mul_mul_mul_comm]
      _ ≤ 16 * (Core.iter s).length - 1 := by omega

/-- What a binary search of the maxima and then of a sublist may cost together. -/
theorem Inv.within (h : Inv k lt keyed s) : Within s (bits (Core.iter s).length + 5 - bits s.lists.length) := by
  intro l hl
  have := h.bits_le hl
  omega

theorem Inv.bits_sublists (h : Inv k lt keyed s) : bits s.lists.length ≤ bits (Core.iter s).length := bits_mono h.sublists_le

theorem bits_log2 (n : Nat) : bits n ≤ Nat.log2 n + 1 := by
  unfold bits; split <;> omega

end Verif
