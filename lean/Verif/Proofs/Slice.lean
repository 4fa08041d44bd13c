import Verif.Proofs.Basic
/-!
# Slices of plain lists
-/

namespace Verif
variable {α : Type}

theorem indices_step {sl : PySlice} {len : Nat} {a b c : Int} (h : sl.indices len = .ok (a, b, c)) :
    c ≠ 0 ∧ c = sl.step.getD 1 := by
  unfold PySlice.indices at h
  simp only at h
  split at h
  · cases h
  · rename_i h0
    simp only [Except.ok.injEq, Prod.mk.injEq] at h
    exact ⟨h.2.2 ▸ h0, h.2.2.symm⟩

theorem indices_bounds {sl : PySlice} {len : Nat} {a b c : Int} (h : sl.indices len = .ok (a, b, c)) :
    (0 < c → 0 ≤ a ∧ a ≤ len ∧ 0 ≤ b ∧ b ≤ len) ∧
    (c < 0 → -1 ≤ a ∧ a < len ∧ -1 ≤ b ∧ b < len) := by
  unfold PySlice.indices at h
  simp only at h
  split at h
  · cases h
  simp only [Except.ok.injEq, Prod.mk.injEq] at h
  obtain ⟨ha, hb, rfl⟩ := h
  subst ha hb
  constructor <;> intro hc <;>
  · split <;> split <;> simp only [adjustIndex] <;> (repeat' split) <;> omega

theorem rangeLen_bound {a b c : Int} {n : Nat} (hc : 0 < c) (h : n < rangeLen a b c) : a + n * c < b := by
  unfold rangeLen at h
  rw [if_pos hc] at h
  split at h
  · have h1 : (n : Int) ≤ (b - a - 1) / c := by
      have : 0 ≤ (b - a - 1) / c := Int.ediv_nonneg (by omega) (by omega)
      omega
    have h2 : (n : Int) * c ≤ b - a - 1 := Int.le_trans (Int.mul_le_mul_of_nonneg_right h1 (by omega))
      (Int.ediv_mul_le _ (by omega))
    omega
  · omega

theorem rangeLen_bound_neg {a b c : Int} {n : Nat} (hc : c < 0) (h : n < rangeLen a b c) : b < a + n * c := by
  unfold rangeLen at h
  rw [if_neg (by omega)] at h
  split at h
  · have h1 : (n : Int) ≤ (a - b - 1) / (-c) := by
      have : 0 ≤ (a - b - 1) / (-c) := Int.ediv_nonneg (by omega) (by omega)
      omega
    have h2 : (n : Int) * (-c) ≤ a - b - 1 := Int.le_trans (Int.mul_le_mul_of_nonneg_right h1 (by omega))
      (Int.ediv_mul_le _ (by omega))
    rw [Int.mul_neg] at h2
    omega
  · omega

theorem mem_pyRange {a b c i : Int} (h : i ∈ pyRange a b c) : ∃ n : Nat, n < rangeLen a b c ∧ i = a + n * c := by
  simp only [pyRange, List.mem_map, List.mem_range] at h
  obtain ⟨n, h1, h2⟩ := h
  exact ⟨n, h1, h2.symm⟩

theorem mem_pyRange_bounds {sl : PySlice} {len : Nat} {a b c i : Int} (h : sl.indices len = .ok (a, b, c))
    (hi : i ∈ pyRange a b c) : 0 ≤ i ∧ i < len := by
  obtain ⟨n, hn, rfl⟩ := mem_pyRange hi
  obtain ⟨h1, h2⟩ := indices_bounds h
  have h0 := (indices_step h).1
  by_cases hc : 0 < c
  · have := rangeLen_bound hc hn
    have := h1 hc
    have : 0 ≤ (n : Int) * c := Int.mul_nonneg (by omega) (by omega)
    omega
  · have := rangeLen_bound_neg (by omega) hn
    have := h2 (by omega)
    have : (n : Int) * c ≤ 0 := Int.mul_nonpos_of_nonneg_of_nonpos (by omega) (by omega)
    omega

theorem pyRange_one {a b : Int} (ha : 0 ≤ a) :
    pyRange a b 1 = (List.range' a.toNat (b - a).toNat).map (fun (n : Nat) => (n : Int)) := by
  unfold pyRange
  have : rangeLen a b 1 = (b - a).toNat := by
    unfold rangeLen
    rw [if_pos (by omega)]
    split
    · rw [Int.ediv_one]; omega
    · omega
  rw [this, List.range'_eq_map_range, List.map_map]
  apply List.map_congr_left
  intro n _
  simp only [Function.comp, Int.mul_one]
  omega

theorem pyRange_neg_one {a b : Int} (hb : -1 ≤ b) (_hab : b < a) :
    pyRange a b (-1) = (pyRange (b + 1) (a + 1) 1).reverse := by
  rw [pyRange_one (by omega)]
  unfold pyRange
  have : rangeLen a b (-1) = (a - b).toNat := by
    unfold rangeLen
    rw [if_neg (by omega)]
    split
    · simp
    · omega
  rw [this]
  apply List.ext_getElem
  · simp; omega
  · intro i h1 h2
    simp only [List.length_map, List.length_range] at h1
    simp only [List.getElem_map, List.getElem_range, List.getElem_reverse, List.length_map, List.length_range',
      List.getElem_range']
    omega

theorem pyRange_pairwise_pos {a b c : Int} (hc : 0 < c) : (pyRange a b c).Pairwise (· < ·) := by
  unfold pyRange
  rw [List.pairwise_map]
  refine List.Pairwise.imp ?_ List.pairwise_lt_range
  intro m n h
  have : (m : Int) * c < n * c := Int.mul_lt_mul_of_pos_right (by omega) hc
  omega

theorem pyRange_pairwise_neg {a b c : Int} (hc : c < 0) : (pyRange a b c).Pairwise (· > ·) := by
  unfold pyRange
  rw [List.pairwise_map]
  refine List.Pairwise.imp ?_ List.pairwise_lt_range
  intro m n h
  have : (n : Int) * c < m * c := Int.mul_lt_mul_of_neg_right (by omega) hc
  show a + (m : Int) * c > a + n * c
  omega

/-! ## Reading -/

theorem filterMap_range' (l : List α) (a n : Nat) (h : a + n ≤ l.length) :
    (List.range' a n).filterMap (l[·]?) = (l.drop a).take n := by
  induction n generalizing a with
  | zero => simp
  | succ n ih =>
    have ha : a < l.length := by omega
    rw [List.range'_succ, List.filterMap_cons, List.getElem?_eq_getElem ha]
    simp only
    rw [ih (a + 1) (by omega)]
    conv => rhs; rw [List.drop_eq_getElem_cons ha, List.take_succ_cons]

/-- The positions of a slice lie inside the list. -/
theorem slicePositions_lt {sl : PySlice} {len : Nat} {ps : List Nat} (h : Spec.slicePositions sl len = .ok ps) :
    ∀ p ∈ ps, p < len := by
  unfold Spec.slicePositions at h
  split at h
  · cases h
  · rename_i a b c hi
    cases h
    intro p hp
    obtain ⟨i, hi', rfl⟩ := List.mem_map.1 hp
    have := mem_pyRange_bounds hi hi'
    omega

theorem mapEach_getInt (l : List α) (is : List Int) (h : ∀ i ∈ is, 0 ≤ i ∧ i < l.length) :
    Py.mapEach Spec.getInt is l = (.ok ((is.map Int.toNat).filterMap (l[·]?)), l) := by
  induction is with
  | nil => rfl
  | cons i is ih =>
    have hi := h i (by simp)
    have hlt : i.toNat < l.length := by omega
    have e : Spec.getInt i l = (.ok l[i.toNat], l) := by
      simp only [Spec.getInt, Spec.position]
      rw [if_pos hi]
      simp [hlt]
    simp only [Py.mapEach]
    rw [Py.bind_ok e, Py.bind_ok (ih fun j hj => h j (by simp [hj]))]
    simp [hlt]

/-! ## Deleting -/

/-- `deletePositions` for a list whose first element has number `n` -/
def delFrom (n : Nat) (ps : List Nat) (l : List α) : List α :=
  ((l.zipIdx n).filter fun x => !ps.contains x.2).map Prod.fst

theorem delFrom_append (n : Nat) (ps : List Nat) (l r : List α) :
    delFrom n ps (l ++ r) = delFrom n ps l ++ delFrom (n + l.length) ps r := by
  simp [delFrom, List.zipIdx_append]

theorem delFrom_cons (n : Nat) (ps : List Nat) (a : α) (l : List α) :
    delFrom n ps (a :: l) = if ps.contains n then delFrom (n + 1) ps l else a :: delFrom (n + 1) ps l := by
  simp only [delFrom, List.zipIdx_cons, List.filter_cons]
  cases ps.contains n <;> simp

theorem delFrom_none (n : Nat) (ps : List Nat) (l : List α) (h : ∀ p ∈ ps, p < n ∨ n + l.length ≤ p) :
    delFrom n ps l = l := by
  induction l generalizing n with
  | nil => rfl
  | cons a l ih =>
    rw [delFrom_cons, if_neg, ih]
    · intro p hp
      have := h p hp
      simp only [List.length_cons] at this
      have : p ≠ n → p < n + 1 ∨ n + 1 + l.length ≤ p := by omega
      apply this
      rintro rfl; omega
    · intro hc
      have := h n (by simpa using hc)
      simp at this; omega

theorem delFrom_all (n : Nat) (ps : List Nat) (l : List α) (h : ∀ i, n ≤ i → i < n + l.length → i ∈ ps) :
    delFrom n ps l = [] := by
  induction l generalizing n with
  | nil => rfl
  | cons a l ih =>
    rw [delFrom_cons, if_pos, ih]
    · intro i h1 h2
      exact h i (by omega) (by simp; omega)
    · simpa using h n (by omega) (by simp)

theorem delFrom_congr (n : Nat) {ps qs : List Nat} (h : ∀ p, p ∈ ps ↔ p ∈ qs) (l : List α) :
    delFrom n ps l = delFrom n qs l := by
  unfold delFrom
  congr 1
  apply List.filter_congr
  intro x _
  have := h x.2
  cases h1 : ps.contains x.2 <;> cases h2 : qs.contains x.2 <;> simp_all

theorem deletePositions_eq (ps : List Nat) (l : List α) : Spec.deletePositions ps l = delFrom 0 ps l := rfl

/-- Deleting the largest position first does not move the others. -/
theorem delFrom_cons_position {p : Nat} {ps : List Nat} {l : List α} (hp : p < l.length) (h : ∀ q ∈ ps, q < p) :
    delFrom 0 (p :: ps) l = delFrom 0 ps (l.eraseIdx p) := by
  have e : l = l.take p ++ l[p] :: l.drop (p + 1) := by simp
  have hlen : (l.take p).length = p := by simp; omega
  rw [List.eraseIdx_eq_take_drop_succ]
  conv => lhs; rw [e]
  rw [delFrom_append, delFrom_append, delFrom_cons, hlen, if_pos (by simp),
    delFrom_none (0 + p + 1), delFrom_none (0 + p) ps]
  · congr 1
    unfold delFrom
    congr 1
    apply List.filter_congr
    intro x hx
    have : x.2 < p := by
      have := List.snd_lt_of_mem_zipIdx hx
      omega
    have hne : x.2 ≠ p := by omega
    simp [hne]
  · intro q hq
    left; have := h q hq; omega
  · intro q hq
    left
    rcases List.mem_cons.1 hq with rfl | hq
    · omega
    · have := h q hq; omega

theorem forEach_delInt (is : List Int) (l : List α) (h : ∀ i ∈ is, 0 ≤ i ∧ i < l.length)
    (hdec : is.Pairwise (· > ·)) :
    Py.forEach Spec.delInt is l = (.ok (), Spec.deletePositions (is.map Int.toNat) l) := by
  induction is generalizing l with
  | nil => simp [Py.forEach, deletePositions_eq, delFrom_none]
  | cons i is ih =>
    rw [List.pairwise_cons] at hdec
    have hi := h i (by simp)
    have e : Spec.delInt i l = (.ok (), l.eraseIdx i.toNat) := by
      simp only [Spec.delInt, Spec.position]
      rw [if_pos hi]
    simp only [Py.forEach]
    rw [Py.bind_ok e, ih]
    · rw [deletePositions_eq, deletePositions_eq, List.map_cons, delFrom_cons_position (by omega)]
      intro q hq
      obtain ⟨j, hj, rfl⟩ := List.mem_map.1 hq
      have := hdec.1 j hj
      have := h j (by simp [hj])
      omega
    · intro j hj
      have := hdec.1 j hj
      have := h j (by simp [hj])
      rw [List.length_eraseIdx_of_lt (by omega)]
      omega
    · exact hdec.2

theorem deletePositions_range' (l : List α) (a n : Nat) (h : a + n ≤ l.length) :
    Spec.deletePositions (List.range' a n) l = l.take a ++ l.drop (a + n) := by
  rw [deletePositions_eq]
  conv => lhs; rw [← List.take_append_drop a l, ← List.take_append_drop n (l.drop a)]
  have h1 : (l.take a).length = a := by simp; omega
  have h2 : ((l.drop a).take n).length = n := by simp; omega
  rw [delFrom_append, delFrom_append, h1, h2, delFrom_none 0, delFrom_all, delFrom_none, List.drop_drop]
  · rfl
  · intro p hp
    simp at hp; omega
  · intro i hi1 hi2
    simp only [h2] at hi2
    simp; omega
  · intro p hp
    simp at hp; simp; omega

end Verif
