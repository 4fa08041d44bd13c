import Verif.Proofs.Basic
/-!
# The positional index is a complete binary tree of subtree sizes
-/

namespace Verif

/-- The index is right for the sublist lengths `lens`: a heap-shaped binary tree whose leaves, starting at `offset`,
are the lengths, and in which every inner node is the sum of its children (absent children count 0). -/
structure TreeOK (index : List Nat) (offset : Nat) (lens : List Nat) : Prop where
  depth : ∃ d, offset + 1 = 2 ^ d
  fits : lens.length ≤ offset + 1
  length_eq : index.length = offset + lens.length
  leaf : ∀ i, index.getD (offset + i) 0 = lens.getD i 0
  node : ∀ i, i < offset → index.getD i 0 = index.getD (2 * i + 1) 0 + index.getD (2 * i + 2) 0

namespace Tree

theorem getD_append_left {l r : List Nat} {i : Nat} (h : i < l.length) : (l ++ r).getD i 0 = l.getD i 0 := by
  simp [List.getD_eq_getElem?_getD, List.getElem?_append_left h]

theorem getD_append_right {l r : List Nat} {i : Nat} (h : l.length ≤ i) :
    (l ++ r).getD i 0 = r.getD (i - l.length) 0 := by
  simp [List.getD_eq_getElem?_getD, List.getElem?_append_right h]

theorem getD_of_le {l : List Nat} {i : Nat} (h : l.length ≤ i) : l.getD i 0 = 0 := by
  simp [List.getD_eq_getElem?_getD, List.getElem?_eq_none h]

theorem getD_eq {l : List Nat} {i : Nat} (h : i < l.length) : l.getD i 0 = l[i] := by
  simp [List.getD_eq_getElem?_getD, h]

theorem getD_set {l : List Nat} {c v i : Nat} (hc : c < l.length) :
    (l.set c v).getD i 0 = if i = c then v else l.getD i 0 := by
  simp only [List.getD_eq_getElem?_getD, List.getElem?_set]
  split
  · rename_i h; subst h; simp
  · rename_i h; rw [if_neg (fun h' => h h'.symm)]

/-- sum of the first `c` values of `f` -/
def pre (f : Nat → Nat) : Nat → Nat
  | 0 => 0
  | c + 1 => pre f c + f c

theorem pre_double {f g : Nat → Nat} (c : Nat) (h : ∀ i, i < c → g i = f (2 * i) + f (2 * i + 1)) :
    pre f (2 * c) = pre g c := by
  induction c with
  | zero => rfl
  | succ c ih =>
    have e : 2 * (c + 1) = 2 * c + 1 + 1 := by omega
    rw [e, pre, pre, pre, ih (fun i hi => h i (by omega)), h c (by omega)]
    omega

theorem sum_take_eq_pre (l : List Nat) (c : Nat) : (l.take c).sum = pre (l.getD · 0) c := by
  induction c with
  | zero => simp [pre]
  | succ c ih =>
    rw [pre, ← ih, List.take_add_one, List.sum_append]
    congr 1
    cases h : l[c]? with
    | none => simp [List.getD_eq_getElem?_getD, h]
    | some x => simp [List.getD_eq_getElem?_getD, h]

theorem pre_congr {f g : Nat → Nat} {c : Nat} (h : ∀ i, i < c → f i = g i) : pre f c = pre g c := by
  induction c with
  | zero => rfl
  | succ c ih => rw [pre, pre, ih (fun i hi => h i (by omega)), h c (by omega)]

end Tree

open Tree

namespace TreeOK
variable {index lens : List Nat} {offset : Nat}

/-- level `k` of the tree -/
def row (index : List Nat) (k i : Nat) : Nat := index.getD (2 ^ k - 1 + i) 0

theorem row_succ (h : TreeOK index offset lens) {d k i : Nat} (hd : offset + 1 = 2 ^ d) (hk : k < d)
    (hi : i < 2 ^ k) : row index k i = row index (k + 1) (2 * i) + row index (k + 1) (2 * i + 1) := by
  have hpos : 0 < 2 ^ k := Nat.two_pow_pos k
  have hlt : 2 ^ (k + 1) ≤ 2 ^ d := Nat.pow_le_pow_right (by omega) hk
  have hs : 2 ^ (k + 1) = 2 * 2 ^ k := by rw [Nat.pow_succ]; omega
  unfold row
  rw [h.node (2 ^ k - 1 + i) (by omega)]
  congr 2 <;> omega

theorem row_leaf (h : TreeOK index offset lens) {d : Nat} (hd : offset + 1 = 2 ^ d) (i : Nat) :
    row index d i = lens.getD i 0 := by
  unfold row
  rw [← hd, ← h.leaf i]
  rfl

theorem pre_row (h : TreeOK index offset lens) {d k c : Nat} (hd : offset + 1 = 2 ^ d) (hk : k < d)
    (hc : c ≤ 2 ^ k) : pre (row index (k + 1)) (2 * c) = pre (row index k) c :=
  pre_double c fun i hi => h.row_succ hd hk (by omega)

theorem pre_leaf (h : TreeOK index offset lens) {d : Nat} (hd : offset + 1 = 2 ^ d) (c : Nat) :
    pre (row index d) c = (lens.take c).sum := by
  rw [sum_take_eq_pre]
  exact pre_congr fun i _ => h.row_leaf hd i

theorem root_eq (h : TreeOK index offset lens) : index.getD 0 0 = lens.sum := by
  obtain ⟨d, hd⟩ := h.depth
  have key : ∀ k, k ≤ d → pre (row index k) (2 ^ k) = row index 0 0 := by
    intro k
    induction k with
    | zero => intro _; simp [pre]
    | succ k ih =>
      intro hk
      rw [Nat.pow_succ, Nat.mul_comm, h.pre_row hd hk (Nat.le_refl _)]
      exact ih (by omega)
  have := key d (Nat.le_refl _)
  rw [h.pre_leaf hd, List.take_of_length_le (by have := h.fits; omega)] at this
  simpa [row] using this.symm

/-- `_loc`: the sum of the lengths of the earlier sublists -/
theorem locLoop_eq (h : TreeOK index offset lens) {d : Nat} (hd : offset + 1 = 2 ^ d) (k : Nat) (hk : k ≤ d) :
    ∀ i total, i < 2 ^ k → 2 ^ k - 1 + i < index.length →
      Core.locLoop index (2 ^ k - 1 + i) total = .ok (total + pre (row index k) i) := by
  induction k with
  | zero =>
    intro i total hi _
    have : i = 0 := by simpa using hi
    subst this
    rw [Core.locLoop]; simp [pre]
  | succ k ih =>
    intro i total hi hlen
    have hpos : 0 < 2 ^ k := Nat.two_pow_pos k
    have hs : 2 ^ (k + 1) = 2 * 2 ^ k := by rw [Nat.pow_succ]; omega
    rw [Core.locLoop, dif_neg (by omega)]
    have hhalf : (2 ^ (k + 1) - 1 + i - 1) / 2 = 2 ^ k - 1 + i / 2 := by omega
    split
    · rename_i he
      have hodd : i % 2 = 1 := by omega
      rw [getItem_ok (by omega)]
      simp only
      rw [hhalf, ih (by omega) _ _ (by omega) (by omega)]
      congr 1
      have e1 : i = 2 * (i / 2) + 1 := by omega
      have e2 : pre (row index (k + 1)) i = pre (row index k) (i / 2) + row index (k + 1) (2 * (i / 2)) := by
        conv => lhs; rw [e1, pre]
        rw [h.pre_row hd (by omega) (by omega)]
      have e3 : row index (k + 1) (2 * (i / 2)) = index[2 ^ (k + 1) - 1 + i - 1] := by
        unfold row
        rw [getD_eq (by omega)]
        congr 1; omega
      omega
    · rename_i he
      have heven : i % 2 = 0 := by omega
      rw [hhalf, ih (by omega) _ _ (by omega) (by omega)]
      congr 2
      have e1 : i = 2 * (i / 2) := by omega
      conv => rhs; rw [e1]
      rw [h.pre_row hd (by omega) (by omega)]

theorem locLoop_eq' (h : TreeOK index offset lens) {p : Nat} (hp : p < lens.length) :
    Core.locLoop index (p + offset) 0 = .ok (lens.take p).sum := by
  obtain ⟨d, hd⟩ := h.depth
  have := h.fits
  have := h.length_eq
  have := h.locLoop_eq hd d (Nat.le_refl _) p 0 (by omega) (by omega)
  rw [h.pre_leaf hd] at this
  rw [show p + offset = 2 ^ d - 1 + p by omega, this]
  simp

/-- `_pos` walks down to the leaf that contains position `idx`. -/
theorem posLoop_eq (h : TreeOK index offset lens) {d : Nat} (hd : offset + 1 = 2 ^ d) (j : Nat) :
    ∀ k i idx, k + j = d → i < 2 ^ k → idx < row index k i →
      ∃ p x, Core.posLoop index (2 ^ k - 1 + i) (2 * (2 ^ k - 1 + i) + 1) idx = (2 ^ d - 1 + p, x) ∧
        p < 2 ^ d ∧ x < row index d p ∧ pre (row index k) i + idx = pre (row index d) p + x := by
  induction j with
  | zero =>
    intro k i idx hk hi hidx
    have : k = d := by omega
    subst this
    refine ⟨i, idx, ?_, hi, hidx, rfl⟩
    rw [Core.posLoop, dif_neg]
    have := h.fits
    have := h.length_eq
    have : 0 < 2 ^ k := Nat.two_pow_pos k
    omega
  | succ j ih =>
    intro k i idx hk hi hidx
    have hpos : 0 < 2 ^ k := Nat.two_pow_pos k
    have hs : 2 ^ (k + 1) = 2 * 2 ^ k := by rw [Nat.pow_succ]; omega
    have hrow := h.row_succ hd (k := k) (i := i) (by omega) hi
    have hchild : 2 * (2 ^ k - 1 + i) + 1 = 2 ^ (k + 1) - 1 + 2 * i := by omega
    have hin : 2 * (2 ^ k - 1 + i) + 1 < index.length := by
      apply Nat.lt_of_not_le
      intro hle
      have h1 : row index (k + 1) (2 * i) = 0 := getD_of_le (by omega)
      have h2 : row index (k + 1) (2 * i + 1) = 0 := getD_of_le (by omega)
      omega
    rw [Core.posLoop, dif_pos hin]
    have hval : index[2 * (2 ^ k - 1 + i) + 1] = row index (k + 1) (2 * i) := by
      unfold row
      rw [← hchild, getD_eq hin]
    rw [hval]
    split
    · rename_i hlt
      obtain ⟨p, x, e, h1, h2, h3⟩ := ih (k + 1) (2 * i) idx (by omega) (by omega) hlt
      refine ⟨p, x, ?_, h1, h2, ?_⟩
      · rw [← e]; congr 1 <;> omega
      · rw [← h3, h.pre_row hd (by omega) (by omega)]
    · rename_i hge
      obtain ⟨p, x, e, h1, h2, h3⟩ := ih (k + 1) (2 * i + 1) (idx - row index (k + 1) (2 * i)) (by omega)
        (by omega) (by omega)
      refine ⟨p, x, ?_, h1, h2, ?_⟩
      · rw [← e]; congr 1 <;> omega
      · rw [← h3, pre, h.pre_row hd (by omega) (by omega)]
        omega

theorem posLoop_eq' (h : TreeOK index offset lens) {idx : Nat} (hidx : idx < lens.sum) :
    ∃ p x, Core.posLoop index 0 1 idx = (offset + p, x) ∧ p < lens.length ∧ x < lens.getD p 0 ∧
      idx = (lens.take p).sum + x := by
  obtain ⟨d, hd⟩ := h.depth
  obtain ⟨p, x, e, h1, h2, h3⟩ := h.posLoop_eq hd d 0 0 idx (by omega) (by simp)
    (by simpa [row, ← h.root_eq] using hidx)
  refine ⟨p, x, ?_, ?_, ?_, ?_⟩
  · simp only [Nat.pow_zero, Nat.sub_self, Nat.add_zero, Nat.mul_zero, Nat.zero_add] at e
    rw [e]; congr 1; omega
  · apply Nat.lt_of_not_le
    intro hle
    rw [h.row_leaf hd, getD_of_le hle] at h2
    omega
  · rwa [h.row_leaf hd] at h2
  · rw [h.pre_leaf hd] at h3
    simpa [pre] using h3

end TreeOK

/-! ## Updating one leaf -/

namespace Tree

theorem bumpPath_incr (offset : Nat) (c : Nat) : ∀ (ix : List Nat), c < ix.length → ix.length ≤ 2 * offset + 1 →
    (∀ i, i < offset → ix.getD i 0 + (if i = c then 1 else 0) = ix.getD (2 * i + 1) 0 + ix.getD (2 * i + 2) 0) →
    ∃ ix', Core.bumpPath Core.incr ix c = .ok ix' ∧ ix'.length = ix.length ∧
      (∀ i, i < offset → ix'.getD i 0 = ix'.getD (2 * i + 1) 0 + ix'.getD (2 * i + 2) 0) ∧
      (∀ i, offset ≤ i → ix'.getD i 0 = ix.getD i 0 + (if i = c then 1 else 0)) := by
  induction c using Nat.strongRecOn with
  | _ c ih =>
    intro ix hc hlen hnode
    rw [Core.bumpPath, getItem_ok hc]
    simp only [Core.incr]
    have hset : ∀ i, (ix.set c (ix[c] + 1)).getD i 0 = ix.getD i 0 + (if i = c then 1 else 0) := by
      intro i
      rw [getD_set hc]
      split
      · rename_i h; subst h; rw [getD_eq hc]
      · rfl
    split
    · rename_i h0
      subst h0
      refine ⟨_, rfl, by simp, ?_, fun i _ => hset i⟩
      intro i hi
      rw [hset, hset, hset, hnode i hi]
      simp
    · rename_i h0
      have hp : (c - 1) / 2 < offset := by omega
      obtain ⟨ix', e, h1, h2, h3⟩ := ih ((c - 1) / 2) (by omega) (ix.set c (ix[c] + 1))
        (by simp; omega) (by simpa using hlen) (by
          intro i hi
          rw [hset, hset, hset]
          have := hnode i hi
          generalize ix.getD i 0 = x at *
          generalize ix.getD (2 * i + 1) 0 = y at *
          generalize ix.getD (2 * i + 2) 0 = z at *
          clear hset hnode ih
          split at this <;> split <;> split <;> split <;> (try split) <;> omega)
      refine ⟨ix', e, by simpa using h1, h2, ?_⟩
      intro i hi
      rw [h3 i hi, if_neg (by omega), hset]
      simp

theorem bumpPath_decr (offset : Nat) (c : Nat) : ∀ (ix : List Nat), c < ix.length → ix.length ≤ 2 * offset + 1 →
    1 ≤ ix.getD c 0 →
    (∀ i, i < offset → ix.getD i 0 = ix.getD (2 * i + 1) 0 + ix.getD (2 * i + 2) 0 + (if i = c then 1 else 0)) →
    ∃ ix', Core.bumpPath Core.decr ix c = .ok ix' ∧ ix'.length = ix.length ∧
      (∀ i, i < offset → ix'.getD i 0 = ix'.getD (2 * i + 1) 0 + ix'.getD (2 * i + 2) 0) ∧
      (∀ i, offset ≤ i → ix'.getD i 0 = ix.getD i 0 - (if i = c then 1 else 0)) := by
  induction c using Nat.strongRecOn with
  | _ c ih =>
    intro ix hc hlen h1c hnode
    rw [Core.bumpPath, getItem_ok hc]
    rw [getD_eq hc] at h1c
    obtain ⟨y, hy⟩ : ∃ y, ix[c] = y + 1 := ⟨ix[c] - 1, by omega⟩
    simp only [Core.decr, hy]
    have hset : ∀ i, (ix.set c y).getD i 0 = ix.getD i 0 - (if i = c then 1 else 0) := by
      intro i
      rw [getD_set hc]
      split
      · rename_i h; subst h; rw [getD_eq hc]; omega
      · rfl
    have hcv : ix.getD c 0 = y + 1 := by rw [getD_eq hc]; exact hy
    split
    · rename_i h0
      subst h0
      refine ⟨_, rfl, by simp, ?_, fun i _ => hset i⟩
      intro i hi
      rw [hset, hset, hset, hnode i hi]
      simp
    · rename_i h0
      have hp : (c - 1) / 2 < offset := by omega
      have hpar : 1 ≤ ix.getD ((c - 1) / 2) 0 := by
        have := hnode _ hp
        by_cases hodd : c % 2 = 1
        · rw [show 2 * ((c - 1) / 2) + 1 = c by omega] at this; omega
        · rw [show 2 * ((c - 1) / 2) + 2 = c by omega] at this; omega
      obtain ⟨ix', e, h1, h2, h3⟩ := ih ((c - 1) / 2) (by omega) (ix.set c y)
        (by simp; omega) (by simpa using hlen) (by rw [hset, if_neg (by omega)]; omega) (by
          intro i hi
          rw [hset, hset, hset]
          have := hnode i hi
          have hy : 2 * i + 1 = c → 1 ≤ ix.getD (2 * i + 1) 0 := by intro h; rw [h]; omega
          have hz : 2 * i + 2 = c → 1 ≤ ix.getD (2 * i + 2) 0 := by intro h; rw [h]; omega
          clear hcv hpar
          generalize ix.getD i 0 = x at *
          generalize ix.getD (2 * i + 1) 0 = y at *
          generalize ix.getD (2 * i + 2) 0 = z at *
          clear hset hnode ih
          split at this <;> split <;> split <;> split <;> (try split) <;> omega)
      refine ⟨ix', e, by simpa using h1, h2, ?_⟩
      intro i hi
      rw [h3 i hi, if_neg (by omega), hset]
      simp

end Tree

theorem TreeOK.incr {index lens : List Nat} {offset p : Nat} (h : TreeOK index offset lens) (hp : p < lens.length) :
    ∃ index', Core.bumpPath Core.incr index (offset + p) = .ok index' ∧
      TreeOK index' offset (lens.set p (lens.getD p 0 + 1)) := by
  have := h.fits
  have hlen := h.length_eq
  obtain ⟨ix', e, h1, h2, h3⟩ := Tree.bumpPath_incr offset (offset + p) index (by omega) (by omega) (by
    intro i hi
    rw [if_neg (by omega)]
    exact h.node i hi)
  refine ⟨ix', e, h.depth, by simpa using h.fits, by simpa [h1] using hlen, ?_, h2⟩
  intro i
  rw [h3 _ (by omega), h.leaf, Tree.getD_set hp]
  by_cases hi : i = p
  · subst hi; simp
  · rw [if_neg (by omega), if_neg hi]; omega

theorem TreeOK.decr {index lens : List Nat} {offset p : Nat} (h : TreeOK index offset lens) (hp : p < lens.length)
    (h1 : 1 ≤ lens.getD p 0) :
    ∃ index', Core.bumpPath Core.decr index (offset + p) = .ok index' ∧
      TreeOK index' offset (lens.set p (lens.getD p 0 - 1)) := by
  have := h.fits
  have hlen := h.length_eq
  obtain ⟨ix', e, h1, h2, h3⟩ := Tree.bumpPath_decr offset (offset + p) index (by omega) (by omega)
    (by rw [h.leaf]; exact h1) (by
    intro i hi
    rw [if_neg (by omega)]
    exact h.node i hi)
  refine ⟨ix', e, h.depth, by simpa using h.fits, by simpa [h1] using hlen, ?_, h2⟩
  intro i
  rw [h3 _ (by omega), h.leaf, Tree.getD_set hp]
  by_cases hi : i = p
  · subst hi; simp
  · rw [if_neg (by omega), if_neg hi]; omega

/-! ## Building the index -/

namespace Tree

/-- The rows above and including `r`, from the root down. -/
def above : Nat → List Nat → List Nat
  | 0, r => r
  | e + 1, r => above e (Core.pairSums r) ++ r

theorem pairSums_getD (r : List Nat) (j : Nat) (h : r.length % 2 = 0) :
    (Core.pairSums r).getD j 0 = r.getD (2 * j) 0 + r.getD (2 * j + 1) 0 := by
  induction r using Core.pairSums.induct generalizing j with
  | case1 a b rest ih =>
    cases j with
    | zero => simp [Core.pairSums]
    | succ j =>
      have := ih j (by simp at h; omega)
      have e : 2 * (j + 1) = 2 * j + 1 + 1 := by omega
      simp only [Core.pairSums, e, List.getD_cons_succ]
      exact this
  | case2 r hr =>
    match r, h, hr with
    | [], _, _ => simp [Core.pairSums]
    | [_], h, _ => simp at h
    | a :: b :: c, _, hr => exact absurd rfl (hr a b c)

theorem pairSums_getD_odd (r : List Nat) (j : Nat) (h : r.length % 2 = 1) :
    (Core.pairSums r ++ r.getLast?.toList).getD j 0 = r.getD (2 * j) 0 + r.getD (2 * j + 1) 0 := by
  induction r using Core.pairSums.induct generalizing j with
  | case1 a b rest ih =>
    have hne : rest ≠ [] := by rintro rfl; simp at h
    have hl : (a :: b :: rest).getLast? = rest.getLast? := by
      obtain ⟨c, rest, rfl⟩ := List.exists_cons_of_ne_nil hne
      simp [List.getLast?_cons_cons]
    rw [hl]
    cases j with
    | zero => simp [Core.pairSums]
    | succ j =>
      have := ih j (by simp at h; omega)
      have e : 2 * (j + 1) = 2 * j + 1 + 1 := by omega
      simp only [Core.pairSums, e, List.getD_cons_succ, List.cons_append]
      exact this
  | case2 r hr =>
    match r, h, hr with
    | [], h, _ => simp at h
    | [a], _, _ =>
      cases j with
      | zero => simp [Core.pairSums]
      | succ j =>
        have e : 2 * (j + 1) = 2 * j + 1 + 1 := by omega
        simp [Core.pairSums, e]
    | a :: b :: c, _, hr => exact absurd rfl (hr a b c)

/-- A full tree of depth `e` with last row `r`. -/
structure Full (e : Nat) (ix : List Nat) (r : List Nat) : Prop where
  len : ix.length + 1 = 2 ^ (e + 1)
  leaf : ∀ j, ix.getD (2 ^ e - 1 + j) 0 = r.getD j 0
  node : ∀ i, i < 2 ^ e - 1 → ix.getD i 0 = ix.getD (2 * i + 1) 0 + ix.getD (2 * i + 2) 0

theorem Full.extend {e : Nat} {ix r row : List Nat} (h : Full e ix r)
    (hr : ∀ j, r.getD j 0 = row.getD (2 * j) 0 + row.getD (2 * j + 1) 0) :
    (∀ j, (ix ++ row).getD (2 ^ (e + 1) - 1 + j) 0 = row.getD j 0) ∧
    ∀ i, i < 2 ^ (e + 1) - 1 →
      (ix ++ row).getD i 0 = (ix ++ row).getD (2 * i + 1) 0 + (ix ++ row).getD (2 * i + 2) 0 := by
  have hpos : 0 < 2 ^ e := Nat.two_pow_pos e
  have hs : 2 ^ (e + 1) = 2 * 2 ^ e := by rw [Nat.pow_succ]; omega
  have hlen := h.len
  constructor
  · intro j
    rw [getD_append_right (by omega)]
    congr 1; omega
  · intro i hi
    rw [getD_append_left (by omega)]
    by_cases hlt : i < 2 ^ e - 1
    · rw [getD_append_left (by omega), getD_append_left (by omega)]
      exact h.node i hlt
    · rw [getD_append_right (by omega), getD_append_right (by omega)]
      have := h.leaf (i - (2 ^ e - 1))
      rw [show 2 ^ e - 1 + (i - (2 ^ e - 1)) = i by omega] at this
      rw [this, hr]
      congr 2 <;> omega

theorem above_full (e : Nat) : ∀ r : List Nat, r.length = 2 ^ e → Full e (above e r) r := by
  induction e with
  | zero =>
    intro r hr
    refine ⟨by simpa [above] using hr, fun j => by simp [above], fun i hi => by simp at hi⟩
  | succ e ih =>
    intro r hr
    have hs : 2 ^ (e + 1) = 2 * 2 ^ e := by rw [Nat.pow_succ]; omega
    have hf := ih (Core.pairSums r) (by rw [Core.pairSums_length]; omega)
    have := hf.extend (row := r) (fun j => pairSums_getD r j (by omega))
    have hl := hf.len
    refine ⟨?_, this.1, this.2⟩
    rw [above, List.length_append, hr]
    have : 2 ^ (e + 1 + 1) = 2 * 2 ^ (e + 1) := by rw [Nat.pow_succ]; omega
    omega

theorem growTree_eq (e : Nat) : ∀ (t : List (List Nat)) (last : List Nat), last.length = 2 ^ e →
    (Core.growTree (t ++ [last]) last).reverse.flatten = above e last ++ t.reverse.flatten := by
  induction e with
  | zero =>
    intro t last h
    rw [Core.growTree, dif_neg (by simp at h; omega)]
    simp [above]
  | succ e ih =>
    intro t last h
    have hpos : 0 < 2 ^ e := Nat.two_pow_pos e
    have hs : 2 ^ (e + 1) = 2 * 2 ^ e := by rw [Nat.pow_succ]; omega
    rw [Core.growTree, dif_pos (by omega), ih _ _ (by rw [Core.pairSums_length]; omega)]
    simp [above]

theorem treeOK_of_full {e : Nat} {ix r lens : List Nat} (h : Full e ix r)
    (hr : ∀ j, r.getD j 0 = lens.getD (2 * j) 0 + lens.getD (2 * j + 1) 0)
    (hfits : lens.length ≤ 2 ^ (e + 1)) : TreeOK (ix ++ lens) (2 ^ (e + 1) - 1) lens := by
  have := h.extend hr
  have hl := h.len
  exact ⟨⟨e + 1, by omega⟩, by omega, by simp; omega, this.1, this.2⟩

end Tree

variable {α κ : Type}

/-- `_build_index` builds a right index, when there are at least two sublists. -/
theorem buildIndex_ok {ilog2 : Nat → Nat} (hlog : ∀ n, 1 ≤ n → n < 2 ^ (ilog2 n + 1)) (s : St α κ)
    (h2 : 2 ≤ s.lists.length) (hix : s.index = []) :
    ∃ index offset, Core.buildIndex ilog2 s = (.ok (), { s with index := index, offset := offset }) ∧
      index ≠ [] ∧ TreeOK index offset (s.lists.map List.length) := by
  have hne : ∀ {ix : List Nat}, ix ++ s.lists.map List.length ≠ [] := by
    intro ix h
    have := congrArg List.length h
    rw [List.length_append, List.length_map, List.length_nil] at this; omega
  generalize hlens : s.lists.map List.length = lens at *
  have hl : 2 ≤ lens.length := by rw [← hlens]; simpa using h2
  -- the second row, before padding
  obtain ⟨row1, hrow1, hrow1len, hrow1get⟩ : ∃ row1 : List Nat,
      (if lens.length % 2 = 1 then Core.pairSums lens ++ lens.getLast?.toList else Core.pairSums lens) = row1 ∧
      row1.length = (lens.length + 1) / 2 ∧
      ∀ j, row1.getD j 0 = lens.getD (2 * j) 0 + lens.getD (2 * j + 1) 0 := by
    by_cases hodd : lens.length % 2 = 1
    · refine ⟨_, rfl, ?_, ?_⟩
      · rw [if_pos hodd, List.length_append, Core.pairSums_length]
        have hne' : lens ≠ [] := by rintro rfl; simp at hodd
        rw [List.getLast?_eq_some_getLast hne']
        simp; omega
      · intro j; rw [if_pos hodd]; exact Tree.pairSums_getD_odd lens j hodd
    · refine ⟨_, rfl, ?_, ?_⟩
      · rw [if_neg hodd, Core.pairSums_length]; omega
      · intro j; rw [if_neg hodd]; exact Tree.pairSums_getD lens j (by omega)
  have hb : Core.buildIndex ilog2 s =
      if row1.length = 1 then (.ok (), { s with index := row1 ++ lens, offset := 1 })
      else (.ok (), { s with
        index := s.index ++ (Core.growTree
          [lens, row1 ++ List.replicate (2 ^ (ilog2 (row1.length - 1) + 1) - row1.length) 0]
          (row1 ++ List.replicate (2 ^ (ilog2 (row1.length - 1) + 1) - row1.length) 0)).reverse.flatten
        offset := 2 ^ (ilog2 (row1.length - 1) + 1) * 2 - 1 }) := by
    simp only [Core.buildIndex, Py.get_bind, hlens, hrow1]
    rw [if_neg (by omega)]
    simp only [Py.ite_apply', Py.modify_apply]
  rw [hb]
  split
  · rename_i h1
    refine ⟨_, _, rfl, hne, ?_⟩
    have hf := Tree.above_full 0 row1 (by simpa using h1)
    exact Tree.treeOK_of_full hf hrow1get (by simp; omega)
  · rename_i h1
    have hsize := hlog (row1.length - 1) (by omega)
    generalize ilog2 (row1.length - 1) = e at *
    have hpad : (row1 ++ List.replicate (2 ^ (e + 1) - row1.length) 0).length = 2 ^ (e + 1) := by
      simp; omega
    have hg := Tree.growTree_eq (e + 1) [lens] _ hpad
    have hf := Tree.above_full (e + 1) _ hpad
    refine ⟨_, _, rfl, ?_, ?_⟩
    · rw [show [lens, row1 ++ List.replicate (2 ^ (e + 1) - row1.length) 0] =
        [lens] ++ [row1 ++ List.replicate (2 ^ (e + 1) - row1.length) 0] from rfl, hg]
      simp only [List.reverse_cons, List.reverse_nil, List.nil_append, List.flatten_cons, List.flatten_nil, List.append_nil, hix]
      exact hne
    · rw [show [lens, row1 ++ List.replicate (2 ^ (e + 1) - row1.length) 0] =
        [lens] ++ [row1 ++ List.replicate (2 ^ (e + 1) - row1.length) 0] from rfl, hg, hix]
      have hs : 2 ^ (e + 1 + 1) = 2 ^ (e + 1) * 2 := by rw [Nat.pow_succ]
      rw [← hs]
      have := Tree.treeOK_of_full hf (lens := lens) (by
        intro j
        rw [← hrow1get]
        by_cases hj : j < row1.length
        · rw [Tree.getD_append_left hj]
        · rw [Tree.getD_append_right (by omega), Tree.getD_of_le (i := j) (by omega)]
          simp [List.getD_eq_getElem?_getD, List.getElem?_replicate]
          split <;> rfl) (by omega)
      simpa using this

end Verif
