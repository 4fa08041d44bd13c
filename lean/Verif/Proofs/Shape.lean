import Verif.Proofs.Core
/-!
# Keeping the invariant through splitting, merging and bulk loading of sublists
-/

namespace Verif
variable {α κ : Type} {k : α → κ} {lt : κ → κ → Bool} {keyed : Bool}

/-- The invariant of the sublists in a state where sublist `B` may be too long (but not by much). -/
structure Seg (k : α → κ) (lt : κ → κ → Bool) (load : Nat) (A : List (List α)) (B : List α) (C : List (List α)) :
    Prop where
  load_pos : 1 ≤ load
  ne_nil_A : ∀ l ∈ A, l ≠ []
  ne_nil_B : B ≠ []
  ne_nil_C : ∀ l ∈ C, l ≠ []
  sorted : Sorted (fun a b => lt (k a) (k b)) (A ++ B :: C).flatten
  upper_A : ∀ l ∈ A, l.length ≤ load * 2
  upper_B : B.length ≤ load * 3
  upper_C : ∀ l ∈ C, l.length ≤ load * 2
  lower_A : ∀ l ∈ A, load / 2 ≤ l.length
  lower_B : C ≠ [] → load / 2 ≤ B.length
  lower_C : ∀ l ∈ C.dropLast, load / 2 ≤ l.length

theorem dropLast_append_cons (A : List α) (b : α) (C : List α) :
    (A ++ b :: C).dropLast = A ++ (b :: C).dropLast := by
  rw [List.dropLast_append_of_ne_nil (by simp)]

theorem mem_dropLast_cons {b : α} {C : List α} {x : α} (h : x ∈ (b :: C).dropLast) :
    (C ≠ [] ∧ x = b) ∨ x ∈ C.dropLast := by
  cases C with
  | nil => simp at h
  | cons c C =>
    rw [List.dropLast_cons_of_ne_nil (by simp)] at h
    rcases List.mem_cons.1 h with rfl | h
    · exact .inl ⟨by simp, rfl⟩
    · exact .inr h

theorem Inv.seg_facts {s : St α κ} (h : Inv k lt keyed s) {A C : List (List α)} {B : List α}
    (hl : s.lists = A ++ B :: C) :
    (∀ l ∈ A, l ≠ []) ∧ B ≠ [] ∧ (∀ l ∈ C, l ≠ []) ∧ (∀ l ∈ A, l.length ≤ s.load * 2) ∧ B.length ≤ s.load * 2 ∧
    (∀ l ∈ C, l.length ≤ s.load * 2) ∧ (∀ l ∈ A, s.load / 2 ≤ l.length) ∧ (C ≠ [] → s.load / 2 ≤ B.length) ∧
    (∀ l ∈ C.dropLast, s.load / 2 ≤ l.length) := by
  have h1 := h.ne_nil
  have h2 := h.upper
  have h3 := h.lower
  rw [hl] at h1 h2 h3
  rw [dropLast_append_cons] at h3
  refine ⟨fun l hm => h1 l (by simp [hm]), h1 B (by simp), fun l hm => h1 l (by simp [hm]),
    fun l hm => h2 l (by simp [hm]), h2 B (by simp), fun l hm => h2 l (by simp [hm]),
    fun l hm => h3 l (by simp [hm]), fun hC => h3 B ?_, fun l hm => h3 l ?_⟩
  · rw [List.dropLast_cons_of_ne_nil hC]; simp
  · rw [List.dropLast_cons_of_ne_nil (by rintro rfl; simp at hm)]; simp [hm]

/-- Nothing to split. -/
theorem Seg.inv_keep {s : St α κ} {A C : List (List α)} {B : List α} {MA MC : List κ} {m : κ}
    {load : Nat} (h : Seg k lt load A B C) (hload : s.load = load)
    (hl : s.lists = A ++ B :: C) (hm : s.maxes = MA ++ m :: MC) (hA : MaxesOK k A MA)
    (hB : B.getLast?.map k = some m) (hC : MaxesOK k C MC) (hBl : B.length ≤ load * 2)
    (hlen : s.len = s.lists.flatten.length)
    (hindex : s.index ≠ [] → TreeOK s.index s.offset (s.lists.map List.length) ∧ 2 ≤ s.lists.length)
    (hkeys : keyed = true → s.keys = s.lists.map (List.map k)) : Inv k lt keyed s where
  load_pos := by rw [hload]; exact h.load_pos
  len_eq := hlen
  ne_nil := by
    rw [hl]
    intro l hm
    rcases List.mem_append.1 hm with hm | hm
    · exact h.ne_nil_A l hm
    · rcases List.mem_cons.1 hm with rfl | hm
      · exact h.ne_nil_B
      · exact h.ne_nil_C l hm
  sorted := by rw [hl]; exact h.sorted
  maxes := by rw [hl, hm]; exact hA.append (hC.cons hB)
  upper := by
    rw [hl, hload]
    intro l hm
    rcases List.mem_append.1 hm with hm | hm
    · exact h.upper_A l hm
    · rcases List.mem_cons.1 hm with rfl | hm
      · exact hBl
      · exact h.upper_C l hm
  lower := by
    rw [hl, hload, dropLast_append_cons]
    intro l hm
    rcases List.mem_append.1 hm with hm | hm
    · exact h.lower_A l hm
    · rcases mem_dropLast_cons hm with ⟨hC, rfl⟩ | hm
      · exact h.lower_B hC
      · exact h.lower_C l hm
  index_ok := hindex
  keys_eq := hkeys

/-- After splitting a sublist that was too long. -/
theorem Seg.inv_split {s : St α κ} {A C : List (List α)} {B : List α} {MA MC : List κ} {m1 m2 : κ}
    {load : Nat} (h : Seg k lt load A B C) (hload : s.load = load) (hBl : load * 2 < B.length)
    (hl : s.lists = A ++ B.take load :: B.drop load :: C) (hm : s.maxes = MA ++ m1 :: m2 :: MC)
    (hA : MaxesOK k A MA)
    (h1 : (B.take load).getLast?.map k = some m1) (h2 : (B.drop load).getLast?.map k = some m2)
    (hC : MaxesOK k C MC)
    (hlen : s.len = s.lists.flatten.length) (hindex : s.index = [])
    (hkeys : keyed = true → s.keys = s.lists.map (List.map k)) : Inv k lt keyed s where
  load_pos := by rw [hload]; exact h.load_pos
  len_eq := hlen
  ne_nil := by
    rw [hl]
    intro l hm
    have := h.load_pos
    rcases List.mem_append.1 hm with hm | hm
    · exact h.ne_nil_A l hm
    · rcases List.mem_cons.1 hm with rfl | hm
      · exact List.ne_nil_of_length_pos (by rw [List.length_take]; omega)
      · rcases List.mem_cons.1 hm with rfl | hm
        · exact List.ne_nil_of_length_pos (by rw [List.length_drop]; omega)
        · exact h.ne_nil_C l hm
  sorted := by
    rw [hl]
    have : (A ++ B.take load :: B.drop load :: C).flatten = (A ++ B :: C).flatten := by
      simp only [List.flatten_append, List.flatten_cons]
      rw [← List.append_assoc (B.take load), List.take_append_drop]
    rw [this]; exact h.sorted
  maxes := by rw [hl, hm]; exact hA.append ((hC.cons h2).cons h1)
  upper := by
    rw [hl, hload]
    intro l hm
    have := h.upper_B
    rcases List.mem_append.1 hm with hm | hm
    · exact h.upper_A l hm
    · rcases List.mem_cons.1 hm with rfl | hm
      · rw [List.length_take]; omega
      · rcases List.mem_cons.1 hm with rfl | hm
        · rw [List.length_drop]; omega
        · exact h.upper_C l hm
  lower := by
    rw [hl, hload, dropLast_append_cons]
    intro l hm
    rcases List.mem_append.1 hm with hm | hm
    · exact h.lower_A l hm
    · rcases mem_dropLast_cons hm with ⟨_, rfl⟩ | hm
      · rw [List.length_take]; omega
      · rcases mem_dropLast_cons hm with ⟨_, rfl⟩ | hm
        · rw [List.length_drop]; omega
        · exact h.lower_C l hm
  index_ok := fun hne => absurd hindex hne
  keys_eq := hkeys

theorem take_getLast? {B : List α} {n : Nat} (h1 : 1 ≤ n) (h2 : n < B.length) :
    ∃ a, (B.take n).getLast? = some a := by
  have : B.take n ≠ [] := List.ne_nil_of_length_pos (by rw [List.length_take]; omega)
  exact ⟨_, List.getLast?_eq_some_getLast this⟩

theorem drop_getLast? {B : List α} {n : Nat} (h2 : n < B.length) :
    ∃ a, (B.drop n).getLast? = some a := by
  have : B.drop n ≠ [] := List.ne_nil_of_length_pos (by rw [List.length_drop]; omega)
  exact ⟨_, List.getLast?_eq_some_getLast this⟩

/-! ## The positional index after a change of one length -/

theorem set_lens (A C : List (List α)) (B : List α) (n : Nat) :
    ((A ++ B :: C).map List.length).set A.length n = A.map List.length ++ n :: C.map List.length := by
  rw [List.map_append, List.map_cons, set_append_cons _ _ _ _ (by simp)]

theorem getD_lens (A C : List (List α)) (B : List α) :
    ((A ++ B :: C).map List.length).getD A.length 0 = B.length := by
  simp [List.getD_eq_getElem?_getD]

/-- Updating the index after one value was added to sublist `B0`. -/
theorem touchIndex_incr {s : St α κ} {A C : List (List α)} {B : List α} (hl : s.lists = A ++ B :: C) {n : Nat}
    (hn : B.length = n + 1)
    (hix : s.index ≠ [] → TreeOK s.index s.offset (A.map List.length ++ n :: C.map List.length) ∧
      2 ≤ s.lists.length) :
    ∃ ix, Core.touchIndex Core.incr A.length s = (.ok (), { s with index := ix }) ∧
      (ix ≠ [] → TreeOK ix s.offset (s.lists.map List.length) ∧ 2 ≤ s.lists.length) := by
  unfold Core.touchIndex
  simp only [Py.get_bind]
  by_cases h : s.index = []
  · exact ⟨[], by rw [if_pos h, ← h]; rfl, fun h => absurd rfl h⟩
  · obtain ⟨ht, h2⟩ := hix h
    obtain ⟨ix, e, ht'⟩ := ht.incr (p := A.length) (by simp)
    refine ⟨ix, by rw [if_neg h, e]; rfl, fun _ => ⟨?_, h2⟩⟩
    rw [hl, List.map_append, List.map_cons, hn]
    have e1 : (A.map List.length ++ n :: C.map List.length).getD A.length 0 = n := by
      simp [List.getD_eq_getElem?_getD]
    rw [e1, set_append_cons _ _ _ _ (by simp)] at ht'
    exact ht'

/-- Updating the index after one value was deleted. -/
theorem touchIndex_decr {s : St α κ} {A C : List (List α)} {B : List α} (hl : s.lists = A ++ B :: C)
    (hix : s.index ≠ [] → TreeOK s.index s.offset (A.map List.length ++ (B.length + 1) :: C.map List.length) ∧
      2 ≤ s.lists.length) :
    ∃ ix, Core.touchIndex Core.decr A.length s = (.ok (), { s with index := ix }) ∧
      (ix ≠ [] → TreeOK ix s.offset (s.lists.map List.length) ∧ 2 ≤ s.lists.length) := by
  unfold Core.touchIndex
  simp only [Py.get_bind]
  by_cases h : s.index = []
  · exact ⟨[], by rw [if_pos h, ← h]; rfl, fun h => absurd rfl h⟩
  · obtain ⟨ht, h2⟩ := hix h
    have e1 : (A.map List.length ++ (B.length + 1) :: C.map List.length).getD A.length 0 = B.length + 1 := by
      simp [List.getD_eq_getElem?_getD]
    obtain ⟨ix, e, ht'⟩ := ht.decr (p := A.length) (by simp) (by rw [e1]; omega)
    refine ⟨ix, by rw [if_neg h, e]; rfl, fun _ => ⟨?_, h2⟩⟩
    rw [hl, List.map_append, List.map_cons]
    rw [e1, set_append_cons _ _ _ _ (by simp), Nat.add_sub_cancel] at ht'
    exact ht'

/-! ## Specification of `_expand`, shared by the two classes -/

/-- `_expand(pos)` restores the invariant when sublist `pos` has just received a value (or when the index is empty). -/
def ExpandOK (expand : Nat → Py (St α κ) Unit) (k : α → κ) (lt : κ → κ → Bool) (keyed : Bool) : Prop :=
  ∀ (s : St α κ) (A : List (List α)) (B : List α) (C : List (List α)) (MA : List κ) (m : κ) (MC : List κ) (n : Nat),
    Seg k lt s.load A B C → s.lists = A ++ B :: C → s.maxes = MA ++ m :: MC → MaxesOK k A MA →
    B.getLast?.map k = some m → MaxesOK k C MC → B.length = n + 1 →
    (s.index ≠ [] → TreeOK s.index s.offset (A.map List.length ++ n :: C.map List.length) ∧ 2 ≤ s.lists.length) →
    (keyed = true → s.keys = s.lists.map (List.map k)) →
    ∃ s', expand A.length s = (.ok (), s') ∧ s'.len = s.len ∧ s'.lists.flatten = s.lists.flatten ∧
      Inv k lt keyed { s' with len := s'.lists.flatten.length }

/-! ## Bulk loading -/

theorem chunks_flatten (load : Nat) (vs : List α) (q : Nat) :
    ((List.range q).map fun i => subList vs (i * load) (i * load + load)).flatten = vs.take (q * load) := by
  induction q with
  | zero => simp
  | succ q ih =>
    rw [List.range_succ, List.map_append, List.flatten_append, ih]
    simp only [List.map_cons, List.map_nil, List.flatten_cons, List.flatten_nil, List.append_nil, subList]
    rw [Nat.succ_mul]
    conv => rhs; rw [← List.take_append_drop (q * load) (vs.take (q * load + load))]
    rw [List.take_take, Nat.min_eq_left (by omega)]

theorem chunks_ok {load : Nat} (h : 1 ≤ load) (vs : List α) :
    ∃ cs, Core.chunks load vs = .ok cs ∧ cs.flatten = vs ∧ (∀ c ∈ cs, c ≠ []) ∧ (∀ c ∈ cs, c.length ≤ load) ∧
      (∀ c ∈ cs.dropLast, c.length = load) := by
  unfold Core.chunks
  rw [if_neg (by omega)]
  have hq : ∀ i, i < (vs.length + load - 1) / load ↔ i * load < vs.length := by
    intro i
    rw [← Nat.succ_le_iff, Nat.le_div_iff_mul_le (by omega), Nat.succ_mul]
    omega
  generalize (vs.length + load - 1) / load = q at hq
  have hlen : ∀ i, i * load < vs.length →
      (subList vs (i * load) (i * load + load)).length = min (vs.length - i * load) load := by
    intro i hi
    rw [subList, List.length_drop, List.length_take]; omega
  refine ⟨_, rfl, ?_, ?_, ?_, ?_⟩
  · rw [chunks_flatten, List.take_of_length_le]
    have : ¬ q * load < vs.length := fun h => absurd ((hq q).2 h) (by omega)
    omega
  · intro c hc
    obtain ⟨i, hi, rfl⟩ := List.mem_map.1 hc
    have := (hq i).1 (by simpa using hi)
    exact List.ne_nil_of_length_pos (by rw [hlen i this]; omega)
  · intro c hc
    obtain ⟨i, hi, rfl⟩ := List.mem_map.1 hc
    have := (hq i).1 (by simpa using hi)
    rw [hlen i this]; omega
  · intro c hc
    rw [← List.map_dropLast] at hc
    obtain ⟨i, hi, rfl⟩ := List.mem_map.1 hc
    have hi' : i + 1 < q := by
      cases q with
      | zero => simp at hi
      | succ q => rw [List.range_succ, List.dropLast_concat] at hi; simpa using hi
    have h1 := (hq i).1 (by omega)
    have h2 := (hq (i + 1)).1 hi'
    rw [Nat.succ_mul] at h2
    rw [hlen i h1]; omega

theorem mapE_lastItem (L : List (List α)) (h : ∀ l ∈ L, l ≠ []) :
    ∃ ms, mapE lastItem (L.map (List.map k)) = .ok ms ∧ MaxesOK k L ms := by
  induction L with
  | nil => exact ⟨[], rfl, rfl⟩
  | cons l L ih =>
    obtain ⟨ms, e, hms⟩ := ih fun l hl => h l (by simp [hl])
    have hl := h l (by simp)
    refine ⟨k (l.getLast hl) :: ms, ?_, hms.cons (by rw [List.getLast?_eq_some_getLast hl]; rfl)⟩
    simp only [List.map_cons, mapE]
    rw [lastItem_ok (by simpa using hl), e]
    simp

/-- A state filled from a sorted list, with empty index. -/
theorem Inv.of_chunks {s : St α κ} {load : Nat} (hload : s.load = load) (h1 : 1 ≤ load)
    {vs : List α} (hs : Sorted (fun a b => lt (k a) (k b)) vs) (h2 : s.lists.flatten = vs)
    (h3 : ∀ c ∈ s.lists, c ≠ []) (h4 : ∀ c ∈ s.lists, c.length ≤ load) (h5 : ∀ c ∈ s.lists.dropLast, c.length = load)
    (h6 : MaxesOK k s.lists s.maxes) (h7 : s.len = vs.length) (h8 : s.index = [])
    (h9 : keyed = true → s.keys = s.lists.map (List.map k)) : Inv k lt keyed s where
  load_pos := by rw [hload]; exact h1
  len_eq := by rw [h2, h7]
  ne_nil := h3
  sorted := by rw [h2]; exact hs
  maxes := h6
  upper := fun l hl => by have := h4 l hl; omega
  lower := fun l hl => by have := h5 l hl; omega
  index_ok := fun h => absurd h8 h
  keys_eq := h9

/-- An object with at most one sublist has no index. -/
theorem Inv.index_nil {s : St α κ} (h : Inv k lt keyed s) (h1 : s.lists.length ≤ 1) : s.index = [] := by
  rcases Classical.em (s.index = []) with h' | h'
  · exact h'
  · have := (h.index_ok h').2; omega

/-- The situation after `del _lists[pos][idx]`. -/
theorem Inv.delete_facts {s : St α κ} (h : Inv k lt keyed s) {A C : List (List α)} {B1 B2 : List α} {v : α}
    (hl : s.lists = A ++ (B1 ++ v :: B2) :: C) :
    (A ++ (B1 ++ B2) :: C).flatten = s.lists.flatten.eraseIdx (A.flatten.length + B1.length) ∧
    Sorted (fun a b => lt (k a) (k b)) (A ++ (B1 ++ B2) :: C).flatten ∧
    s.len = (A ++ (B1 ++ B2) :: C).flatten.length + 1 := by
  have e : s.lists.flatten = (A.flatten ++ B1) ++ v :: (B2 ++ C.flatten) := by rw [hl]; simp
  have e' : (A ++ (B1 ++ B2) :: C).flatten = (A.flatten ++ B1) ++ (B2 ++ C.flatten) := by simp
  refine ⟨?_, ?_, ?_⟩
  · rw [e, e', ← List.length_append, List.eraseIdx_append_of_length_le (Nat.le_refl _)]
    simp
  · have := h.sorted
    rw [e] at this
    rw [e']
    exact List.Pairwise.sublist ((List.Sublist.refl _).append (List.sublist_cons_self _ _)) this
  · rw [h.len_eq, e, e']; simp; omega

end Verif
