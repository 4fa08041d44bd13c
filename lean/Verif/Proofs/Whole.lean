import Verif.Proofs.Like
/-!
# The part of the representation invariant that does not depend on the comparisons

`Whole`: the object is, up to the entries of `_maxes` and `_keys`, one that satisfies the representation invariant for the
order in which nothing is less than anything.  Comparison and key functions that raise, or contradict each other, can
spoil the order of the values but not this.
-/

namespace Verif
variable {α κ κ' β : Type} {k : α → κ} {lt : κ → κ → Bool} {keyed : Bool} {k0 : α → κ'} {ilog2 : Nat → Nat}

/-- The order in which nothing is less than anything. -/
abbrev noOrder {κ : Type} : κ → κ → Bool := fun _ _ => false

theorem noOrder_swo : StrictWeakOrder (noOrder (κ := κ)) :=
  ⟨fun _ _ _ => rfl, fun _ _ _ _ _ => rfl⟩

theorem sorted_noOrder (l : List α) : Sorted (fun a b => noOrder (k0 a) (k0 b)) l :=
  List.pairwise_iff_getElem.2 fun _ _ _ _ _ => rfl

def Whole (k0 : α → κ') (keyed : Bool) (s : St α κ) : Prop :=
  ∃ t : St α κ', Like s t ∧ Inv k0 noOrder keyed t

/-- Forget the entries of `_maxes` and `_keys`. -/
def St.erase (s : St α κ) : St α Unit :=
  { len := s.len, load := s.load, lists := s.lists, keys := s.keys.map (List.map fun _ => ()),
    maxes := s.maxes.map fun _ => (), index := s.index, offset := s.offset }

theorem St.like_erase (s : St α κ) : Like s s.erase :=
  ⟨rfl, rfl, rfl, rfl, rfl, by simp [erase], by simp [erase, Function.comp_def]⟩

theorem MaxesOK.length_iff {lists : List (List α)} {maxes : List κ} (h : MaxesOK k lists maxes) :
    maxes.length = lists.length := h.length_eq

theorem MaxesOK.erase {lists : List (List α)} {maxes : List κ} (h : MaxesOK k lists maxes) :
    MaxesOK (fun _ => ()) lists (maxes.map fun _ => ()) := by
  unfold MaxesOK at *
  have := congrArg (List.map (Option.map fun _ => ())) h
  simpa [Function.comp_def] using this

theorem Inv.whole_erase {s : St α κ} (h : Inv k lt keyed s) : Whole (fun _ => ()) keyed s :=
  ⟨s.erase, s.like_erase,
    { load_pos := h.load_pos, len_eq := h.len_eq, ne_nil := h.ne_nil, sorted := sorted_noOrder _,
      maxes := h.maxes.erase, upper := h.upper, lower := h.lower, index_ok := h.index_ok,
      keys_eq := fun hk => by simp [St.erase, h.keys_eq hk, Function.comp_def] }⟩

theorem Inv.whole {s : St α κ} (h : Inv k lt keyed s) : Whole k keyed s :=
  ⟨s, ⟨rfl, rfl, rfl, rfl, rfl, rfl, rfl⟩, { h with sorted := sorted_noOrder _ }⟩


/-! ## Consequences -/

theorem Whole.load_pos {s : St α κ} (h : Whole k0 keyed s) : 1 ≤ s.load := by
  obtain ⟨t, hl, hi⟩ := h; rw [hl.load]; exact hi.load_pos

theorem Whole.len_eq {s : St α κ} (h : Whole k0 keyed s) : s.len = s.lists.flatten.length := by
  obtain ⟨t, hl, hi⟩ := h; rw [hl.len, hl.lists]; exact hi.len_eq

theorem Whole.ne_nil {s : St α κ} (h : Whole k0 keyed s) : ∀ l ∈ s.lists, l ≠ [] := by
  obtain ⟨t, hl, hi⟩ := h; rw [hl.lists]; exact hi.ne_nil

theorem Whole.maxes_length {s : St α κ} (h : Whole k0 keyed s) : s.maxes.length = s.lists.length := by
  obtain ⟨t, hl, hi⟩ := h; rw [hl.lists, hl.maxes]; exact hi.maxes.length_eq

theorem Whole.maxes_nil {s : St α κ} (h : Whole k0 keyed s) : s.maxes = [] ↔ s.lists = [] := by
  rw [← List.length_eq_zero_iff, ← List.length_eq_zero_iff, h.maxes_length]

theorem Whole.keys_lens {s : St α κ} (h : Whole k0 keyed s) (hk : keyed = true) :
    s.keys.map List.length = s.lists.map List.length := by
  obtain ⟨t, hl, hi⟩ := h
  rw [hl.lists, hl.keys, hi.keys_eq hk]; simp [Function.comp_def]

theorem Whole.index_nil {s : St α κ} (h : Whole k0 keyed s) (hl : s.lists.length ≤ 1) : s.index = [] := by
  obtain ⟨t, hl', hi⟩ := h; rw [hl'.index]; rw [hl'.lists] at hl; exact hi.index_nil hl

/-- What is proved of the methods that compare nothing carries over. -/
theorem Refines.whole {m : Py (St α κ) β} {m' : Py (St α κ') β} {f : Py (List α) β} (hm : Sim m m')
    (h : Refines (Inv k0 noOrder keyed) Core.iter m' f) : Refines (Whole k0 keyed) Core.iter m f := by
  rintro s ⟨t, hl, hi⟩
  obtain ⟨h1, h2⟩ := hm s t hl
  obtain ⟨h3, h4, h5⟩ := h t hi
  rw [hl.iter]
  exact ⟨h1.trans h3, h2.iter.trans h4, ⟨_, h2, h5⟩⟩

theorem Whole.index_ok {s : St α κ} (h : Whole k0 keyed s) (hne : s.index ≠ []) :
    TreeOK s.index s.offset (s.lists.map List.length) ∧ 2 ≤ s.lists.length := by
  obtain ⟨t, hl, hi⟩ := h
  have := hi.index_ok (by rw [← hl.index]; exact hne)
  rwa [← hl.index, ← hl.offset, ← hl.lists] at this

theorem Whole.reindex {s : St α κ} (h : Whole k0 keyed s) {i : List Nat} {o : Nat}
    (hix : i ≠ [] → TreeOK i o (s.lists.map List.length) ∧ 2 ≤ s.lists.length) :
    Whole k0 keyed { s with index := i, offset := o } := by
  obtain ⟨t, hl, hi⟩ := h
  refine ⟨{ t with index := i, offset := o }, ⟨hl.len, hl.load, hl.lists, rfl, rfl, hl.maxes, hl.keys⟩, ?_⟩
  rw [hl.lists] at hix
  exact { hi with index_ok := hix }

theorem Whole.ensureIndex (hlog : ∀ n, 1 ≤ n → n < 2 ^ (ilog2 n + 1)) {s : St α κ} (h : Whole k0 keyed s)
    (h2 : 2 ≤ s.lists.length) :
    ∃ s', Core.ensureIndex ilog2 s = (.ok (), s') ∧ Reindexed s s' ∧ Whole k0 keyed s' ∧
      TreeOK s'.index s'.offset (s'.lists.map List.length) := by
  by_cases hix : s.index = []
  · obtain ⟨index, offset, e, hne, ht⟩ := buildIndex_ok hlog s h2 hix
    refine ⟨_, ?_, ⟨index, offset, rfl⟩, ?_, ht⟩
    · simp only [Core.ensureIndex, Py.get_bind, if_pos hix, e]
    · exact h.reindex fun _ => ⟨ht, h2⟩
  · refine ⟨s, ?_, Reindexed.refl s, h, (h.index_ok hix).1⟩
    simp [Core.ensureIndex, hix]

theorem take_drop_split {l : List β} {p : Nat} (hp : p < l.length) :
    ∃ A b C, l = A ++ b :: C ∧ p = A.length ∧ A = l.take p ∧ b = l[p] :=
  ⟨l.take p, l[p], l.drop (p + 1), by rw [← List.drop_eq_getElem_cons hp, List.take_append_drop],
    by rw [List.length_take]; omega, rfl, rfl⟩

theorem Whole.loc (hlog : ∀ n, 1 ≤ n → n < 2 ^ (ilog2 n + 1)) {s : St α κ} (h : Whole k0 keyed s)
    {p : Nat} (hp : p < s.lists.length) (idx : Nat) :
    ∃ s', Core.loc ilog2 p idx s = (.ok ((s.lists.take p).flatten.length + idx), s') ∧ Reindexed s s' ∧ Whole k0 keyed s' := by
  obtain ⟨A, B, C, hl, rfl, -, -⟩ := take_drop_split hp
  rw [show s.lists.take A.length = A by rw [hl]; simp]
  unfold Core.loc
  by_cases hA : A.length = 0
  · refine ⟨s, ?_, Reindexed.refl s, h⟩
    have : A = [] := by simpa using hA
    subst this
    simp
  · obtain ⟨s', e, hr, hi, ht⟩ := h.ensureIndex hlog (by rw [hl]; simp; omega)
    refine ⟨s', ?_, hr, hi⟩
    rw [hr.lists, hl] at ht
    rw [if_neg hA, Py.bind_ok e]
    simp only [Py.get_bind]
    rw [ht.locLoop_eq' (by simp), sum_take_lens]
    rfl

/-- Inserting one value into sublist number `A.length` and calling `_expand`. -/
theorem Whole.insert {expand : Nat → Py (St α κ) Unit} {expand0 : Nat → Py (St α κ') Unit}
    (hsim : ∀ p, Sim (expand p) (expand0 p)) (hex : ExpandOK expand0 k0 noOrder keyed) {s s1 : St α κ} (h : Whole k0 keyed s)
    {A C : List (List α)} {B1 B2 : List α} {v : α} (hl : s.lists = A ++ (B1 ++ B2) :: C)
    (hl1 : s1.lists = A ++ (B1 ++ v :: B2) :: C) (hlen : s1.len = s.len) (hload : s1.load = s.load)
    (hix : s1.index = s.index) (hoff : s1.offset = s.offset) (hmax : s1.maxes.length = s.maxes.length)
    (hkeys : s1.keys.map List.length = if keyed then s1.lists.map List.length else s.keys.map List.length) :
    ∃ s', expand A.length s1 = (.ok (), s') ∧ s'.len = s.len ∧ s'.lists.flatten = s1.lists.flatten ∧
      Whole k0 keyed { s' with len := s'.len + 1 } := by
  obtain ⟨t, hlk, hi⟩ := h
  have hlt : t.lists = A ++ (B1 ++ B2) :: C := by rw [← hlk.lists]; exact hl
  obtain ⟨f1, f2, f3, f4, f5, f6, f7, f8, f9⟩ := hi.seg_facts hlt
  have hmx := hi.maxes
  rw [hlt] at hmx
  obtain ⟨MA, m, MC, hm, hA, hB, hC⟩ := hmx.split_cons
  have hBne : B1 ++ v :: B2 ≠ [] := by simp
  have hlp := hi.load_pos
  let t1 : St α κ' := { t with
    lists := A ++ (B1 ++ v :: B2) :: C
    maxes := MA ++ k0 ((B1 ++ v :: B2).getLast hBne) :: MC
    keys := if keyed then (A ++ (B1 ++ v :: B2) :: C).map (List.map k0) else t.keys }
  have hlk1 : Like s1 t1 := by
    refine ⟨hlen.trans hlk.len, hload.trans hlk.load, hl1, hix.trans hlk.index, hoff.trans hlk.offset, ?_, ?_⟩
    · rw [hmax, hlk.maxes, hm]; simp [t1]
    · rw [hkeys, hl1]
      cases keyed
      · simpa [t1] using hlk.keys
      · simp [t1, Function.comp_def]
  have hseg : Seg k0 noOrder t1.load A (B1 ++ v :: B2) C := by
    refine ⟨hlp, f1, by simp, f3, sorted_noOrder _, f4, ?_, f6, f7, ?_, f9⟩
    · show (B1 ++ v :: B2).length ≤ t.load * 3
      simp at f5 ⊢; omega
    · intro hC; have := f8 hC
      show t.load / 2 ≤ (B1 ++ v :: B2).length
      simp at this ⊢; omega
  obtain ⟨t', e, hlen', hflat', hinv⟩ := hex t1 A (B1 ++ v :: B2) C MA _ MC (B1 ++ B2).length hseg rfl rfl hA
    (by rw [List.getLast?_eq_some_getLast hBne]; rfl) hC (by simp; omega) (fun hne => by
      obtain ⟨ht, h2⟩ := hi.index_ok hne
      rw [hlt] at ht h2
      exact ⟨by simpa using ht, by simpa [t1] using h2⟩) (fun hk => by simp [t1, hk])
  obtain ⟨g1, g2⟩ := hsim A.length s1 t1 hlk1
  rw [e] at g1 g2
  refine ⟨_, Prod.ext g1 rfl, ?_, ?_, ?_⟩
  · rw [g2.len, hlen', hlk.len]
  · rw [g2.lists, hflat', hl1]
  · refine ⟨{ t' with len := t'.lists.flatten.length }, ?_, hinv⟩
    have hlast : (expand A.length s1).2.len + 1 = t'.lists.flatten.length := by
      rw [g2.len, hlen', hflat']
      show t.len + 1 = _
      rw [hi.len_eq, hlt]; simp [t1]; omega
    rw [hlast]
    exact g2.with_len _

/-! ## Binary search stays within bounds -/

theorem bisectRightLoop_le {lt : β → β → Except PyErr Bool} {a : List β} {x : β} {lo hi i : Nat} (h : lo ≤ hi)
    (e : bisectRightLoop lt a x lo hi = .ok i) : lo ≤ i ∧ i ≤ hi := by
  fun_induction bisectRightLoop lt a x lo hi with
  | case1 | case2 => cases e
  | case3 lo hi h m hm he ih => have := ih (by omega) e; omega
  | case4 lo hi h m hm he ih => have := ih (by omega) e; omega
  | case5 lo hi h' => cases e; omega

theorem bisectLeftLoop_le {lt : β → β → Except PyErr Bool} {a : List β} {x : β} {lo hi i : Nat} (h : lo ≤ hi)
    (e : bisectLeftLoop lt a x lo hi = .ok i) : lo ≤ i ∧ i ≤ hi := by
  fun_induction bisectLeftLoop lt a x lo hi with
  | case1 | case2 => cases e
  | case3 lo hi h m hm he ih => have := ih (by omega) e; omega
  | case4 lo hi h m hm he ih => have := ih (by omega) e; omega
  | case5 lo hi h' => cases e; omega

theorem bisectRight_le {lt : β → β → Except PyErr Bool} {a : List β} {x : β} {i : Nat} (e : bisectRight lt a x = .ok i) :
    i ≤ a.length := (bisectRightLoop_le (Nat.zero_le _) e).2

theorem bisectLeft_le {lt : β → β → Except PyErr Bool} {a : List β} {x : β} {i : Nat} (e : bisectLeft lt a x = .ok i) :
    i ≤ a.length := (bisectLeftLoop_le (Nat.zero_le _) e).2

theorem insertAt_eq {l : List β} {i : Nat} (h : i ≤ l.length) (x : β) :
    ∃ A B, l = A ++ B ∧ A.length = i ∧ insertAt l i x = A ++ x :: B :=
  ⟨l.take i, l.drop i, (List.take_append_drop _ _).symm, by rw [List.length_take]; omega, rfl⟩

end Verif
