import Verif.Proofs.Bisect
import Verif.Proofs.StableSort
import Verif.Proofs.Index
/-!
# The representation invariant, and conversion between positions and (sublist, offset) pairs
-/

namespace Verif
variable {α κ β : Type}

/-- The representation invariant.  `k` extracts the entries of `_maxes` (identity for SortedList, the key function for
SortedKeyList), `keyed` tells whether there is a table of cached keys. -/
structure Inv (k : α → κ) (lt : κ → κ → Bool) (keyed : Bool) (s : St α κ) : Prop where
  load_pos : 1 ≤ s.load
  len_eq : s.len = s.lists.flatten.length
  ne_nil : ∀ l ∈ s.lists, l ≠ []
  sorted : Sorted (fun a b => lt (k a) (k b)) s.lists.flatten
  maxes : MaxesOK k s.lists s.maxes
  upper : ∀ l ∈ s.lists, l.length ≤ s.load * 2
  lower : ∀ l ∈ s.lists.dropLast, s.load / 2 ≤ l.length
  index_ok : s.index ≠ [] → TreeOK s.index s.offset (s.lists.map List.length) ∧ 2 ≤ s.lists.length
  keys_eq : keyed = true → s.keys = s.lists.map (List.map k)

/-- Only the positional index differs. -/
def Reindexed (s s' : St α κ) : Prop := ∃ i o, s' = { s with index := i, offset := o }

theorem Reindexed.refl (s : St α κ) : Reindexed s s := ⟨s.index, s.offset, rfl⟩

theorem Reindexed.trans {s s' s'' : St α κ} (h : Reindexed s s') (h' : Reindexed s' s'') : Reindexed s s'' := by
  obtain ⟨i, o, rfl⟩ := h
  obtain ⟨i', o', rfl⟩ := h'
  exact ⟨i', o', rfl⟩

theorem Reindexed.lists {s s' : St α κ} (h : Reindexed s s') : s'.lists = s.lists := by
  obtain ⟨i, o, rfl⟩ := h; rfl
theorem Reindexed.len {s s' : St α κ} (h : Reindexed s s') : s'.len = s.len := by
  obtain ⟨i, o, rfl⟩ := h; rfl
theorem Reindexed.maxes {s s' : St α κ} (h : Reindexed s s') : s'.maxes = s.maxes := by
  obtain ⟨i, o, rfl⟩ := h; rfl
theorem Reindexed.keys {s s' : St α κ} (h : Reindexed s s') : s'.keys = s.keys := by
  obtain ⟨i, o, rfl⟩ := h; rfl
theorem Reindexed.load {s s' : St α κ} (h : Reindexed s s') : s'.load = s.load := by
  obtain ⟨i, o, rfl⟩ := h; rfl

variable {k : α → κ} {lt : κ → κ → Bool} {keyed : Bool} {ilog2 : Nat → Nat}

theorem length_flatten_eq (L : List (List α)) : L.flatten.length = (L.map List.length).sum := by
  induction L with
  | nil => rfl
  | cons l L ih => simp [ih]

theorem Inv.ensureIndex (hlog : ∀ n, 1 ≤ n → n < 2 ^ (ilog2 n + 1)) {s : St α κ} (h : Inv k lt keyed s)
    (h2 : 2 ≤ s.lists.length) :
    ∃ s', Core.ensureIndex ilog2 s = (.ok (), s') ∧ Reindexed s s' ∧ Inv k lt keyed s' ∧
      TreeOK s'.index s'.offset (s'.lists.map List.length) := by
  by_cases hix : s.index = []
  · obtain ⟨index, offset, e, hne, ht⟩ := buildIndex_ok hlog s h2 hix
    refine ⟨_, ?_, ⟨index, offset, rfl⟩, ?_, ht⟩
    · simp only [Core.ensureIndex, Py.get_bind, if_pos hix, e]
    · exact { h with index_ok := fun _ => ⟨ht, h2⟩ }
  · refine ⟨s, ?_, Reindexed.refl s, h, (h.index_ok hix).1⟩
    simp [Core.ensureIndex, hix]

theorem sum_take_lens (A : List (List α)) (R : List (List α)) :
    (((A ++ R).map List.length).take A.length).sum = A.flatten.length := by
  rw [List.map_append, List.take_left' (by simp), length_flatten_eq]

/-- `_loc`: the number of values before offset `idx` of sublist number `A.length`. -/
theorem Inv.loc (hlog : ∀ n, 1 ≤ n → n < 2 ^ (ilog2 n + 1)) {s : St α κ} (h : Inv k lt keyed s)
    {A : List (List α)} {B : List α} {C : List (List α)} (hl : s.lists = A ++ B :: C) (idx : Nat) :
    ∃ s', Core.loc ilog2 A.length idx s = (.ok (A.flatten.length + idx), s') ∧ Reindexed s s' ∧
      Inv k lt keyed s' := by
  unfold Core.loc
  by_cases hA : A.length = 0
  · refine ⟨s, ?_, Reindexed.refl s, h⟩
    have : A = [] := by simpa using hA
    subst this
    simp
  · obtain ⟨s', e, hr, hi, ht⟩ := h.ensureIndex hlog (by rw [hl]; simp; omega)
    refine ⟨s', ?_, hr, hi⟩
    rw [hr.lists, hl] at ht
    rw [if_neg hA, Py.bind_ok e]
    simp only [Py.get_bind]
    rw [ht.locLoop_eq' (by simp), sum_take_lens]
    rfl

/-- `x` is the offset in sublist `p` of the value `v`, which is at position `n` of the whole list. -/
def At (lists : List (List α)) (p x n : Nat) (v : α) : Prop :=
  ∃ A B1 B2 C, lists = A ++ (B1 ++ v :: B2) :: C ∧ p = A.length ∧ x = B1.length ∧
    n = A.flatten.length + B1.length

theorem At.getElem {lists : List (List α)} {p x n : Nat} {v : α} (h : At lists p x n v) :
    lists.flatten[n]? = some v := by
  obtain ⟨A, B1, B2, C, rfl, rfl, rfl, rfl⟩ := h
  have : (A ++ (B1 ++ v :: B2) :: C).flatten = (A.flatten ++ B1) ++ v :: (B2 ++ C.flatten) := by simp
  rw [this, ← List.length_append]
  simp

theorem At.getItem {lists : List (List α)} {p x n : Nat} {v : α} (h : At lists p x n v) :
    ∃ l, getItem lists p = .ok l ∧ getItem l x = .ok v := by
  obtain ⟨A, B1, B2, C, rfl, rfl, rfl, rfl⟩ := h
  exact ⟨_, getItem_append_cons _ _ _ rfl, getItem_append_cons _ _ _ rfl⟩

theorem At.of_lens {lists : List (List α)} {p x : Nat} (hp : p < lists.length)
    (hx : x < (lists.map List.length).getD p 0) :
    ∃ v, At lists p x (((lists.map List.length).take p).sum + x) v := by
  have hx' : x < lists[p].length := by simpa [List.getD_eq_getElem?_getD, hp] using hx
  refine ⟨lists[p][x], lists.take p, lists[p].take x, lists[p].drop (x + 1), lists.drop (p + 1), ?_, ?_, ?_, ?_⟩
  · rw [← List.drop_eq_getElem_cons hx', List.take_append_drop, ← List.drop_eq_getElem_cons hp,
      List.take_append_drop]
  · simp; omega
  · simp; omega
  · rw [length_flatten_eq, List.map_take]
    simp; omega

theorem At.of_first {l : List α} {L : List (List α)} {x : Nat} (hx : x < l.length) :
    ∃ v, l[x]? = some v ∧ At (l :: L) 0 x x v := by
  refine ⟨l[x], by simp [hx], [], l.take x, l.drop (x + 1), L, ?_, rfl, by simp; omega, by simp; omega⟩
  simp

theorem At.of_last {l : List α} {L : List (List α)} {x : Nat} (hx : x < l.length) :
    ∃ v, l[x]? = some v ∧ At (L ++ [l]) L.length x (L.flatten.length + x) v := by
  refine ⟨l[x], by simp [hx], L, l.take x, l.drop (x + 1), [], ?_, rfl, by simp; omega, by simp; omega⟩
  simp

theorem Inv.posNonneg (hlog : ∀ n, 1 ≤ n → n < 2 ^ (ilog2 n + 1)) {s : St α κ} (h : Inv k lt keyed s)
    {idx : Nat} (hidx : idx < s.lists.flatten.length) :
    ∃ p x v s', Core.posNonneg ilog2 idx s = (.ok (p, x), s') ∧ At s.lists p x idx v ∧ Reindexed s s' ∧
      Inv k lt keyed s' := by
  obtain ⟨first, L, hL⟩ : ∃ l L, s.lists = l :: L := by
    cases e : s.lists with
    | nil => rw [e] at hidx; simp at hidx
    | cons l L => exact ⟨l, L, rfl⟩
  unfold Core.posNonneg
  simp only [Py.get_bind, hL]
  rw [show Verif.getItem (first :: L) 0 = .ok first from rfl]
  simp only [Py.lift_ok_bind, Py.ite_apply', Py.pure_apply]
  by_cases hf : idx < first.length
  · obtain ⟨v, _, hat⟩ := At.of_first (L := L) hf
    exact ⟨0, idx, v, s, by rw [if_pos hf], hat, Reindexed.refl s, h⟩
  · rw [if_neg hf]
    have h2 : 2 ≤ s.lists.length := by
      rw [hL] at hidx ⊢
      cases L with
      | nil => simp at hidx; omega
      | cons => simp
    obtain ⟨s', e, hr, hi, ht⟩ := h.ensureIndex hlog h2
    rw [hr.lists] at ht
    obtain ⟨p, x, e', h1, h3, h4⟩ := ht.posLoop_eq' (idx := idx) (by rwa [← length_flatten_eq])
    obtain ⟨v, hat⟩ := At.of_lens (lists := s.lists) (by simpa using h1) h3
    rw [hL] at hat
    refine ⟨p, x, v, s', ?_, ?_, hr, hi⟩
    · rw [Py.bind_ok e]
      simp only [Py.get_bind, e']
      rw [if_neg (by omega), Nat.add_sub_cancel_left]
      rfl
    · rw [h4, hL]; exact hat

/-- `_pos` is right for every integer subscript: it finds the value that the subscript denotes, or raises IndexError. -/
theorem Inv.pos_some (hlog : ∀ n, 1 ≤ n → n < 2 ^ (ilog2 n + 1)) {s : St α κ} (h : Inv k lt keyed s)
    {i : Int} {n : Nat} (hn : Spec.position s.lists.flatten.length i = some n) :
    ∃ p x v s', Core.pos ilog2 i s = (.ok (p, x), s') ∧ At s.lists p x n v ∧ Reindexed s s' ∧
      Inv k lt keyed s' := by
  rw [← h.len_eq] at hn
  unfold Core.pos
  simp only [Py.get_bind]
  unfold Spec.position at hn
  by_cases hneg : i < 0
  · rw [if_neg (by omega)] at hn
    split at hn
    case isFalse => simp at hn
    rename_i hin
    simp only [Option.some.injEq] at hn
    rw [if_pos hneg]
    obtain ⟨L, last, hL⟩ : ∃ L l, s.lists = L ++ [l] := by
      rcases List.eq_nil_or_concat s.lists with e | ⟨L, l, e⟩
      · have := h.len_eq; rw [e] at this; simp at this; omega
      · exact ⟨L, l, by rw [e, List.concat_eq_append]⟩
    have hlen : s.len = L.flatten.length + last.length := by rw [h.len_eq, hL]; simp
    rw [hL]
    simp only [lastItem_concat, Py.lift_ok_bind, Py.ite_apply', Py.pure_apply, Py.raise_apply]
    split
    · rename_i hle
      obtain ⟨v, _, hat⟩ := At.of_last (L := L) (l := last) (x := ((last.length : Int) + i).toNat) (by omega)
      refine ⟨L.length, _, v, s, by simp; rfl, ?_, Reindexed.refl s, h⟩
      rw [show n = L.flatten.length + ((last.length : Int) + i).toNat by omega]
      exact hat
    · rw [if_neg (by omega)]
      have hn' : (i + (s.len : Int)).toNat = n := hn
      rw [hn', ← hL]
      apply h.posNonneg hlog
      rw [← h.len_eq]; omega
  · rw [if_neg hneg]
    split at hn
    case isFalse => rw [if_neg (by omega)] at hn; simp at hn
    rename_i hin
    simp only [Option.some.injEq] at hn
    subst hn
    rw [if_neg (by omega)]
    apply h.posNonneg hlog
    rw [← h.len_eq]; omega

theorem Inv.pos_none {s : St α κ} (h : Inv k lt keyed s)
    {i : Int} (hn : Spec.position s.lists.flatten.length i = none) :
    Core.pos ilog2 i s = (.error .indexError, s) := by
  rw [← h.len_eq] at hn
  unfold Core.pos
  simp only [Py.get_bind]
  unfold Spec.position at hn
  split at hn
  · simp at hn
  split at hn
  · simp at hn
  by_cases hneg : i < 0
  · rw [if_pos hneg]
    rcases List.eq_nil_or_concat s.lists with e | ⟨L, last, e⟩
    · rw [e]; rfl
    · have hlen : s.len = L.flatten.length + last.length := by rw [h.len_eq, e]; simp
      rw [e, List.concat_eq_append]
      simp only [lastItem_concat, Py.lift_ok_bind]
      rw [if_neg (by omega), if_pos (by omega)]
      rfl
  · rw [if_neg hneg, if_pos (by omega)]
    rfl

/-! ## Refinement of a call -/

/-- The call `m` behaves as the call `f` on the plain list of the values: same result or exception, same contents
afterwards, and the invariant is kept. -/
def Refines {σ : Type} (I : σ → Prop) (abs : σ → List α) (m : Py σ β) (f : Py (List α) β) : Prop :=
  ∀ s, I s → (m s).1 = (f (abs s)).1 ∧ abs (m s).2 = (f (abs s)).2 ∧ I (m s).2

section Refines
variable {σ γ : Type} {I : σ → Prop} {abs : σ → List α}

theorem Refines.eq_of {m : Py σ β} {f : Py (List α) β} (h : Refines I abs m f) {s : σ} (hs : I s)
    {r : Except PyErr β} {l : List α} (hf : f (abs s) = (r, l)) :
    ∃ s', m s = (r, s') ∧ abs s' = l ∧ I s' := by
  obtain ⟨h1, h2, h3⟩ := h s hs
  rw [hf] at h1 h2
  exact ⟨(m s).2, Prod.ext h1 rfl, h2, h3⟩

theorem Refines.of {m : Py σ β} {f : Py (List α) β}
    (h : ∀ s, I s → ∃ s', m s = ((f (abs s)).1, s') ∧ abs s' = (f (abs s)).2 ∧ I s') : Refines I abs m f := by
  intro s hs
  obtain ⟨s', e, h1, h2⟩ := h s hs
  rw [e]
  exact ⟨rfl, h1, h2⟩

theorem Refines.pure (b : β) : Refines I abs (Pure.pure b) (Pure.pure b : Py (List α) β) :=
  fun _ hs => ⟨rfl, rfl, hs⟩

theorem Refines.raise (e : PyErr) : Refines I abs (Py.raise e : Py σ β) (Py.raise e : Py (List α) β) :=
  fun _ hs => ⟨rfl, rfl, hs⟩

theorem Refines.bind {m : Py σ β} {f : Py (List α) β} {g : β → Py σ γ} {g' : β → Py (List α) γ}
    (h1 : Refines I abs m f) (h2 : ∀ b, Refines I abs (g b) (g' b)) : Refines I abs (m >>= g) (f >>= g') := by
  intro s hs
  obtain ⟨a1, a2, a3⟩ := h1 s hs
  simp only [Py.bind_apply]
  rcases hm : m s with ⟨r, s'⟩
  rcases hf : f (abs s) with ⟨r', l⟩
  rw [hm, hf] at a1 a2
  rw [hm] at a3
  simp only at a1 a2 a3
  subst a1 a2
  cases r with
  | error e => exact ⟨rfl, rfl, a3⟩
  | ok b => exact h2 b s' a3

theorem Refines.forEach {δ : Type} {m : δ → Py σ Unit} {f : δ → Py (List α) Unit} (xs : List δ)
    (h : ∀ x ∈ xs, Refines I abs (m x) (f x)) : Refines I abs (Py.forEach m xs) (Py.forEach f xs) := by
  induction xs with
  | nil => exact Refines.pure ()
  | cons x xs ih =>
    exact Refines.bind (h x (by simp)) fun _ => ih fun y hy => h y (by simp [hy])

theorem Refines.mapEach {δ : Type} {m : δ → Py σ β} {f : δ → Py (List α) β} (xs : List δ)
    (h : ∀ x ∈ xs, Refines I abs (m x) (f x)) : Refines I abs (Py.mapEach m xs) (Py.mapEach f xs) := by
  induction xs with
  | nil => exact Refines.pure []
  | cons x xs ih =>
    exact Refines.bind (h x (by simp)) fun _ =>
      Refines.bind (ih fun y hy => h y (by simp [hy])) fun _ => Refines.pure _

theorem Refines.out {m : Py σ β} {f : Py (List α) β} (g : β → Out α) (h : Refines I abs m f) :
    Refines I abs (Spec.out g m) (Spec.out g f) := by
  intro s hs
  obtain ⟨a1, a2, a3⟩ := h s hs
  unfold Spec.out
  rcases hm : m s with ⟨r, s'⟩
  rcases hf : f (abs s) with ⟨r', l⟩
  rw [hm, hf] at a1 a2
  rw [hm] at a3
  simp only at a1 a2 a3
  subst a1 a2
  cases r <;> exact ⟨rfl, rfl, a3⟩

end Refines

end Verif
