import Verif.Proofs.Inv
import Verif.Proofs.Slice
/-!
# The methods shared by SortedList and SortedKeyList refine the specification
-/

namespace Verif
variable {α κ : Type}

@[simp] theorem except_ok_bind {β γ : Type} (b : β) (f : β → Except PyErr γ) : (Except.ok b >>= f) = f b := rfl
@[simp] theorem except_error_bind {β γ : Type} (e : PyErr) (f : β → Except PyErr γ) :
    ((Except.error e : Except PyErr β) >>= f) = .error e := rfl

/-! ## Cuts -/

/-- Offset `x` of sublist `p` is the boundary in front of position `n` of the whole list. -/
def Cut (lists : List (List α)) (p x n : Nat) : Prop :=
  ∃ A B C, lists = A ++ B :: C ∧ p = A.length ∧ x ≤ B.length ∧ n = A.flatten.length + x

theorem At.cut {lists : List (List α)} {p x n : Nat} {v : α} (h : At lists p x n v) : Cut lists p x n := by
  obtain ⟨A, B1, B2, C, rfl, rfl, rfl, rfl⟩ := h
  exact ⟨A, B1 ++ v :: B2, C, rfl, rfl, by simp, rfl⟩

theorem Cut.last {L : List (List α)} {l : List α} :
    Cut (L ++ [l]) L.length l.length (L ++ [l]).flatten.length :=
  ⟨L, l, [], rfl, rfl, Nat.le_refl _, by simp⟩

theorem Cut.getElem? {lists : List (List α)} {p x n : Nat} (h : Cut lists p x n) :
    ∃ l, lists[p]? = some l ∧ x ≤ l.length := by
  obtain ⟨A, B, C, rfl, rfl, hx, rfl⟩ := h
  exact ⟨B, by simp, hx⟩

theorem take_left_add {A B : List α} {n : Nat} : (A ++ B).take (A.length + n) = A ++ B.take n := by
  rw [List.take_append]
  simp [List.take_of_length_le]

theorem drop_left_add {A B : List α} {n : Nat} : (A ++ B).drop (A.length + n) = B.drop n := by
  rw [List.drop_append]
  simp

/-- Two cuts in one sublist. -/
theorem Cut.same {lists : List (List α)} {p x n x' n' : Nat} (h : Cut lists p x n) (h' : Cut lists p x' n') :
    ∃ l, lists[p]? = some l ∧ x ≤ l.length ∧ x' ≤ l.length ∧
      (lists.flatten.take n').drop n = (l.take x').drop x := by
  obtain ⟨A, B, C, rfl, rfl, hx, rfl⟩ := h
  obtain ⟨A', B', C', e, e2, hx', rfl⟩ := h'
  obtain ⟨rfl, e3⟩ := List.append_inj e e2
  obtain ⟨rfl, rfl⟩ := List.cons.inj e3
  refine ⟨B, by simp, hx, hx', ?_⟩
  rw [List.flatten_append, List.flatten_cons, take_left_add, List.take_append_of_le_length hx', drop_left_add]

/-- A cut in an earlier sublist is at an earlier position. -/
theorem Cut.lt_le {lists : List (List α)} {p x n p' x' n' : Nat} (h : Cut lists p x n) (h' : Cut lists p' x' n')
    (hlt : p < p') : n ≤ n' := by
  obtain ⟨A, B, C, rfl, rfl, hx, rfl⟩ := h
  obtain ⟨A', B', C', e, rfl, hx', rfl⟩ := h'
  rw [List.append_eq_append_iff] at e
  rcases e with ⟨T, rfl, e⟩ | ⟨T, rfl, _⟩
  · cases T with
    | nil => simp at hlt
    | cons b T =>
      obtain ⟨rfl, _⟩ := List.cons.inj e
      simp; omega
  · simp at hlt; omega

/-- Two cuts in different sublists. -/
theorem Cut.diff {lists : List (List α)} {p x n p' x' n' : Nat} (h : Cut lists p x n) (h' : Cut lists p' x' n')
    (hlt : p < p') :
    ∃ l l', lists[p]? = some l ∧ lists[p']? = some l' ∧ x ≤ l.length ∧ x' ≤ l'.length ∧ p' < lists.length ∧
      (lists.flatten.take n').drop n = l.drop x ++ (subList lists (p + 1) p').flatten ++ l'.take x' := by
  obtain ⟨A, B, C, rfl, rfl, hx, rfl⟩ := h
  obtain ⟨A', B', C', e, rfl, hx', rfl⟩ := h'
  obtain ⟨T, rfl, rfl⟩ : ∃ T, A' = A ++ B :: T ∧ C = T ++ B' :: C' := by
    rw [List.append_eq_append_iff] at e
    rcases e with ⟨T, rfl, e⟩ | ⟨T, rfl, _⟩
    · cases T with
      | nil => simp at hlt
      | cons b T =>
        obtain ⟨rfl, rfl⟩ := List.cons.inj e
        exact ⟨T, rfl, rfl⟩
    · simp at hlt; omega
  clear e
  have e1 : A ++ B :: (T ++ B' :: C') = (A ++ B :: T) ++ B' :: C' := by simp
  refine ⟨B, B', by simp, ?_, hx, hx', by simp, ?_⟩
  · rw [e1]; simp
  · have e0 : ((A ++ B :: T) ++ B' :: C').flatten = (A ++ B :: T).flatten ++ (B' ++ C'.flatten) := by simp
    rw [e1, e0, take_left_add, List.take_append_of_le_length hx']
    rw [List.flatten_append, List.flatten_cons, List.append_assoc, drop_left_add]
    have e2 : subList ((A ++ B :: T) ++ B' :: C') (A.length + 1) (A ++ B :: T).length = T := by
      unfold subList
      rw [List.take_left]
      rw [drop_left_add]
      rfl
    rw [e2, List.append_assoc, List.drop_append_of_le_length hx, List.append_assoc]

theorem subList_eq_drop_take (l : List α) (a b : Nat) : subList l a b = (l.drop a).take (b - a) := by
  unfold subList
  rw [List.drop_take]

theorem getItems_natRange (l : List α) {a b : Nat} (h : b ≤ l.length) :
    getItems l (Core.natRange a b) = .ok ((l.take b).drop a) := by
  unfold Core.natRange
  by_cases hab : a ≤ b
  · rw [getItems_range' _ _ _ (by omega), List.drop_take]
  · rw [show b - a = 0 by omega, List.drop_eq_nil_of_le (by simp; omega)]
    rfl

theorem islicePos_eq (s : St α κ) {p x n p' x' n' : Nat} (h : Cut s.lists p x n) (h' : Cut s.lists p' x' n')
    (rev : Bool) :
    Core.islicePos s p x p' x' rev = .ok (Spec.reverseIf rev ((s.lists.flatten.take n').drop n)) := by
  unfold Core.islicePos
  by_cases hgt : p > p'
  · rw [if_pos hgt]
    have := h'.lt_le h hgt
    rw [List.drop_eq_nil_of_le (by simp; omega)]
    cases rev <;> rfl
  rw [if_neg hgt]
  by_cases heq : p = p'
  · subst heq
    obtain ⟨l, hl, hx, hx', e⟩ := h.same h'
    rw [if_pos rfl, getItem_ok_iff.2 hl]
    simp only [except_ok_bind]
    have := getItems_natRange l (a := x) hx'
    rw [e]
    cases rev
    · exact this
    · exact getItems_reverse this
  rw [if_neg heq]
  obtain ⟨l, l', hl, hl', hx, hx', hp', e⟩ := h.diff h' (by omega)
  have g1 : getItems l (Core.natRange x l.length) = .ok (l.drop x) := by
    rw [getItems_natRange l (Nat.le_refl _), List.take_length]
  have g2 : getItems l' (Core.natRange 0 x') = .ok (l'.take x') := by
    rw [getItems_natRange l' hx', List.drop_zero]
  have g3 : getItems s.lists (Core.natRange (p + 1) p') = .ok (subList s.lists (p + 1) p') :=
    getItems_natRange _ (by omega)
  rw [e]
  by_cases hsucc : p + 1 = p'
  · have e0 : subList s.lists (p + 1) p' = [] := by
      rw [subList_eq_drop_take, hsucc]; simp
    rw [if_pos hsucc, getItem_ok_iff.2 hl, getItem_ok_iff.2 hl', e0]
    cases rev
    · simp [g1, g2, Spec.reverseIf]
    · simp [getItems_reverse g1, getItems_reverse g2, Spec.reverseIf]
  · rw [if_neg hsucc, getItem_ok_iff.2 hl, getItem_ok_iff.2 hl']
    cases rev
    · simp [g1, g2, g3, Spec.reverseIf]
    · simp only [except_ok_bind, getItems_reverse g1, getItems_reverse g2, getItems_reverse g3, Spec.reverseIf,
        if_true, List.reverse_append, List.map_reverse, List.append_assoc, List.reverse_flatten]

/-! ## Subscripts -/

variable {k : α → κ} {lt : κ → κ → Bool} {keyed : Bool} {ilog2 : Nat → Nat}

theorem Refines.of_query {β : Type} {m : Py (St α κ) β} {f : Py (List α) β}
    (h : ∀ s, Inv k lt keyed s → ∃ s', m s = ((f (Core.iter s)).1, s') ∧ Reindexed s s' ∧ Inv k lt keyed s')
    (hf : ∀ l, (f l).2 = l) : Refines (Inv k lt keyed) Core.iter m f :=
  Refines.of fun s hs => by
    obtain ⟨s', e, hr, hi⟩ := h s hs
    exact ⟨s', e, by rw [hf, Core.iter, Core.iter, hr.lists], hi⟩

theorem Inv.lists_ne_nil {s : St α κ} (h : Inv k lt keyed s) (hl : s.len ≠ 0) : s.lists ≠ [] := by
  intro e; apply hl; rw [h.len_eq, e]; rfl

/-- Reading a list at an integer subscript. -/
theorem spec_getInt_eq {l : List α} {i : Int} {n : Nat} {v : α} (hn : Spec.position l.length i = some n)
    (hv : l[n]? = some v) : Spec.getInt i l = (.ok v, l) := by
  simp [Spec.getInt, hn, hv]

theorem Inv.getInt_ok (hlog : ∀ n, 1 ≤ n → n < 2 ^ (ilog2 n + 1)) {s : St α κ} (h : Inv k lt keyed s) (i : Int) :
    ∃ s', Core.getInt ilog2 i s = ((Spec.getInt i (Core.iter s)).1, s') ∧ Reindexed s s' ∧ Inv k lt keyed s' := by
  unfold Core.getInt
  simp only [Py.get_bind]
  by_cases hlen : s.len = 0
  · refine ⟨s, ?_, Reindexed.refl s, h⟩
    have : Core.iter s = [] := List.eq_nil_of_length_eq_zero (by
      have := h.len_eq; rw [hlen] at this; exact this.symm)
    rw [this, if_neg (by simpa using hlen)]
    simp only [Spec.getInt, Spec.position, Py.raise_apply]
    split
    · rename_i he
      rw [Option.bind_eq_some_iff] at he
      obtain ⟨_, _, he⟩ := he
      simp at he
    · rfl
  rw [if_pos hlen]
  have hne := h.lists_ne_nil hlen
  obtain ⟨first, L, hL⟩ := List.exists_cons_of_ne_nil hne
  obtain ⟨L', last, hL'⟩ : ∃ L' l, s.lists = L' ++ [l] := ⟨_, _, (List.dropLast_concat_getLast hne).symm⟩
  have hfirst : first ≠ [] := h.ne_nil _ (by rw [hL]; simp)
  have hlast : last ≠ [] := h.ne_nil _ (by rw [hL']; simp)
  have hfl : 0 < first.length := List.length_pos_iff.2 hfirst
  have hll : 0 < last.length := List.length_pos_iff.2 hlast
  have hlenf : (Core.iter s).length = first.length + L.flatten.length := by rw [Core.iter, hL]; simp
  have hlenl : (Core.iter s).length = L'.flatten.length + last.length := by rw [Core.iter, hL']; simp
  have hg0 : getItem s.lists 0 = .ok first := by rw [hL]; rfl
  have hgl : lastItem s.lists = .ok last := by rw [hL']; simp
  have fromFirst : ∀ x : Nat, x < first.length → ∃ v, getItem first x = .ok v ∧ (Core.iter s)[x]? = some v := by
    intro x hx
    obtain ⟨v, hv, hat⟩ := At.of_first (L := L) hx
    rw [← hL] at hat
    exact ⟨v, getItem_ok_iff.2 hv, hat.getElem⟩
  have fromLast : ∀ x : Nat, x < last.length →
      ∃ v, last[x]? = some v ∧ (Core.iter s)[L'.flatten.length + x]? = some v := by
    intro x hx
    obtain ⟨v, hv, hat⟩ := At.of_last (L := L') hx
    rw [← hL'] at hat
    exact ⟨v, hv, hat.getElem⟩
  by_cases hi0 : i = 0
  · subst hi0
    refine ⟨s, ?_, Reindexed.refl s, h⟩
    obtain ⟨v, e1, e2⟩ := fromFirst 0 hfl
    rw [if_pos rfl, hg0, Py.lift_ok_bind, e1,
      spec_getInt_eq (n := 0) (by rw [Spec.position, if_pos (by omega)]; rfl) e2]
    rfl
  rw [if_neg hi0]
  by_cases hi1 : i = -1
  · subst hi1
    refine ⟨s, ?_, Reindexed.refl s, h⟩
    obtain ⟨v, e1, e2⟩ := fromLast (last.length - 1) (by omega)
    rw [if_pos rfl, hgl, Py.lift_ok_bind, lastItem_of_getLast? (by rw [List.getLast?_eq_getElem?]; exact e1),
      spec_getInt_eq (n := L'.flatten.length + (last.length - 1)) _ e2]
    · rfl
    · rw [Spec.position, if_neg (by omega), if_pos (by omega)]; congr 1; omega
  rw [if_neg hi1, hg0, Py.lift_ok_bind]
  by_cases hr : 0 ≤ i ∧ i < first.length
  · refine ⟨s, ?_, Reindexed.refl s, h⟩
    obtain ⟨v, e1, e2⟩ := fromFirst i.toNat (by omega)
    rw [if_pos hr, e1, spec_getInt_eq (n := i.toNat) (by rw [Spec.position, if_pos (by omega)]) e2]
    rfl
  rw [if_neg hr, hgl, Py.lift_ok_bind]
  by_cases hr' : -(last.length : Int) < i ∧ i < 0
  · refine ⟨s, ?_, Reindexed.refl s, h⟩
    obtain ⟨v, e1, e2⟩ := fromLast ((last.length : Int) + i).toNat (by omega)
    rw [if_pos hr', getItem_ok_iff.2 e1,
      spec_getInt_eq (n := L'.flatten.length + ((last.length : Int) + i).toNat) _ e2]
    · rfl
    · rw [Spec.position, if_neg (by omega), if_pos (by omega)]; congr 1; omega
  rw [if_neg hr']
  cases hpos : Spec.position (Core.iter s).length i with
  | none =>
    refine ⟨s, ?_, Reindexed.refl s, h⟩
    rw [Py.bind_error (h.pos_none hpos)]
    simp [Spec.getInt, hpos]
  | some n =>
    obtain ⟨p, x, v, s', e, hat, hre, hi⟩ := h.pos_some hlog hpos
    refine ⟨s', ?_, hre, hi⟩
    rw [Py.bind_ok e]
    obtain ⟨l, e1, e2⟩ := hat.getItem
    simp only [e1, e2, Py.lift_ok_bind, Py.lift_apply]
    rw [spec_getInt_eq hpos hat.getElem]

theorem getInt_refines (hlog : ∀ n, 1 ≤ n → n < 2 ^ (ilog2 n + 1)) (i : Int) :
    Refines (Inv k lt keyed) Core.iter (Core.getInt ilog2 i) (Spec.getInt i) :=
  Refines.of_query (fun _ h => h.getInt_ok hlog i) (by intro l; unfold Spec.getInt; split <;> rfl)

/-! ## Slices -/

theorem spec_getSlice_step1 {sl : PySlice} {l : List α} {a b : Int} (h : sl.indices l.length = .ok (a, b, 1)) :
    Spec.getSlice sl l = (.ok ((l.take b.toNat).drop a.toNat), l) := by
  have hb := (indices_bounds h).1 (by omega)
  simp only [Spec.getSlice, Spec.slicePositions, h, pyRange_one hb.1, List.map_map]
  have : (Int.toNat ∘ fun (n : Nat) => (n : Int)) = id := by funext n; simp
  rw [this, List.map_id]
  by_cases hab : a ≤ b
  · rw [filterMap_range' _ _ _ (by omega), List.drop_take]
    congr 3; omega
  · rw [show (b - a).toNat = 0 by omega, List.drop_eq_nil_of_le (by simp; omega)]
    rfl

theorem Inv.getSliceFwd_ok (hlog : ∀ n, 1 ≤ n → n < 2 ^ (ilog2 n + 1)) {s : St α κ} (h : Inv k lt keyed s)
    {a b : Int} (h0 : 0 ≤ a) (hab : a < b) (hb : b ≤ (Core.iter s).length) :
    ∃ s', Core.getSliceFwd ilog2 a b s = (.ok (((Core.iter s).take b.toNat).drop a.toNat), s') ∧ Reindexed s s' ∧
      Inv k lt keyed s' := by
  unfold Core.getSliceFwd
  simp only [Py.get_bind]
  have hlen : s.len = (Core.iter s).length := h.len_eq
  by_cases hall : a = 0 ∧ b = s.len
  · refine ⟨s, ?_, Reindexed.refl s, h⟩
    rw [if_pos hall, hall.1, hall.2, hlen]
    simp
  rw [if_neg hall]
  obtain ⟨p, x, v, s', e, hat, hre, hi⟩ := h.pos_some hlog (i := a) (n := a.toNat)
    (by rw [Spec.position, if_pos ⟨h0, by rw [Core.iter] at hb; omega⟩])
  rw [Py.bind_ok e]
  obtain ⟨l, hl, hx⟩ := hat.cut.getElem?
  simp only [getItem_ok_iff.2 hl, Py.lift_ok_bind]
  by_cases hone : x + (b - a).toNat ≤ l.length
  · refine ⟨s', ?_, hre, hi⟩
    rw [if_pos hone]
    have hcut' : Cut s.lists p (x + (b - a).toNat) b.toNat := by
      obtain ⟨A, B, C, e1, rfl, e3, e4⟩ := hat.cut
      have : B = l := by rw [e1] at hl; simpa using hl
      subst this
      exact ⟨A, B, C, e1, rfl, hone, by omega⟩
    obtain ⟨l', hl', _, _, e'⟩ := hat.cut.same hcut'
    rw [hl] at hl'
    cases hl'
    rw [Core.iter, e']
    rfl
  · rw [if_neg hone]
    have key : ∀ (p' x' : Nat), Cut s.lists p' x' b.toNat →
        ∃ l', getItem s.lists p' = .ok l' ∧
          l.drop x ++ (subList s.lists (p + 1) p').flatten ++ l'.take x' =
            ((Core.iter s).take b.toNat).drop a.toNat := by
      intro p' x' hcut
      have hlt : p < p' := by
        apply Nat.lt_of_not_le
        intro hle
        obtain ⟨A, B, C, e1, e2, e3, e4⟩ := hat.cut
        obtain ⟨A', B', C', e1', e2', e3', e4'⟩ := hcut
        have hB : B = l := by rw [e1, e2] at hl; simpa using hl
        have hcB : Cut s.lists p B.length (A.flatten.length + B.length) := ⟨A, B, C, e1, e2, Nat.le_refl _, rfl⟩
        have hcut : Cut s.lists p' x' b.toNat := ⟨A', B', C', e1', e2', e3', e4'⟩
        have : b.toNat ≤ A.flatten.length + B.length := by
          rcases Nat.lt_or_eq_of_le hle with hlt | heq
          · exact hcut.lt_le hcB hlt
          · have hAA : A'.length = A.length := by omega
            obtain ⟨rfl, e5⟩ := List.append_inj (e1.symm.trans e1') hAA.symm
            obtain ⟨rfl, rfl⟩ := List.cons.inj e5
            omega
        rw [hB] at this
        omega
      obtain ⟨l1, l2, h1, h2, _, _, _, e'⟩ := hat.cut.diff hcut hlt
      rw [hl] at h1
      cases h1
      exact ⟨l2, getItem_ok_iff.2 h2, e'.symm⟩
    by_cases hend : b = s.len
    · refine ⟨s', ?_, hre, hi⟩
      rw [if_pos hend]
      have hne : s.lists ≠ [] := by intro e0; rw [e0] at hl; simp at hl
      have hL' : s.lists = s.lists.dropLast ++ [s.lists.getLast hne] := (List.dropLast_concat_getLast hne).symm
      have hcut : Cut s.lists (s.lists.length - 1) (s.lists.getLast hne).length b.toNat := by
        refine ⟨s.lists.dropLast, s.lists.getLast hne, [], hL', by simp, Nat.le_refl _, ?_⟩
        have hfl : s.lists.flatten.length = s.lists.dropLast.flatten.length + (s.lists.getLast hne).length := by
          conv => lhs; rw [hL']
          simp
        have := h.len_eq
        omega
      obtain ⟨l', g1, g2⟩ := key _ _ hcut
      have g3 : l' = s.lists.getLast hne := by
        rw [getItem_ok_iff] at g1
        rw [List.getLast_eq_getElem]
        rw [List.getElem?_eq_getElem (by have := List.length_pos_iff.2 hne; omega)] at g1
        exact (Option.some.inj g1).symm
      subst g3
      simp only [g1, Py.lift_ok_bind, Py.pure_bind', Py.pure_apply, g2]
    · rw [if_neg hend]
      obtain ⟨p', x', v', s'', e', hat', hre', hi'⟩ := hi.pos_some hlog (i := b) (n := b.toNat)
        (by rw [hre.lists, Spec.position, if_pos ⟨by omega, by rw [Core.iter] at hb hlen; omega⟩])
      rw [hre.lists] at hat'
      refine ⟨s'', ?_, hre.trans hre', hi'⟩
      rw [Py.bind_ok e']
      obtain ⟨l', g1, g2⟩ := key _ _ hat'.cut
      simp only [g1, Py.lift_ok_bind, Py.pure_apply, g2]

theorem mapEach_range_refines (hlog : ∀ n, 1 ≤ n → n < 2 ^ (ilog2 n + 1)) (is : List Int) :
    Refines (Inv k lt keyed) Core.iter (Py.mapEach (Core.getInt ilog2) is) (Py.mapEach Spec.getInt is) :=
  Refines.mapEach is fun i _ => getInt_refines hlog i

/-- Reading position by position leaves everything but the index alone. -/
theorem Inv.mapEach_getInt_ok (hlog : ∀ n, 1 ≤ n → n < 2 ^ (ilog2 n + 1)) (is : List Int) :
    ∀ {s : St α κ}, Inv k lt keyed s →
    ∃ s', Py.mapEach (Core.getInt ilog2) is s = ((Py.mapEach Spec.getInt is (Core.iter s)).1, s') ∧
      Reindexed s s' ∧ Inv k lt keyed s' := by
  induction is with
  | nil => intro s h; exact ⟨s, rfl, Reindexed.refl s, h⟩
  | cons i is ih =>
    intro s h
    obtain ⟨s1, e1, r1, i1⟩ := h.getInt_ok hlog i
    have hspec2 : (Spec.getInt i (Core.iter s)).2 = Core.iter s := by unfold Spec.getInt; split <;> rfl
    rcases hsp : Spec.getInt i (Core.iter s) with ⟨r, l⟩
    rw [hsp] at e1 hspec2
    simp only at e1 hspec2
    subst hspec2
    simp only [Py.mapEach]
    cases r with
    | error e => exact ⟨s1, by rw [Py.bind_error e1, Py.bind_error hsp], r1, i1⟩
    | ok v =>
      obtain ⟨s2, e2, r2, i2⟩ := ih i1
      have : Core.iter s1 = Core.iter s := by rw [Core.iter, r1.lists]; rfl
      rw [this] at e2
      refine ⟨s2, ?_, r1.trans r2, i2⟩
      rw [Py.bind_ok e1, Py.bind_ok hsp]
      rw [Py.bind_apply, Py.bind_apply, e2]
      rcases Py.mapEach Spec.getInt is (Core.iter s) with ⟨_ | _, _⟩ <;> rfl

theorem Inv.getSliceStep1_ok (hlog : ∀ n, 1 ≤ n → n < 2 ^ (ilog2 n + 1)) {s : St α κ} (h : Inv k lt keyed s)
    (a b : Option Int) :
    ∃ s', Core.getSliceStep1 ilog2 a b s = ((Spec.getSlice { start := a, stop := b } (Core.iter s)).1, s') ∧
      Reindexed s s' ∧ Inv k lt keyed s' := by
  unfold Core.getSliceStep1
  simp only [Py.get_bind]
  have hlen : s.len = (Core.iter s).length := h.len_eq
  rw [hlen]
  cases hi : PySlice.indices { start := a, stop := b } (Core.iter s).length with
  | error e => simp [PySlice.indices] at hi
  | ok r =>
    obtain ⟨x, y, c⟩ := r
    have hc : c = 1 := (indices_step hi).2
    subst hc
    have hb := (indices_bounds hi).1 (by omega)
    simp only [Py.lift_ok_bind]
    rw [spec_getSlice_step1 hi]
    by_cases hxy : x < y
    · rw [if_pos ⟨trivial, hxy⟩]
      exact h.getSliceFwd_ok hlog hb.1 hxy hb.2.2.2
    · rw [if_neg (by omega)]
      refine ⟨s, ?_, Reindexed.refl s, h⟩
      rw [pyRange_one hb.1, show (y - x).toNat = 0 by omega, List.drop_eq_nil_of_le (by simp; omega)]
      rfl

theorem indices_forward {len : Nat} {a b : Int} (ha : 0 ≤ a) (hab : a ≤ b) (hb : b ≤ len) :
    PySlice.indices { start := some a, stop := some b } len = .ok (a, b, 1) := by
  simp only [PySlice.indices, Option.getD_none, adjustIndex]
  rw [if_neg (by omega), if_neg (by omega), if_neg (by omega), if_neg (by omega)]
  congr 2
  · omega
  · congr 1; omega

theorem Inv.getSlice_ok (hlog : ∀ n, 1 ≤ n → n < 2 ^ (ilog2 n + 1)) {s : St α κ} (h : Inv k lt keyed s)
    (sl : PySlice) :
    ∃ s', Core.getSlice ilog2 sl s = ((Spec.getSlice sl (Core.iter s)).1, s') ∧
      Reindexed s s' ∧ Inv k lt keyed s' := by
  unfold Core.getSlice
  simp only [Py.get_bind]
  have hlen : s.len = (Core.iter s).length := h.len_eq
  rw [hlen]
  cases hi : sl.indices (Core.iter s).length with
  | error e =>
    refine ⟨s, ?_, Reindexed.refl s, h⟩
    simp [Spec.getSlice, Spec.slicePositions, hi]
  | ok r =>
    obtain ⟨a, b, c⟩ := r
    simp only [Py.lift_ok_bind]
    by_cases h1 : c = 1 ∧ a < b
    · rw [if_pos h1]
      obtain ⟨rfl, hab⟩ := h1
      have hb := (indices_bounds hi).1 (by omega)
      rw [spec_getSlice_step1 hi]
      exact h.getSliceFwd_ok hlog hb.1 hab hb.2.2.2
    rw [if_neg h1]
    by_cases h2 : c = -1 ∧ a > b
    · rw [if_pos h2]
      obtain ⟨rfl, hab⟩ := h2
      have hb := (indices_bounds hi).2 (by omega)
      obtain ⟨s', e, hr, hi'⟩ := h.getSliceStep1_ok hlog (some (b + 1)) (some (a + 1))
      have hf := spec_getSlice_step1 (l := Core.iter s)
        (indices_forward (len := (Core.iter s).length) (a := b + 1) (b := a + 1) (by omega) (by omega) (by omega))
      rw [hf] at e
      refine ⟨s', ?_, hr, hi'⟩
      rw [Py.bind_ok e]
      simp only [Py.pure_apply, Spec.getSlice, Spec.slicePositions, hi]
      rw [pyRange_neg_one hb.2.2.1 hab, List.map_reverse, List.filterMap_reverse, pyRange_one (by omega),
        List.map_map]
      have : (Int.toNat ∘ fun (n : Nat) => (n : Int)) = id := by funext n; simp
      rw [this, List.map_id, filterMap_range' _ _ _ (by omega), List.drop_take]
      congr 4; omega
    · rw [if_neg h2]
      obtain ⟨s', e, hr, hi'⟩ := h.mapEach_getInt_ok hlog (pyRange a b c)
      refine ⟨s', ?_, hr, hi'⟩
      rw [e, mapEach_getInt _ _ fun i hm => mem_pyRange_bounds hi hm]
      simp [Spec.getSlice, Spec.slicePositions, hi]

theorem getSlice_refines (hlog : ∀ n, 1 ≤ n → n < 2 ^ (ilog2 n + 1)) (sl : PySlice) :
    Refines (Inv k lt keyed) Core.iter (Core.getSlice ilog2 sl) (Spec.getSlice sl) :=
  Refines.of_query (fun _ h => h.getSlice_ok hlog sl) (by intro l; unfold Spec.getSlice; split <;> rfl)

theorem Inv.islice_ok (hlog : ∀ n, 1 ≤ n → n < 2 ^ (ilog2 n + 1)) {s : St α κ} (h : Inv k lt keyed s)
    (a b : Option Int) (rev : Bool) :
    ∃ s', Core.islice ilog2 a b rev s = ((Spec.islice a b rev (Core.iter s)).1, s') ∧
      Reindexed s s' ∧ Inv k lt keyed s' := by
  unfold Core.islice Core.isliceWith
  simp only [Py.get_bind]
  have hlen : s.len = (Core.iter s).length := h.len_eq
  rw [hlen]
  cases hi : PySlice.indices { start := a, stop := b } (Core.iter s).length with
  | error e => simp [PySlice.indices] at hi
  | ok r =>
    obtain ⟨x, y, c⟩ := r
    have hc : c = 1 := (indices_step hi).2
    subst hc
    have hb := (indices_bounds hi).1 (by omega)
    have hspec : Spec.islice a b rev (Core.iter s) =
        (.ok (Spec.reverseIf rev (((Core.iter s).take y.toNat).drop x.toNat)), Core.iter s) := by
      simp only [Spec.islice, spec_getSlice_step1 hi]
    rw [hspec]
    by_cases h0 : (Core.iter s).length = 0
    · rw [if_pos h0]
      refine ⟨s, ?_, Reindexed.refl s, h⟩
      have : Core.iter s = [] := by simpa using h0
      rw [this]
      cases rev <;> simp [Spec.reverseIf]
    rw [if_neg h0]
    simp only [Py.lift_ok_bind]
    by_cases hge : x ≥ y
    · rw [if_pos hge]
      refine ⟨s, ?_, Reindexed.refl s, h⟩
      rw [List.drop_eq_nil_of_le (by simp; omega)]
      cases rev <;> rfl
    rw [if_neg hge]
    obtain ⟨p, i, v, s', e, hat, hre, hi'⟩ := h.pos_some hlog (i := x) (n := x.toNat)
      (by rw [Spec.position, if_pos ⟨hb.1, by have := hb.2.2.2; rw [Core.iter] at this; omega⟩])
    rw [Py.bind_ok e]
    simp only
    by_cases hend : y = (Core.iter s).length
    · rw [if_pos hend]
      refine ⟨s', ?_, hre, hi'⟩
      have hne : s.lists ≠ [] := h.lists_ne_nil (by omega)
      have hL' : s.lists = s.lists.dropLast ++ [s.lists.getLast hne] := (List.dropLast_concat_getLast hne).symm
      have hcut : Cut s.lists (s.lists.length - 1) (s.lists.getLast hne).length y.toNat := by
        refine ⟨s.lists.dropLast, s.lists.getLast hne, [], hL', by simp, Nat.le_refl _, ?_⟩
        have hfl : s.lists.flatten.length = s.lists.dropLast.flatten.length + (s.lists.getLast hne).length := by
          conv => lhs; rw [hL']
          simp
        have : (Core.iter s).length = s.lists.flatten.length := rfl
        omega
      rw [lastItem_ok hne]
      simp only [Py.lift_ok_bind, Py.pure_bind', Py.lift_apply]
      rw [islicePos_eq s hat.cut hcut]
      rfl
    · rw [if_neg hend]
      obtain ⟨p', i', v', s'', e', hat', hre', hi''⟩ := hi'.pos_some hlog (i := y) (n := y.toNat)
        (by rw [hre.lists, Spec.position, if_pos ⟨by omega, by have := hb.2.2.2; rw [Core.iter] at this hend; omega⟩])
      rw [hre.lists] at hat'
      refine ⟨s'', ?_, hre.trans hre', hi''⟩
      rw [Py.bind_ok e']
      simp only [Py.lift_apply]
      rw [islicePos_eq s hat.cut hat'.cut]
      rfl

theorem islice_refines (hlog : ∀ n, 1 ≤ n → n < 2 ^ (ilog2 n + 1)) (a b : Option Int) (rev : Bool) :
    Refines (Inv k lt keyed) Core.iter (Core.islice ilog2 a b rev) (Spec.islice a b rev) :=
  Refines.of_query (fun _ h => h.islice_ok hlog a b rev) (by intro l; unfold Spec.islice; split <;> rfl)

/-! ## Methods that change the list, given the virtual ones -/

/-- What the shared code needs to know about `clear`, `update` and `_delete`. -/
structure MethodsOK (M : Methods α κ) (O : Spec.Order α) (k : α → κ) (lt : κ → κ → Bool) (keyed : Bool) : Prop where
  order : StrictWeakOrder O.lt
  olt : O.lt = fun a b => lt (k a) (k b)
  log : ∀ n, 1 ≤ n → n < 2 ^ (M.ilog2 n + 1)
  clear : ∀ s, ∃ s', M.clear s = (.ok (), s') ∧ s'.len = 0 ∧ s'.lists = [] ∧ s'.maxes = [] ∧ s'.index = [] ∧
    s'.load = s.load ∧ (keyed = true → s'.keys = [])
  update : ∀ xs, Refines (Inv k lt keyed) Core.iter (M.update xs) (Spec.update O xs)
  delete : ∀ s p x n v, Inv k lt keyed s → At s.lists p x n v →
    ∃ s', M.delete p x s = (.ok (), s') ∧ Inv k lt keyed s' ∧ Core.iter s' = (Core.iter s).eraseIdx n

theorem Inv.of_empty {s : St α κ} (h0 : 1 ≤ s.load) (h1 : s.len = 0) (h2 : s.lists = []) (h3 : s.maxes = [])
    (h4 : s.index = []) (h5 : keyed = true → s.keys = []) : Inv k lt keyed s where
  load_pos := h0
  len_eq := by rw [h1, h2]; rfl
  ne_nil := by rw [h2]; simp
  sorted := by rw [h2]; exact List.Pairwise.nil
  maxes := by rw [h2, h3]; exact MaxesOK.nil
  upper := by rw [h2]; simp
  lower := by rw [h2]; simp
  index_ok := fun h => absurd h4 h
  keys_eq := fun h => by rw [h5 h, h2]; rfl

variable {M : Methods α κ} {O : Spec.Order α}

theorem MethodsOK.clear_refines (hM : MethodsOK M O k lt keyed) :
    Refines (Inv k lt keyed) Core.iter M.clear Spec.clear :=
  Refines.of fun s hs => by
    obtain ⟨s', e, h1, h2, h3, h4, h5, h6⟩ := hM.clear s
    exact ⟨s', e, by rw [Core.iter, h2]; rfl, Inv.of_empty (by rw [h5]; exact hs.load_pos) h1 h2 h3 h4 h6⟩

theorem MethodsOK.sorted (hM : MethodsOK M O k lt keyed) {s : St α κ} (h : Inv k lt keyed s) :
    Sorted O.lt (Core.iter s) := by rw [hM.olt]; exact h.sorted

theorem MethodsOK.delInt_refines (hM : MethodsOK M O k lt keyed) (i : Int) :
    Refines (Inv k lt keyed) Core.iter (Core.delInt M i) (Spec.delInt i) :=
  Refines.of fun s hs => by
    unfold Core.delInt
    cases hpos : Spec.position (Core.iter s).length i with
    | none =>
      refine ⟨s, ?_, ?_, hs⟩
      · rw [Py.bind_error (hs.pos_none hpos)]; simp [Spec.delInt, hpos]
      · simp [Spec.delInt, hpos]
    | some n =>
      obtain ⟨p, x, v, s', e, hat, hre, hi⟩ := hs.pos_some hM.log hpos
      rw [← hre.lists] at hat
      obtain ⟨s'', e', hi', hc⟩ := hM.delete s' p x n v hi hat
      refine ⟨s'', ?_, ?_, hi'⟩
      · rw [Py.bind_ok e]; simp only [e']; simp [Spec.delInt, hpos]
      · have : Core.iter s' = Core.iter s := by rw [Core.iter, hre.lists]; rfl
        rw [hc, this]; simp [Spec.delInt, hpos]

theorem deletePositions_all (l : List α) (ps : List Nat) (h : ∀ i, i < l.length → i ∈ ps) :
    Spec.deletePositions ps l = [] :=
  delFrom_all 0 ps l fun i _ h2 => h i (by omega)

theorem MethodsOK.delSlice_refines (hM : MethodsOK M O k lt keyed) (sl : PySlice) :
    Refines (Inv k lt keyed) Core.iter (Core.delSlice M sl) (Spec.delSlice sl) :=
  Refines.of fun s hs => by
    unfold Core.delSlice
    simp only [Py.get_bind]
    have hlen : s.len = (Core.iter s).length := hs.len_eq
    rw [hlen]
    cases hi : sl.indices (Core.iter s).length with
    | error e =>
      exact ⟨s, by simp [Spec.delSlice, Spec.slicePositions, hi], by simp [Spec.delSlice, Spec.slicePositions, hi], hs⟩
    | ok r =>
      obtain ⟨a, b, c⟩ := r
      simp only [Py.lift_ok_bind]
      have hspec : Spec.delSlice sl (Core.iter s) =
          (.ok (), Spec.deletePositions ((pyRange a b c).map Int.toNat) (Core.iter s)) := by
        simp [Spec.delSlice, Spec.slicePositions, hi]
      rw [hspec]
      simp only
      have fwd : c = 1 → a < b → Spec.deletePositions ((pyRange a b c).map Int.toNat) (Core.iter s) =
          (Core.iter s).take a.toNat ++ (Core.iter s).drop b.toNat := by
        rintro rfl hab
        have hb := (indices_bounds hi).1 (by omega)
        have : (Int.toNat ∘ fun (n : Nat) => (n : Int)) = id := by funext n; simp
        rw [pyRange_one hb.1, List.map_map, this, List.map_id, deletePositions_range' _ _ _ (by omega)]
        congr 2; omega
      by_cases h1 : c = 1 ∧ a < b ∧ a = 0 ∧ b = (Core.iter s).length
      · rw [if_pos h1]
        obtain ⟨s', e, h1', h2⟩ := hM.clear_refines.eq_of hs (r := .ok ()) (l := []) rfl
        refine ⟨s', e, ?_, h2⟩
        rw [h1', fwd h1.1 h1.2.1, h1.2.2.1, h1.2.2.2]
        simp
      rw [if_neg h1]
      by_cases h2 : c = 1 ∧ a < b ∧ ((Core.iter s).length : Int) ≤ 8 * (b - a)
      · rw [if_pos h2]
        obtain ⟨rfl, hab, _⟩ := h2
        have hb := (indices_bounds hi).1 (by omega)
        obtain ⟨s1, e1, r1, i1⟩ := hs.getSliceStep1_ok hM.log none (some a)
        have ind1 : PySlice.indices { start := none, stop := some a } (Core.iter s).length = .ok (0, a, 1) := by
          simp only [PySlice.indices, Option.getD_none, adjustIndex]
          rw [if_neg (by omega), if_neg (by omega), if_neg (by omega), if_neg (by omega), if_neg (by omega)]
          congr 3
          omega
        rw [spec_getSlice_step1 ind1] at e1
        rw [Py.bind_ok e1]
        have hit1 : Core.iter s1 = Core.iter s := by rw [Core.iter, r1.lists]; rfl
        -- the values kept
        have key : ∃ s2, (if b < ((Core.iter s).length : Int) then
              Core.getSliceStep1 M.ilog2 (some b) none >>= fun tail =>
                Pure.pure (((Core.iter s).take a.toNat).drop (0 : Int).toNat ++ tail)
            else Pure.pure (((Core.iter s).take a.toNat).drop (0 : Int).toNat) : Py (St α κ) (List α)) s1 =
              (.ok ((Core.iter s).take a.toNat ++ (Core.iter s).drop b.toNat), s2) ∧ Inv k lt keyed s2 := by
          by_cases hbl : b < ((Core.iter s).length : Int)
          · rw [if_pos hbl]
            obtain ⟨s2, e2, r2, i2⟩ := i1.getSliceStep1_ok hM.log (some b) none
            have ind2 : PySlice.indices { start := some b, stop := none } (Core.iter s).length =
                .ok (b, ((Core.iter s).length : Int), 1) := by
              simp only [PySlice.indices, Option.getD_none, adjustIndex]
              rw [if_neg (by omega), if_neg (by omega), if_neg (by omega), if_neg (by omega)]
              congr 2
              omega
            rw [hit1, spec_getSlice_step1 ind2] at e2
            refine ⟨s2, ?_, i2⟩
            rw [Py.bind_ok e2]
            simp
          · rw [if_neg hbl]
            refine ⟨s1, ?_, i1⟩
            rw [List.drop_eq_nil_of_le (i := b.toNat) (by omega)]
            simp
        obtain ⟨s2, e2, i2⟩ := key
        generalize hq : (if b < ((Core.iter s).length : Int) then
              Core.getSliceStep1 M.ilog2 (some b) none >>= fun tail =>
                Pure.pure (((Core.iter s).take a.toNat).drop (0 : Int).toNat ++ tail)
            else Pure.pure (((Core.iter s).take a.toNat).drop (0 : Int).toNat) : Py (St α κ) (List α)) = q at e2
        have hshape : (if b < ((Core.iter s).length : Int) then
              Core.getSliceStep1 M.ilog2 (some b) none >>= fun tail =>
                (Pure.pure (((Core.iter s).take a.toNat).drop (0 : Int).toNat ++ tail) >>= fun values =>
                  M.clear >>= fun _ => M.update values)
            else (Pure.pure (((Core.iter s).take a.toNat).drop (0 : Int).toNat) >>= fun values =>
                  M.clear >>= fun _ => M.update values) : Py (St α κ) Unit) =
            q >>= fun values => M.clear >>= fun _ => M.update values := by
          rw [← hq]
          split
          · rw [Py.bind_assoc']
          · rfl
        simp only [] at hshape ⊢
        rw [hshape, Py.bind_ok e2]
        obtain ⟨s3, e3, hc3, i3⟩ := hM.clear_refines.eq_of i2 (r := .ok ()) (l := []) rfl
        rw [Py.bind_ok e3]
        obtain ⟨s4, e4, hc4, i4⟩ := (hM.update ((Core.iter s).take a.toNat ++ (Core.iter s).drop b.toNat)).eq_of i3
          (r := .ok ()) (l := Spec.insertAll O [] ((Core.iter s).take a.toNat ++ (Core.iter s).drop b.toNat))
          (by rw [hc3]; rfl)
        refine ⟨s4, e4, ?_, i4⟩
        rw [hc4, fwd rfl hab]
        apply Spec.insertAll_nil_of_sorted hM.order
        have hsub : ((Core.iter s).take a.toNat ++ (Core.iter s).drop b.toNat).Sublist (Core.iter s) := by
          have : (Core.iter s).drop b.toNat = ((Core.iter s).drop a.toNat).drop (b.toNat - a.toNat) := by
            rw [List.drop_drop]; congr 1; omega
          rw [this]
          conv => rhs; rw [← List.take_append_drop a.toNat (Core.iter s)]
          exact (List.Sublist.refl _).append (List.drop_sublist _ _)
        exact List.Pairwise.sublist hsub (hM.sorted hs)
      rw [if_neg h2]
      -- delete one by one, from the back
      generalize hind : (if c > 0 then (pyRange a b c).reverse else pyRange a b c) = is
      have hmem : ∀ i, i ∈ is ↔ i ∈ pyRange a b c := by
        intro i; rw [← hind]; split <;> simp
      have hdec : is.Pairwise (· > ·) := by
        rw [← hind]
        split
        · rename_i hc
          rw [List.pairwise_reverse]
          exact pyRange_pairwise_pos hc
        · exact pyRange_pairwise_neg (by have := (indices_step hi).1; omega)
      have hf := forEach_delInt is (Core.iter s)
        (fun i hi' => mem_pyRange_bounds hi ((hmem i).1 hi')) hdec
      obtain ⟨s', e, hc, hi'⟩ := (Refines.forEach is fun i _ => hM.delInt_refines i).eq_of hs hf
      refine ⟨s', e, ?_, hi'⟩
      rw [hc]
      apply delFrom_congr
      intro p
      simp only [List.mem_map, hmem]

theorem MethodsOK.pop_refines (hM : MethodsOK M O k lt keyed) (i : Int) :
    Refines (Inv k lt keyed) Core.iter (Core.pop M i) (Spec.pop i) :=
  Refines.of fun s h => by
    unfold Core.pop
    simp only [Py.get_bind]
    have hlenEq : s.len = (Core.iter s).length := h.len_eq
    -- the common end: the value has been found
    have done : ∀ (s1 : St α κ) (p x n : Nat) (v : α), Reindexed s s1 → Inv k lt keyed s1 →
        At s.lists p x n v → Spec.position (Core.iter s).length i = some n →
        ∃ s', ((M.delete p x >>= fun _ => Pure.pure v : Py (St α κ) α) s1) = ((Spec.pop i (Core.iter s)).1, s') ∧
          Core.iter s' = (Spec.pop i (Core.iter s)).2 ∧ Inv k lt keyed s' := by
      intro s1 p x n v hre hi1 hat hpos
      have hv := hat.getElem
      rw [← hre.lists] at hat
      obtain ⟨s', e, hi', hc⟩ := hM.delete s1 p x n v hi1 hat
      have hsp : Spec.pop i (Core.iter s) = (.ok v, (Core.iter s).eraseIdx n) := by
        have hv' : (Core.iter s)[n]? = some v := hv
        simp only [Spec.pop, hpos, hv']
      rw [hsp]
      refine ⟨s', ?_, ?_, hi'⟩
      · rw [Py.bind_ok e]; rfl
      · rw [hc, Core.iter, hre.lists]; rfl
    by_cases hlen : s.len = 0
    · rw [if_pos hlen]
      have hnone : Spec.position (Core.iter s).length i = none := by
        rw [← hlenEq, hlen, Spec.position, if_neg (by omega), if_neg (by omega)]
      exact ⟨s, by simp [Spec.pop, hnone], by simp [Spec.pop, hnone], h⟩
    rw [if_neg hlen]
    have hne := h.lists_ne_nil hlen
    obtain ⟨first, L, hL⟩ := List.exists_cons_of_ne_nil hne
    obtain ⟨L', last, hL'⟩ : ∃ L' l, s.lists = L' ++ [l] := ⟨_, _, (List.dropLast_concat_getLast hne).symm⟩
    have hfl : 0 < first.length := List.length_pos_iff.2 (h.ne_nil _ (by rw [hL]; simp))
    have hll : 0 < last.length := List.length_pos_iff.2 (h.ne_nil _ (by rw [hL']; simp))
    have hlenf : (Core.iter s).length = first.length + L.flatten.length := by rw [Core.iter, hL]; simp
    have hlenl : (Core.iter s).length = L'.flatten.length + last.length := by rw [Core.iter, hL']; simp
    have hg0 : getItem s.lists 0 = .ok first := by rw [hL]; rfl
    have hgl : lastItem s.lists = .ok last := by rw [hL']; simp
    have hlp : s.lists.length - 1 = L'.length := by rw [hL']; simp
    have hglp : getItem s.lists (s.lists.length - 1) = .ok last := by rw [hlp, hL']; simp
    by_cases hi0 : i = 0
    · subst hi0
      obtain ⟨v, e1, hat⟩ := At.of_first (L := L) hfl
      rw [← hL] at hat
      rw [if_pos rfl, hg0, Py.lift_ok_bind, getItem_ok_iff.2 e1, Py.lift_ok_bind]
      exact done s 0 0 0 v (Reindexed.refl s) h hat (by rw [Spec.position, if_pos (by omega)]; rfl)
    rw [if_neg hi0]
    by_cases hi1 : i = -1
    · subst hi1
      obtain ⟨v, e1, hat⟩ := At.of_last (L := L') (l := last) (x := last.length - 1) (by omega)
      rw [← hL', ← hlp] at hat
      rw [if_pos rfl]
      simp only [hglp, Py.lift_ok_bind, getItem_ok_iff.2 e1]
      refine done s _ _ _ v (Reindexed.refl s) h hat ?_
      rw [Spec.position, if_neg (by omega), if_pos (by omega)]; congr 1; omega
    rw [if_neg hi1, hg0, Py.lift_ok_bind]
    by_cases hr : 0 ≤ i ∧ i < first.length
    · obtain ⟨v, e1, hat⟩ := At.of_first (L := L) (l := first) (x := i.toNat) (by omega)
      rw [← hL] at hat
      rw [if_pos hr, getItem_ok_iff.2 e1, Py.lift_ok_bind]
      exact done s _ _ _ v (Reindexed.refl s) h hat (by rw [Spec.position, if_pos (by omega)])
    rw [if_neg hr, hgl, Py.lift_ok_bind]
    by_cases hr' : -(last.length : Int) < i ∧ i < 0
    · obtain ⟨v, e1, hat⟩ := At.of_last (L := L') (l := last) (x := ((last.length : Int) + i).toNat) (by omega)
      rw [← hL', ← hlp] at hat
      rw [if_pos hr']
      simp only [hglp, Py.lift_ok_bind, getItem_ok_iff.2 e1]
      refine done s _ _ _ v (Reindexed.refl s) h hat ?_
      rw [Spec.position, if_neg (by omega), if_pos (by omega)]; congr 1; omega
    rw [if_neg hr']
    cases hpos : Spec.position (Core.iter s).length i with
    | none =>
      refine ⟨s, ?_, ?_, h⟩
      · rw [Py.bind_error (h.pos_none hpos)]; simp [Spec.pop, hpos]
      · simp [Spec.pop, hpos]
    | some n =>
      obtain ⟨p, x, v, s', e, hat, hre, hi⟩ := h.pos_some hM.log hpos
      obtain ⟨l, e1, e2⟩ := hat.getItem
      rw [Py.bind_ok e]
      simp only [e1, e2, Py.lift_ok_bind]
      exact done s' _ _ _ v hre hi hat hpos

theorem MethodsOK.imul_refines (hM : MethodsOK M O k lt keyed) (n : Int) :
    Refines (Inv k lt keyed) Core.iter (Core.imul M n) (Spec.imul O n) :=
  Refines.of fun s hs => by
    unfold Core.imul
    simp only [Py.get_bind]
    obtain ⟨s1, e1, hc1, i1⟩ := hM.clear_refines.eq_of hs (r := .ok ()) (l := []) rfl
    obtain ⟨s2, e2, hc2, i2⟩ := (hM.update (repeatList (Core.iter s) n)).eq_of i1
      (r := .ok ()) (l := Spec.insertAll O [] (repeatList (Core.iter s) n)) (by rw [hc1]; rfl)
    refine ⟨s2, ?_, hc2, i2⟩
    rw [Py.bind_ok e1, e2]
    rfl

theorem MethodsOK.reset_refines (hM : MethodsOK M O k lt keyed) {load : Nat} (hload : 1 ≤ load) :
    Refines (Inv k lt keyed) Core.iter (Core.reset M load) (Spec.reset load) :=
  Refines.of fun s hs => by
    unfold Core.reset
    simp only [Py.get_bind]
    obtain ⟨s1, e1, h1, h2, h3, h4, h5, h6⟩ := hM.clear s
    rw [Py.bind_ok e1]
    simp only [Py.modify_bind]
    have i1 : Inv k lt keyed { s1 with load := load } := Inv.of_empty hload h1 h2 h3 h4 h6
    obtain ⟨s2, e2, hc2, i2⟩ := (hM.update (Core.iter s)).eq_of i1
      (r := .ok ()) (l := Spec.insertAll O [] (Core.iter s)) (by rw [Core.iter, h2]; rfl)
    refine ⟨s2, e2, ?_, i2⟩
    rw [hc2]
    exact Spec.insertAll_nil_of_sorted hM.order (hM.sorted hs)

theorem MethodsOK.iadd_refines (hM : MethodsOK M O k lt keyed) (xs : List α) :
    Refines (Inv k lt keyed) Core.iter (Core.iadd M xs) (Spec.update O xs) := hM.update xs

/-! ## Plain readers -/

theorem reversed_eq (s : St α κ) : Core.reversed s = (Core.iter s).reverse := by
  simp [Core.reversed, Core.iter, List.reverse_flatten, List.map_reverse]

theorem cmpLoop_eq (cmp : CmpOp → α → α → Except PyErr Bool) (op : CmpOp) (n m : Nat) (as bs : List α) :
    Core.cmpLoop cmp op n m as bs = Spec.compareFrom cmp op n m (as.zip bs) := by
  induction as generalizing bs with
  | nil => rfl
  | cons a as ih =>
    cases bs with
    | nil => rfl
    | cons b bs =>
      simp only [Core.cmpLoop, List.zip_cons_cons, Spec.compareFrom]
      cases cmp .ne a b with
      | error e => rfl
      | ok x => cases x <;> simp [ih]

theorem compare_refines (hcmp : O.cmp = cmp) (op : CmpOp) (other : List α) :
    Refines (Inv k lt keyed) Core.iter (ListAPI.read (Core.compare cmp op other)) (Spec.compare O op other) := by
  intro s hs
  have hlen : s.len = (Core.iter s).length := hs.len_eq
  unfold ListAPI.read Core.compare Spec.compare
  rw [hlen]
  split
  · exact ⟨rfl, rfl, hs⟩
  split
  · exact ⟨rfl, rfl, hs⟩
  · exact ⟨by rw [cmpLoop_eq, hcmp], rfl, hs⟩

theorem iter_refines : Refines (Inv k lt keyed) Core.iter
    (ListAPI.read fun s => .ok (Core.iter s)) Spec.iter := fun _ hs => ⟨rfl, rfl, hs⟩

theorem reversed_refines : Refines (Inv k lt keyed) Core.iter
    (ListAPI.read fun s => .ok (Core.reversed s)) Spec.reversed := fun s hs =>
  ⟨by simp [ListAPI.read, Spec.reversed, reversed_eq], rfl, hs⟩

theorem len_refines : Refines (Inv k lt keyed) Core.iter
    (ListAPI.read fun s => .ok (Core.length s)) Spec.len := fun s hs =>
  ⟨by simp only [ListAPI.read, Spec.len, Core.length]; rw [hs.len_eq]; rfl, rfl, hs⟩

theorem unsupported_refines (u : Unsupported α) : Refines (Inv k lt keyed) Core.iter
    (Core.unsupported u) (Spec.unsupported u) := fun _ hs => ⟨rfl, rfl, hs⟩

end Verif
