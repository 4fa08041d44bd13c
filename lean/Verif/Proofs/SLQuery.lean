import Verif.Proofs.SLMut
import Verif.Proofs.Search
/-!
# SortedList: search methods
-/

namespace Verif
variable {α : Type} {lt : α → α → Bool}

namespace SL

variable {E : Env α}

theorem lt_ok (hE : E.Lawful lt) (a b : α) : E.lt a b = .ok (lt a b) := hE.cmp .lt a b

theorem searchLeft (hE : E.Lawful lt) {s : St α α} (h : Inv id lt false s) (v : α) :
    Search id (lt · v) (bisectLeft E.lt · v) s :=
  h.search (isBis_left (lt_ok hE) v) (mono_left hE.order h.sorted v)

theorem searchRight (hE : E.Lawful lt) {s : St α α} (h : Inv id lt false s) (v : α) :
    Search id (fun m => !lt v m) (bisectRight E.lt · v) s :=
  h.search (isBis_right (lt_ok hE) v) (mono_right hE.order h.sorted v)

theorem iter_nil {s : St α α} (h : Inv id lt false s) (hm : s.maxes = []) : Core.iter s = [] := by
  rw [Core.iter, h.maxes.nil_iff.1 hm]; rfl

theorem not_equiv_of_lt {a b : α} (h : lt a b = true) : equiv lt a b = false := by simp [equiv, h]
theorem not_equiv_of_gt {a b : α} (h : lt b a = true) : equiv lt a b = false := by simp [equiv, h]

/-- What a left search tells about the values equivalent to `v`. -/
theorem same_facts (hE : E.Lawful lt) {P Q : List α} {x v : α}
    (hs : Sorted lt (P ++ x :: Q)) (hP : ∀ y ∈ P, lt y v = true) (hx : lt x v = false) :
    (∀ y ∈ P, equiv lt y v = false) ∧ (equiv lt x v = false → ∀ y ∈ P ++ x :: Q, equiv lt y v = false) := by
  have h1 : ∀ y ∈ P, equiv lt y v = false := fun y hy => not_equiv_of_lt (hP y hy)
  refine ⟨h1, fun hne y hy => ?_⟩
  have hvx : lt v x = true := by
    simp only [equiv, hx] at hne
    simpa using hne
  rcases List.mem_append.1 hy with hy | hy
  · exact h1 y hy
  rcases List.mem_cons.1 hy with rfl | hy
  · exact hne
  · have := (List.pairwise_cons.1 (List.pairwise_append.1 hs).2.1).1 y hy
    exact not_equiv_of_gt (hE.order.lt_of_lt_of_not_lt hvx this)

theorem sorted_split (hs : Sorted lt (Core.iter (κ := α) s)) (e : Core.iter s = P ++ x :: Q) : Sorted lt (P ++ x :: Q) := e ▸ hs

theorem contains_refines (hE : E.Lawful lt) (v : α) :
    Refines (Inv id lt false) Core.iter (contains E v) (Spec.contains (Spec.Order.ofValues lt) v) := by
  refine Refines.of_query (fun s h => ⟨s, ?_, Reindexed.refl s, h⟩) (fun _ => rfl)
  unfold contains Spec.contains
  simp only [Py.get_bind]
  by_cases hm : s.maxes = []
  · simp [hm, iter_nil h hm]
  rw [if_neg hm]
  rcases searchLeft hE h v with ⟨hall, hb⟩ | ⟨A, B1, x, B2, C, hl, hb, hne, hb2, hP, hx, hQ⟩
  · simp only [id] at hall
    rw [hb, Py.lift_ok_bind, if_pos rfl]
    rw [any_none (q := ((Spec.Order.ofValues lt).same · v)) fun y hy => not_equiv_of_lt (hall y hy)]
    rfl
  · rw [List.map_id] at hb2; simp only [id] at hP hx hQ
    simp only [hb, Py.lift_ok_bind, if_neg hne, getItem_lists hl, hb2, getItem_append_cons _ _ _ rfl, hE.cmp]
    have e := iter_split hl
    have hs : Sorted lt _ := sorted_split h.sorted e
    obtain ⟨f1, f2⟩ := same_facts hE hs hP hx
    rw [e]
    by_cases hq : equiv lt x v = true
    · simp [Spec.Order.ofValues, CmpOp.ofLt, hq]
    · rw [Bool.not_eq_true] at hq
      rw [any_none (q := ((Spec.Order.ofValues lt).same · v)) (f2 hq)]
      simp [CmpOp.ofLt, hq]

theorem discard_refines (hE : E.Lawful lt) (v : α) :
    Refines (Inv id lt false) Core.iter (discard E v) (Spec.discard (Spec.Order.ofValues lt) v) := by
  refine Refines.of fun s h => ?_
  unfold discard Spec.discard
  simp only [Py.get_bind]
  by_cases hm : s.maxes = []
  · exact ⟨s, by simp [hm], by simp [iter_nil h hm], h⟩
  rw [if_neg hm]
  rcases searchLeft hE h v with ⟨hall, hb⟩ | ⟨A, B1, x, B2, C, hl, hb, hne, hb2, hP, hx, hQ⟩
  · simp only [id] at hall
    rw [hb, Py.lift_ok_bind, if_pos rfl]
    exact ⟨s, rfl, (eraseP_none fun y hy => not_equiv_of_lt (hall y hy)).symm, h⟩
  · rw [List.map_id] at hb2; simp only [id] at hP hx hQ
    simp only [hb, Py.lift_ok_bind, if_neg hne, getItem_lists hl, hb2, getItem_append_cons _ _ _ rfl, hE.cmp]
    have e := iter_split hl
    have hs : Sorted lt _ := sorted_split h.sorted e
    obtain ⟨f1, f2⟩ := same_facts hE hs hP hx
    by_cases hq : equiv lt x v = true
    · rw [if_pos (by simpa [CmpOp.ofLt] using hq)]
      obtain ⟨s', e', h1, h2⟩ := delete_ok h (at_of_split hl)
      refine ⟨s', e', ?_, h1⟩
      rw [h2, e]
      exact (eraseP_split f1 hq).symm
    · rw [Bool.not_eq_true] at hq
      rw [if_neg (by simpa [CmpOp.ofLt] using hq)]
      refine ⟨s, rfl, ?_, h⟩
      rw [e]
      exact (eraseP_none (q := ((Spec.Order.ofValues lt).same · v)) (f2 hq)).symm

theorem remove_refines (hE : E.Lawful lt) (v : α) :
    Refines (Inv id lt false) Core.iter (remove E v) (Spec.remove (Spec.Order.ofValues lt) v) := by
  refine Refines.of fun s h => ?_
  unfold remove Spec.remove
  simp only [Py.get_bind]
  by_cases hm : s.maxes = []
  · exact ⟨s, by simp [hm, iter_nil h hm], by simp [iter_nil h hm], h⟩
  rw [if_neg hm]
  rcases searchLeft hE h v with ⟨hall, hb⟩ | ⟨A, B1, x, B2, C, hl, hb, hne, hb2, hP, hx, hQ⟩
  · simp only [id] at hall
    rw [hb, Py.lift_ok_bind, if_pos rfl]
    rw [any_none (q := ((Spec.Order.ofValues lt).same · v)) fun y hy => not_equiv_of_lt (hall y hy)]
    exact ⟨s, rfl, rfl, h⟩
  · rw [List.map_id] at hb2; simp only [id] at hP hx hQ
    simp only [hb, Py.lift_ok_bind, if_neg hne, getItem_lists hl, hb2, getItem_append_cons _ _ _ rfl, hE.cmp]
    have e := iter_split hl
    have hs : Sorted lt _ := sorted_split h.sorted e
    obtain ⟨f1, f2⟩ := same_facts hE hs hP hx
    by_cases hq : equiv lt x v = true
    · rw [if_pos (by simpa [CmpOp.ofLt] using hq)]
      obtain ⟨s', e', h1, h2⟩ := delete_ok h (at_of_split hl)
      have hany : (Core.iter s).any ((Spec.Order.ofValues lt).same · v) = true := by
        rw [e]; simp [Spec.Order.ofValues, hq]
      rw [if_pos hany]
      refine ⟨s', e', ?_, h1⟩
      rw [h2, e]
      exact (eraseP_split f1 hq).symm
    · rw [Bool.not_eq_true] at hq
      rw [if_neg (by simpa [CmpOp.ofLt] using hq)]
      rw [e, any_none (q := ((Spec.Order.ofValues lt).same · v)) (f2 hq)]
      exact ⟨s, rfl, e, h⟩

theorem bisect_left_ok (hE : E.Lawful lt) {s : St α α} (h : Inv id lt false s) (v : α) :
    ∃ s', bisect_left E v s = (.ok ((Core.iter s).countP (lt · v)), s') ∧ Reindexed s s' ∧ Inv id lt false s' := by
  unfold bisect_left
  simp only [Py.get_bind]
  by_cases hm : s.maxes = []
  · exact ⟨s, by simp [hm, iter_nil h hm], Reindexed.refl s, h⟩
  rw [if_neg hm]
  rcases searchLeft hE h v with ⟨hall, hb⟩ | ⟨A, B1, x, B2, C, hl, hb, hne, hb2, hP, hx, hQ⟩
  · simp only [id] at hall
    rw [hb, Py.lift_ok_bind, if_pos rfl]
    refine ⟨s, ?_, Reindexed.refl s, h⟩
    rw [countP_all hall, h.len_eq]; rfl
  · rw [List.map_id] at hb2; simp only [id] at hP hx hQ
    simp only [hb, Py.lift_ok_bind, if_neg hne, getItem_lists hl, hb2]
    obtain ⟨s', e', h1, h2⟩ := h.loc hE.ilog2 hl B1.length
    refine ⟨s', ?_, h1, h2⟩
    rw [e', iter_split hl, countP_split hP hx hQ, List.length_append]

theorem bisect_right_ok (hE : E.Lawful lt) {s : St α α} (h : Inv id lt false s) (v : α) :
    ∃ s', bisect_right E v s = (.ok ((Core.iter s).countP (fun x => !lt v x)), s') ∧ Reindexed s s' ∧
      Inv id lt false s' := by
  unfold bisect_right
  simp only [Py.get_bind]
  by_cases hm : s.maxes = []
  · exact ⟨s, by simp [hm, iter_nil h hm], Reindexed.refl s, h⟩
  rw [if_neg hm]
  rcases searchRight hE h v with ⟨hall, hb⟩ | ⟨A, B1, x, B2, C, hl, hb, hne, hb2, hP, hx, hQ⟩
  · simp only [id] at hall
    rw [hb, Py.lift_ok_bind, if_pos rfl]
    refine ⟨s, ?_, Reindexed.refl s, h⟩
    rw [countP_all hall, h.len_eq]; rfl
  · rw [List.map_id] at hb2; simp only [id] at hP hx hQ
    simp only [hb, Py.lift_ok_bind, if_neg hne, getItem_lists hl, hb2]
    obtain ⟨s', e', h1, h2⟩ := h.loc hE.ilog2 hl B1.length
    refine ⟨s', ?_, h1, h2⟩
    rw [e', iter_split hl, countP_split hP hx hQ, List.length_append]

theorem bisect_left_refines (hE : E.Lawful lt) (v : α) :
    Refines (Inv id lt false) Core.iter (bisect_left E v) (Spec.bisectLeft (Spec.Order.ofValues lt) v) :=
  Refines.of_query (fun _ h => bisect_left_ok hE h v) (fun _ => rfl)

theorem bisect_right_refines (hE : E.Lawful lt) (v : α) :
    Refines (Inv id lt false) Core.iter (bisect_right E v) (Spec.bisectRight (Spec.Order.ofValues lt) v) :=
  Refines.of_query (fun _ h => bisect_right_ok hE h v) (fun _ => rfl)

/-- The number of equivalent values is the difference of the two bisections. -/
theorem countP_equiv (hE : E.Lawful lt) {l : List α} (v : α) :
    (l.countP (equiv lt · v) : Int) = l.countP (fun x => !lt v x) - l.countP (lt · v) := by
  induction l with
  | nil => rfl
  | cons a l ih =>
    have h : lt a v = true → lt v a = false := hE.order.asymm a v
    simp only [List.countP_cons]
    cases h1 : lt a v <;> cases h2 : lt v a <;> simp [equiv, h1, h2] at * <;> omega

theorem Inv.reindexed_loc {s s' : St α α} (hr : Reindexed s s') (h' : Inv id lt false s') {ilog2 : Nat → Nat}
    (hlog : ∀ n, 1 ≤ n → n < 2 ^ (ilog2 n + 1))
    {A : List (List α)} {B : List α} {C : List (List α)} (hl : s.lists = A ++ B :: C) (idx : Nat) :
    ∃ s'', Core.loc ilog2 A.length idx s' = (.ok (A.flatten.length + idx), s'') ∧ Reindexed s s'' ∧
      Inv id lt false s'' := by
  obtain ⟨s'', e, h1, h2⟩ := h'.loc hlog (hr.lists.trans hl) idx
  exact ⟨s'', e, hr.trans h1, h2⟩

theorem count_refines (hE : E.Lawful lt) (v : α) :
    Refines (Inv id lt false) Core.iter (count E v) (Spec.count (Spec.Order.ofValues lt) v) := by
  refine Refines.of_query (fun s h => ?_) (fun _ => rfl)
  show ∃ s', count E v s = (.ok ((Core.iter s).countP (equiv lt · v) : Int), s') ∧ _
  rw [countP_equiv hE]
  unfold count
  simp only [Py.get_bind]
  by_cases hm : s.maxes = []
  · exact ⟨s, by simp [hm, iter_nil h hm], Reindexed.refl s, h⟩
  rw [if_neg hm]
  rcases searchLeft hE h v with ⟨hall, hb⟩ | ⟨A, B1, x, B2, C, hl, hb, hne, hb2, hP, hx, hQ⟩
  · simp only [id] at hall
    rw [hb, Py.lift_ok_bind, if_pos rfl]
    refine ⟨s, ?_, Reindexed.refl s, h⟩
    rw [countP_all hall, countP_all (fun y hy => by simpa using hE.order.asymm _ _ (hall y hy))]
    simp
  rw [List.map_id] at hb2; simp only [id] at hP hx hQ
  simp only [hb, Py.lift_ok_bind, if_neg hne, getItem_lists hl, hb2]
  have eL : (Core.iter s).countP (lt · v) = A.flatten.length + B1.length := by
    rw [iter_split hl, countP_split hP hx hQ, List.length_append]
  rw [eL]
  rcases searchRight hE h v with ⟨hall, hb⟩ | ⟨A', B1', x', B2', C', hl', hb', hne', hb2', hP', hx', hQ'⟩
  · simp only [id] at hall
    simp only [hb, Py.lift_ok_bind, if_pos trivial]
    obtain ⟨s', e', h1, h2⟩ := h.loc hE.ilog2 hl B1.length
    refine ⟨s', ?_, h1, h2⟩
    rw [Py.bind_ok e', countP_all hall, h.len_eq]
    rfl
  · rw [List.map_id] at hb2'; simp only [id] at hP' hx' hQ'
    have eR : (Core.iter s).countP (fun x => !lt v x) = A'.flatten.length + B1'.length := by
      rw [iter_split hl', countP_split hP' hx' hQ', List.length_append]
    rw [eR]
    simp only [hb', Py.lift_ok_bind, if_neg hne', getItem_lists hl', hb2']
    by_cases hAA : A.length = A'.length
    · rw [if_pos hAA]
      rw [hl] at hl'
      obtain ⟨rfl, _⟩ := List.append_inj hl' hAA
      refine ⟨s, ?_, Reindexed.refl s, h⟩
      simp only [Py.pure_apply]
      congr 2; omega
    · rw [if_neg hAA]
      obtain ⟨s', e', h1, h2⟩ := h.loc hE.ilog2 hl' B1'.length
      obtain ⟨s'', e'', h1', h2'⟩ := Inv.reindexed_loc h1 h2 hE.ilog2 hl B1.length
      refine ⟨s'', ?_, h1', h2'⟩
      rw [Py.bind_ok e', Py.bind_ok e'']
      simp

theorem index_refines (hE : E.Lawful lt) (v : α) (start stop : Option Int) :
    Refines (Inv id lt false) Core.iter (index E v start stop) (Spec.index (Spec.Order.ofValues lt) v start stop) := by
  have hpure : ∀ l, (Spec.index (Spec.Order.ofValues lt) v start stop l).2 = l := by
    intro l; unfold Spec.index; simp only; split <;> rfl
  refine Refines.of_query (fun s h => ?_) hpure
  unfold index
  simp only [Py.get_bind]
  have hlen : s.len = (Core.iter s).length := h.len_eq
  by_cases h0 : s.len = 0
  · rw [if_pos h0, spec_index_none]
    · exact ⟨s, rfl, Reindexed.refl s, h⟩
    · intro j y _ _ hj
      rw [List.length_eq_zero_iff.1 (hlen.symm.trans h0)] at hj
      simp at hj
  rw [if_neg h0]
  obtain ⟨b1, b2, b3, b4, b5⟩ := indexBounds_eq s.len start stop
  rcases hbd : SL.indexBounds s.len start stop with ⟨lo, hi⟩
  rw [hbd] at b1 b2 b3 b4 b5
  simp only at b1 b2 b3 b4 b5 ⊢
  rw [hlen] at b1 b3 b4 b5
  have hin : ∀ j : Nat, (j : Int) < Spec.indexBound (Core.iter s).length (Core.iter s).length stop →
      j < (Core.iter s).length → (j : Int) < hi := by intro j hj hj'; omega
  -- an index that is not returned
  have hnone : (∀ (j : Nat) y, lo ≤ j → (j : Int) < hi → (Core.iter s)[j]? = some y → equiv lt y v = false) →
      ∀ s', Reindexed s s' → Inv id lt false s' →
      ∃ s'', ((.error PyErr.valueError, s') : Except PyErr Int × St α α) =
        ((Spec.index (Spec.Order.ofValues lt) v start stop (Core.iter s)).fst, s'') ∧ Reindexed s s'' ∧
        Inv id lt false s'' := by
    intro hno s' h1 h2
    refine ⟨s', ?_, h1, h2⟩
    rw [spec_index_none]
    intro j y hj1 hj2 hj3
    exact hno j y (by omega) (hin j hj2 (List.getElem?_eq_some_iff.1 hj3).1) hj3
  by_cases hle : hi ≤ lo
  · rw [if_pos hle]
    exact hnone (fun j y h1 h2 _ => by omega) s (Reindexed.refl s) h
  rw [if_neg hle]
  rcases searchLeft hE h v with ⟨hall, hb⟩ | ⟨A, B1, x, B2, C, hl, hb, hne, hb2, hP, hx, hQ⟩
  · simp only [id] at hall
    rw [hb, Py.lift_ok_bind, if_pos rfl]
    exact hnone (fun j y _ _ hj => not_equiv_of_lt (hall y (List.mem_of_getElem? hj))) s (Reindexed.refl s) h
  rw [List.map_id] at hb2; simp only [id] at hP hx hQ
  simp only [hb, Py.lift_ok_bind, if_neg hne, getItem_lists hl, hb2, getItem_append_cons _ _ _ rfl, hE.cmp]
  have e := iter_split hl
  have hs : Sorted lt _ := sorted_split h.sorted e
  obtain ⟨f1, f2⟩ := same_facts hE hs hP hx
  by_cases hq : equiv lt x v = true
  case neg =>
    rw [Bool.not_eq_true] at hq
    rw [if_pos (by simpa [CmpOp.ofLt] using hq)]
    exact hnone (fun j y _ _ hj => f2 hq y (by rw [← e]; exact List.mem_of_getElem? hj)) s (Reindexed.refl s) h
  rw [if_neg (by simpa [CmpOp.ofLt] using hq)]
  obtain ⟨s', e', h1, h2⟩ := h.loc hE.ilog2 hl B1.length
  rw [Py.bind_ok e']
  have hgx : (Core.iter s)[A.flatten.length + B1.length]? = some x := by
    rw [e, ← List.length_append]; simp
  have hbefore : ∀ (j : Nat) y, j < A.flatten.length + B1.length → (Core.iter s)[j]? = some y → equiv lt y v = false := by
    intro j y hj hy
    rw [e, List.getElem?_append_left (by rw [List.length_append]; exact hj)] at hy
    exact f1 y (List.mem_of_getElem? hy)
  have hltlen := (List.getElem?_eq_some_iff.1 hgx).1
  by_cases hlo : lo ≤ ((A.flatten.length + B1.length : Nat) : Int)
  · rw [if_pos hlo]
    by_cases hhi : ((A.flatten.length + B1.length : Nat) : Int) ≤ hi - 1
    · rw [if_pos hhi]
      refine ⟨s', ?_, h1, h2⟩
      rw [spec_index_some (by omega) (by omega) hgx hq]
      · rfl
      · intro j y hj _ hy
        exact hbefore j y hj hy
    · rw [if_neg hhi]
      exact hnone (fun j y h1 h2 h3 => hbefore j y (by omega) h3) s' h1 h2
  · rw [if_neg hlo]
    obtain ⟨s'', e'', h1', h2'⟩ := bisect_right_ok hE h2 v
    rw [Py.bind_ok e'']
    have hit : Core.iter s' = Core.iter s := by rw [Core.iter, Core.iter, h1.lists]
    rw [hit]
    have hmono := mono_right hE.order h.sorted v
    by_cases hr : lo ≤ (((Core.iter s).countP (fun x => !lt v x) : Nat) : Int) - 1
    · rw [if_pos hr]
      obtain ⟨n, rfl⟩ : ∃ n : Nat, lo = n := ⟨lo.toNat, by omega⟩
      have hn : n < (Core.iter s).countP (fun x => !lt v x) := by omega
      have hn' : n < (Core.iter s).length := Nat.lt_of_lt_of_le hn List.countP_le_length
      have hy : lt v (Core.iter s)[n] = false := by
        have hmem : (Core.iter s)[n] ∈ (Core.iter s).take ((Core.iter s).countP (fun x => !lt v x)) := by
          rw [List.mem_iff_getElem]
          exact ⟨n, by simp; omega, by simp⟩
        have hm2 : (Core.iter s).filter (fun x => !lt v x) = _ := Mono.filter_eq hmono
        have hm3 : (Core.iter s).take ((Core.iter s).countP (fun x => !lt v x)) =
          (Core.iter s).filter (fun x => !lt v x) := hm2.symm
        rw [hm3] at hmem
        simpa using (List.mem_filter.1 hmem).2
      have hy2 : lt (Core.iter s)[n] v = false := by
        have hlt : A.flatten.length + B1.length < n := by omega
        have hpw := List.pairwise_iff_getElem.1 (show List.Pairwise (fun a b => lt b a = false) (Core.iter s) from h.sorted)
          _ _ hltlen hn' hlt
        rw [(List.getElem?_eq_some_iff.1 hgx).2] at hpw
        exact hE.order.negtrans _ _ _ hpw hx
      refine ⟨s'', ?_, h1.trans h1', h2'⟩
      rw [spec_index_some (i := n) (x := (Core.iter s)[n]) (by omega) (by omega) (by simp [hn'])]
      · rfl
      · simp [Spec.Order.ofValues, equiv, hy, hy2]
      · intro j y hj1 hj2 _; omega
    · rw [if_neg hr]
      refine hnone (fun j y h1 h2 h3 => ?_) s'' (h1.trans h1') h2'
      have hj : (Core.iter s).countP (fun x => !lt v x) ≤ j := by omega
      have hmem : y ∈ (Core.iter s).drop ((Core.iter s).countP (fun x => !lt v x)) := by
        rw [List.mem_drop_iff_getElem]
        obtain ⟨hj', rfl⟩ := List.getElem?_eq_some_iff.1 h3
        exact ⟨j - (Core.iter s).countP (fun x => !lt v x), by omega, by congr 1; omega⟩
      have hm2 := Mono.filter_not_eq hmono
      simp only [Function.comp_def, id] at hm2
      have hm3 : Core.iter s = s.lists.flatten := rfl
      rw [hm3, ← hm2] at hmem
      exact not_equiv_of_gt (by simpa using (List.mem_filter.1 hmem).2)

theorem bisLow (hE : E.Lawful lt) {s : St α α} (h : Inv id lt false s) (m : α) (inc : Bool) :
    Search id (fun x => if inc then lt x m else !lt m x)
      (fun l => if inc then bisectLeft E.lt l m else bisectRight E.lt l m) s := by
  cases inc
  · exact searchRight hE h m
  · exact searchLeft hE h m

theorem monoLow (hE : E.Lawful lt) {s : St α α} (h : Inv id lt false s) (m : α) (inc : Bool) :
    Mono (fun x => if inc then lt x m else !lt m x) (Core.iter s) := by
  cases inc
  · exact mono_right hE.order h.sorted m
  · exact mono_left hE.order h.sorted m

theorem irange_refines (hE : E.Lawful lt) (lo hi : Option α) (incMin incMax reverse : Bool) :
    Refines (Inv id lt false) Core.iter (irange E lo hi incMin incMax reverse)
      (Spec.irange (Spec.Order.ofValues lt) lo hi incMin incMax reverse) := by
  refine Refines.of_query (fun s h => ⟨s, ?_, Reindexed.refl s, h⟩) (fun _ => rfl)
  unfold irange irangeWith Spec.irange
  simp only [Py.get_bind]
  by_cases hm : s.maxes = []
  · simp [hm, iter_nil h hm, Spec.reverseIf]
  rw [if_neg hm]
  have hlne : s.lists ≠ [] := fun e => hm (h.maxes.nil_iff.2 e)
  -- the upper end
  have key : ∀ (p : α → Bool) (minPos minIdx : Nat), Mono p (Core.iter s) →
      (∀ x, Spec.above (Spec.Order.ofValues lt) lo incMin x = !p x) →
      Cut s.lists minPos minIdx ((Core.iter s).countP p) →
      (do
        let (maxPos, maxIdx) ←
          match hi with
          | none => do
            let l ← Py.lift (getItem s.lists (s.maxes.length - 1))
            pure (s.maxes.length - 1, l.length)
          | some m => do
            let maxPos ← Py.lift (if incMax then bisectRight E.lt s.maxes m else bisectLeft E.lt s.maxes m)
            if maxPos = s.maxes.length then
              let l ← Py.lift (getItem s.lists (maxPos - 1))
              pure (maxPos - 1, l.length)
            else
              let l ← Py.lift (getItem s.lists maxPos)
              let maxIdx ← Py.lift (if incMax then bisectRight E.lt l m else bisectLeft E.lt l m)
              pure (maxPos, maxIdx)
        Py.lift (Core.islicePos s minPos minIdx maxPos maxIdx reverse) : Py (St α α) (List α)) s =
      (.ok (Spec.reverseIf reverse ((Core.iter s).filter fun x =>
        Spec.above (Spec.Order.ofValues lt) lo incMin x && Spec.below (Spec.Order.ofValues lt) hi incMax x)), s) := by
    intro p minPos minIdx hp hpa hcut
    obtain ⟨L, last, hL⟩ : ∃ L l, s.lists = L ++ [l] := ⟨_, _, (List.dropLast_concat_getLast hlne).symm⟩
    have hmlen : s.maxes.length - 1 = L.length := by rw [h.maxes.length_eq, hL]; simp
    have hglast : getItem s.lists L.length = .ok last := by rw [hL]; simp
    have hcl : Cut s.lists L.length last.length (Core.iter s).length := by
      rw [Core.iter, hL]; exact Cut.last
    -- enough: the end is a cut after the values that respect the upper bound
    have fin : ∀ (q : α → Bool) (maxPos maxIdx : Nat), Mono q (Core.iter s) →
        (∀ x, Spec.below (Spec.Order.ofValues lt) hi incMax x = q x) →
        Cut s.lists maxPos maxIdx ((Core.iter s).countP q) →
        Core.islicePos s minPos minIdx maxPos maxIdx reverse =
        .ok (Spec.reverseIf reverse ((Core.iter s).filter fun x =>
          Spec.above (Spec.Order.ofValues lt) lo incMin x && Spec.below (Spec.Order.ofValues lt) hi incMax x)) := by
      intro q maxPos maxIdx hq hqb hcut'
      rw [islicePos_eq s hcut hcut']
      have e1 : s.lists.flatten = Core.iter s := rfl
      rw [e1, ← filter_segment hp hq]
      simp only [hpa, hqb]
    cases hi with
    | none =>
      simp only [hmlen, hglast, Py.lift_ok_bind, Py.pure_bind', Py.lift_apply]
      rw [fin (fun _ => true) L.length last.length (List.Pairwise.imp (fun _ _ => rfl) h.sorted) (fun _ => rfl)]
      · rw [countP_all (by simp)]; exact hcl
    | some m =>
      have hbelow : ∀ x, Spec.below (Spec.Order.ofValues lt) (some m) incMax x =
          (if !incMax then lt x m else !lt m x) := by
        intro x; cases incMax <;> rfl
      have hq := monoLow hE h m (!incMax)
      have hbis : ∀ l : List α, (if incMax then bisectRight E.lt l m else bisectLeft E.lt l m) =
        (if !incMax then bisectLeft E.lt l m else bisectRight E.lt l m) := by
        intro l; cases incMax <;> rfl
      simp only [hbis]
      rcases bisLow hE h m (!incMax) with ⟨hall, hb⟩ | ⟨A, B1, x, B2, C, hl, hb, hne, hb2, hP, hx, hQ⟩
      · simp only [id] at hall
        simp only [hb, Py.lift_ok_bind, if_pos trivial, hmlen, hglast, Py.pure_bind', Py.lift_apply]
        rw [fin _ L.length last.length hq hbelow]
        rw [countP_all hall]; exact hcl
      · rw [List.map_id] at hb2; simp only [id] at hP hx hQ
        simp only [hb, Py.lift_ok_bind, if_neg hne, getItem_lists hl, hb2, Py.pure_bind', Py.lift_apply]
        rw [fin _ A.length B1.length hq hbelow]
        rw [iter_split hl, countP_split hP hx hQ]
        exact cut_of_split hl
  cases lo with
  | none =>
    simp only [Py.pure_bind']
    refine key (fun _ => false) 0 0 (List.Pairwise.imp (fun _ h => h) h.sorted) (fun _ => rfl) ?_
    obtain ⟨B, C, hl⟩ : ∃ B C, s.lists = B :: C := by
      cases hl : s.lists with
      | nil => exact absurd hl hlne
      | cons B C => exact ⟨B, C, rfl⟩
    rw [show (Core.iter s).countP (fun _ => false) = 0 by simp]
    exact ⟨[], B, C, hl, rfl, Nat.zero_le _, rfl⟩
  | some m =>
    have habove : ∀ x, Spec.above (Spec.Order.ofValues lt) (some m) incMin x =
        !(if incMin then lt x m else !lt m x) := by
      intro x; cases incMin <;> simp [Spec.above, Spec.Order.ofValues]
    rcases bisLow hE h m incMin with ⟨hall, hb⟩ | ⟨A, B1, x, B2, C, hl, hb, hne, hb2, hP, hx, hQ⟩
    · simp only [id] at hall
      simp only [hb, Py.lift_ok_bind, if_pos trivial, Py.pure_bind']
      rw [List.filter_eq_nil_iff.2]
      · simp [Spec.reverseIf]
      · intro x hx
        rw [habove, hall x hx]; simp
    · rw [List.map_id] at hb2; simp only [id] at hP hx hQ
      simp only [hb, Py.lift_ok_bind, if_neg hne, getItem_lists hl, hb2, Py.pure_bind']
      refine key _ _ _ (monoLow hE h m incMin) habove ?_
      rw [iter_split hl, countP_split hP hx hQ]
      exact cut_of_split hl

end SL
end Verif
