import Verif.EqSpec
import Verif.Ordered
import Verif.Proofs.API
/-!
# Values whose `==` does not follow from `<`
-/

namespace Verif
variable {α κ : Type}

/-- The comparisons that follow from `<`. -/
def Env.byOrder (E : Env α) (lt : α → α → Bool) : Env α := { E with cmp := fun op a b => .ok (op.ofLt lt a b) }

namespace Equality.SL
open Verif.SL
variable {E : Env α} {lt : α → α → Bool}

theorem lawful (hE : E.Ordered lt) : (E.byOrder lt).Lawful lt := ⟨hE.order, fun _ _ _ => rfl, hE.sorted, hE.ilog2⟩

theorem lt_eq (hE : E.Ordered lt) : E.lt = (E.byOrder lt).lt := by funext a b; exact hE.lt_ok a b

theorem add_eq (hE : E.Ordered lt) : add E = add (E.byOrder lt) := by
  funext v; unfold add; rw [lt_eq hE]

theorem update_eq (hE : E.Ordered lt) : update E = update (E.byOrder lt) := by
  funext v; unfold update; rw [add_eq hE]; rfl

theorem methods_eq (hE : E.Ordered lt) : methods E = methods (E.byOrder lt) := by
  unfold methods; rw [update_eq hE]; rfl

theorem new_eq (hE : E.Ordered lt) : new E = new (E.byOrder lt) := by
  funext v; unfold new; rw [update_eq hE]

theorem bisect_left_eq (hE : E.Ordered lt) : bisect_left E = bisect_left (E.byOrder lt) := by
  funext v; unfold bisect_left; rw [lt_eq hE]; rfl

theorem bisect_right_eq (hE : E.Ordered lt) : bisect_right E = bisect_right (E.byOrder lt) := by
  funext v; unfold bisect_right; rw [lt_eq hE]; rfl

theorem count_eq (hE : E.Ordered lt) : count E = count (E.byOrder lt) := by
  funext v; unfold count; rw [lt_eq hE]; rfl

theorem irange_eq (hE : E.Ordered lt) : irange E = irange (E.byOrder lt) := by
  funext a b c d e; unfold irange irangeWith; rw [lt_eq hE]

theorem dropWhile_all {p : α → Bool} {l : List α} (h : ∀ y ∈ l, p y = true) : l.dropWhile p = [] := by
  induction l with
  | nil => rfl
  | cons a l ih => rw [List.dropWhile_cons, if_pos (h a (by simp)), ih fun y hy => h y (by simp [hy])]

theorem takeWhile_all {p : α → Bool} {l : List α} (h : ∀ y ∈ l, p y = true) : l.takeWhile p = l := by
  induction l with
  | nil => rfl
  | cons a l ih => rw [List.takeWhile_cons, if_pos (h a (by simp)), ih fun y hy => h y (by simp [hy])]

theorem dropWhile_split {p : α → Bool} {P Q : List α} {x : α} (h : ∀ y ∈ P, p y = true) (hx : p x = false) :
    (P ++ x :: Q).dropWhile p = x :: Q := by
  rw [List.dropWhile_append_of_pos h, List.dropWhile_cons, if_neg (by simp [hx])]

theorem takeWhile_split {p : α → Bool} {P Q : List α} {x : α} (h : ∀ y ∈ P, p y = true) (hx : p x = false) :
    (P ++ x :: Q).takeWhile p = P := by
  rw [List.takeWhile_append_of_pos h, List.takeWhile_cons, if_neg (by simp [hx]), List.append_nil]

theorem search (hE : E.Ordered lt) {s : St α α} (h : Inv id lt false s) (v : α) :
    Search id (lt · v) (bisectLeft E.lt · v) s := by
  rw [lt_eq hE]; exact searchLeft (lawful hE) h v

theorem contains_refines (hE : E.Ordered lt) (v : α) :
    Refines (Inv id lt false) Core.iter (contains E v) (EqSpec.contains lt E.cmp v) := by
  refine Refines.of_query (fun s h => ⟨s, ?_, Reindexed.refl s, h⟩) (fun l => by unfold EqSpec.contains; split <;> rfl)
  unfold contains EqSpec.contains
  simp only [Py.get_bind]
  by_cases hm : s.maxes = []
  · simp [hm, iter_nil h hm]
  rw [if_neg hm]
  rcases search hE h v with ⟨hall, hb⟩ | ⟨A, B1, x, B2, C, hl, hb, hne, hb2, hP, hx, hQ⟩
  · simp only [id] at hall
    rw [hb, Py.lift_ok_bind, if_pos rfl, dropWhile_all hall]
    rfl
  · rw [List.map_id] at hb2; simp only [id] at hP hx hQ
    simp only [hb, Py.lift_ok_bind, if_neg hne, getItem_lists hl, hb2, getItem_append_cons _ _ _ rfl]
    rw [iter_split hl, dropWhile_split hP hx]
    rfl

theorem discard_refines (hE : E.Ordered lt) (v : α) :
    Refines (Inv id lt false) Core.iter (Verif.SL.discard E v) (EqSpec.discard lt E.cmp v) := by
  refine Refines.of fun s h => ?_
  unfold Verif.SL.discard EqSpec.discard
  simp only [Py.get_bind]
  by_cases hm : s.maxes = []
  · exact ⟨s, by simp [hm, iter_nil h hm], by simp [iter_nil h hm], h⟩
  rw [if_neg hm]
  rcases search hE h v with ⟨hall, hb⟩ | ⟨A, B1, x, B2, C, hl, hb, hne, hb2, hP, hx, hQ⟩
  · simp only [id] at hall
    rw [hb, Py.lift_ok_bind, if_pos rfl, dropWhile_all hall]
    exact ⟨s, rfl, rfl, h⟩
  · rw [List.map_id] at hb2; simp only [id] at hP hx hQ
    simp only [hb, Py.lift_ok_bind, if_neg hne, getItem_lists hl, hb2, getItem_append_cons _ _ _ rfl]
    have e := iter_split hl
    rw [e, dropWhile_split hP hx, takeWhile_split hP hx]
    cases hq : E.cmp .eq x v with
    | error er => exact ⟨s, by simp only [hq]; rfl, by simp only [hq]; exact e, h⟩
    | ok b =>
      cases b
      · exact ⟨s, by simp only [hq]; rfl, by simp only [hq]; exact e, h⟩
      · obtain ⟨s', e', h1, h2⟩ := delete_ok h (at_of_split hl)
        refine ⟨s', by simp only [hq]; exact e', ?_, h1⟩
        simp only [hq]
        rw [h2, e]
        simp [List.eraseIdx_append_of_length_le]

theorem remove_refines (hE : E.Ordered lt) (v : α) :
    Refines (Inv id lt false) Core.iter (remove E v) (EqSpec.remove lt E.cmp v) := by
  refine Refines.of fun s h => ?_
  unfold remove EqSpec.remove
  simp only [Py.get_bind]
  by_cases hm : s.maxes = []
  · exact ⟨s, by simp [hm, iter_nil h hm], by simp [iter_nil h hm], h⟩
  rw [if_neg hm]
  rcases search hE h v with ⟨hall, hb⟩ | ⟨A, B1, x, B2, C, hl, hb, hne, hb2, hP, hx, hQ⟩
  · simp only [id] at hall
    rw [hb, Py.lift_ok_bind, if_pos rfl, dropWhile_all hall]
    exact ⟨s, rfl, rfl, h⟩
  · rw [List.map_id] at hb2; simp only [id] at hP hx hQ
    simp only [hb, Py.lift_ok_bind, if_neg hne, getItem_lists hl, hb2, getItem_append_cons _ _ _ rfl]
    have e := iter_split hl
    rw [e, dropWhile_split hP hx, takeWhile_split hP hx]
    cases hq : E.cmp .eq x v with
    | error er => exact ⟨s, by simp only [hq]; rfl, by simp only [hq]; exact e, h⟩
    | ok b =>
      cases b
      · exact ⟨s, by simp only [hq]; rfl, by simp only [hq]; exact e, h⟩
      · obtain ⟨s', e', h1, h2⟩ := delete_ok h (at_of_split hl)
        refine ⟨s', by simp only [hq]; exact e', ?_, h1⟩
        simp only [hq]
        rw [h2, e]
        simp [List.eraseIdx_append_of_length_le]

theorem find_range_some {q : Nat → Bool} {N i : Nat} (hi : i < N) (hq : q i = true) (hj : ∀ j, j < i → q j = false) :
    (List.range N).find? q = some i := by
  rw [List.find?_range_eq_some]
  exact ⟨hq, by simpa using hi, fun j h => by simp [hj j h]⟩

theorem find_range_none {q : Nat → Bool} {N : Nat} (hj : ∀ j, j < N → q j = false) : (List.range N).find? q = none := by
  rw [List.find?_eq_none]
  intro j h
  simp [hj j (by simpa using h)]

/-- The code's bounds of a window are those of the specification, or both windows are empty. -/
theorem bounds (len : Nat) (start stop : Option Int) :
    (indexBounds len start stop).1 = Spec.indexBound len 0 start ∧ 0 ≤ (indexBounds len start stop).1 ∧
    ((indexBounds len start stop).2 = min (Spec.indexBound len len stop) len ∨
      ((indexBounds len start stop).2 ≤ 0 ∧ min (Spec.indexBound len len stop) (len : Int) ≤ 0)) := by
  cases start <;> cases stop <;> simp only [SL.indexBounds, Spec.indexBound, Option.getD_none, Option.getD_some] <;>
    refine ⟨?_, ?_, ?_⟩ <;> split <;> omega

theorem index_refines (hE : E.Ordered lt) (v : α) (start stop : Option Int) :
    Refines (Inv id lt false) Core.iter (index E v start stop) (EqSpec.index lt E.cmp v start stop) := by
  have hpure : ∀ l, (EqSpec.index lt E.cmp v start stop l).2 = l := by
    intro l; unfold EqSpec.index; simp only; repeat' split
    all_goals rfl
  refine Refines.of_query (fun s h => ?_) hpure
  unfold index EqSpec.index
  simp only [Py.get_bind]
  have hlen : s.len = (Core.iter s).length := h.len_eq
  obtain ⟨b1, b2, b3⟩ := bounds s.len start stop
  rw [hlen] at b1 b2 b3
  by_cases h0 : s.len = 0
  · rw [if_pos h0]
    rw [hlen] at h0
    refine ⟨s, ?_, Reindexed.refl s, h⟩
    rw [if_pos]
    · rfl
    · omega
  rw [if_neg h0, hlen]
  rcases hbd : SL.indexBounds (Core.iter s).length start stop with ⟨lo, hi⟩
  rw [hbd] at b1 b2 b3
  simp only at b1 b2 b3 ⊢
  rw [← b1]
  by_cases hle : hi ≤ lo
  · rw [if_pos hle, if_pos (by omega)]
    exact ⟨s, rfl, Reindexed.refl s, h⟩
  obtain rfl : hi = min (Spec.indexBound (Core.iter s).length (Core.iter s).length stop) (Core.iter s).length := by omega
  clear b3 b1 hbd
  have hhilen : min (Spec.indexBound (Core.iter s).length (Core.iter s).length stop) (Core.iter s).length ≤ (Core.iter s).length := by omega
  generalize min (Spec.indexBound (Core.iter s).length (Core.iter s).length stop) (Core.iter s).length = hi at hle hhilen ⊢
  rw [if_neg hle, if_neg hle]
  rcases search hE h v with ⟨hall, hb⟩ | ⟨A, B1, x, B2, C, hl, hb, hne, hb2, hP, hx, hQ⟩
  · simp only [id] at hall
    rw [hb, Py.lift_ok_bind, if_pos rfl, dropWhile_all hall]
    exact ⟨s, rfl, Reindexed.refl s, h⟩
  rw [List.map_id] at hb2; simp only [id] at hP hx hQ
  simp only [hb, Py.lift_ok_bind, if_neg hne, getItem_lists hl, hb2, getItem_append_cons _ _ _ rfl]
  have e := iter_split hl
  have e1 : (Core.iter s).dropWhile (lt · v) = x :: (B2 ++ C.flatten) := by rw [e, dropWhile_split hP hx]
  have e2 : (Core.iter s).takeWhile (lt · v) = A.flatten ++ B1 := by rw [e, takeWhile_split hP hx]
  have hs : Sorted lt _ := sorted_split h.sorted e
  rw [e1, e2]
  cases hq : E.cmp .ne x v with
  | error er => exact ⟨s, by simp only [hq]; rfl, Reindexed.refl s, h⟩
  | ok b =>
  cases b
  case true => exact ⟨s, by simp only [hq]; rfl, Reindexed.refl s, h⟩
  simp only [hq, Py.lift_ok_bind]
  rw [if_neg (by simp)]
  obtain ⟨s', e', h1, h2⟩ := h.loc hE.ilog2 hl B1.length
  rw [Py.bind_ok e', List.length_append]
  have hgx : (Core.iter s)[A.flatten.length + B1.length]? = some x := by
    rw [e, ← List.length_append]; simp
  have hbefore : ∀ (j : Nat), j < A.flatten.length + B1.length → (Core.iter s)[j]?.any (equiv lt · v) = false := by
    intro j hj
    rw [e, List.getElem?_append_left (by rw [List.length_append]; exact hj)]
    cases hy : (A.flatten ++ B1)[j]? with
    | none => rfl
    | some y => exact not_equiv_of_lt (hP y (List.mem_of_getElem? hy))
  have hltlen := (List.getElem?_eq_some_iff.1 hgx).1
  generalize hn : A.flatten.length + B1.length = n at *
  by_cases hlo : lo ≤ (n : Int)
  · rw [if_pos hlo]
    by_cases hhi : (n : Int) ≤ hi - 1
    · rw [if_pos hhi]
      refine ⟨s', ?_, h1, h2⟩
      rw [find_range_some (i := n) hltlen]
      · rfl
      · simp; omega
      · intro j hj
        simp [hbefore j hj, Nat.ne_of_lt hj]
    · rw [if_neg hhi]
      refine ⟨s', ?_, h1, h2⟩
      rw [find_range_none]
      · rfl
      · intro j _
        by_cases hjn : j < n
        · simp [hbefore j hjn, Nat.ne_of_lt hjn]
        · have : ¬ (j : Int) < hi := by omega
          simp [this]
  · rw [if_neg hlo]
    have hr0 : bisect_right E v = bisect_right (E.byOrder lt) v := by rw [bisect_right_eq hE]
    obtain ⟨s'', e'', h1', h2'⟩ := bisect_right_ok (lawful hE) h2 v
    rw [hr0, Py.bind_ok e'']
    have hit : Core.iter s' = Core.iter s := by rw [Core.iter, Core.iter, h1.lists]
    rw [hit]
    have hmono := mono_right hE.order h.sorted v
    by_cases hr : lo ≤ (((Core.iter s).countP (fun x => !lt v x) : Nat) : Int) - 1
    · rw [if_pos hr]
      obtain ⟨m, rfl⟩ : ∃ m : Nat, lo = m := ⟨lo.toNat, by omega⟩
      have hm : m < (Core.iter s).countP (fun x => !lt v x) := by omega
      have hm' : m < (Core.iter s).length := Nat.lt_of_lt_of_le hm List.countP_le_length
      have hy : lt v (Core.iter s)[m] = false := by
        have hmem : (Core.iter s)[m] ∈ (Core.iter s).take ((Core.iter s).countP (fun x => !lt v x)) := by
          rw [List.mem_iff_getElem]
          exact ⟨m, by simp; omega, by simp⟩
        have hm2 : (Core.iter s).filter (fun x => !lt v x) = _ := Mono.filter_eq hmono
        have hm3 : (Core.iter s).take ((Core.iter s).countP (fun x => !lt v x)) =
          (Core.iter s).filter (fun x => !lt v x) := hm2.symm
        rw [hm3] at hmem
        simpa using (List.mem_filter.1 hmem).2
      have hy2 : lt (Core.iter s)[m] v = false := by
        have hpw := List.pairwise_iff_getElem.1 (show List.Pairwise (fun a b => lt b a = false) (Core.iter s) from h.sorted)
          _ _ hltlen hm' (by omega)
        rw [(List.getElem?_eq_some_iff.1 hgx).2] at hpw
        exact hE.order.negtrans _ _ _ hpw hx
      refine ⟨s'', ?_, h1.trans h1', h2'⟩
      rw [find_range_some (i := m) hm']
      · rfl
      · simp [List.getElem?_eq_getElem hm', equiv, hy, hy2]; omega
      · intro j hj
        have : ¬ (m : Int) ≤ j := by omega
        simp [this]
    · rw [if_neg hr]
      refine ⟨s'', ?_, h1.trans h1', h2'⟩
      rw [find_range_none]
      · rfl
      · intro j hjl
        by_cases hjlo : lo ≤ (j : Int)
        · have hj : (Core.iter s).countP (fun x => !lt v x) ≤ j := by omega
          have hmem : (Core.iter s)[j] ∈ (Core.iter s).drop ((Core.iter s).countP (fun x => !lt v x)) := by
            rw [List.mem_drop_iff_getElem]
            exact ⟨j - (Core.iter s).countP (fun x => !lt v x), by omega, by congr 1; omega⟩
          have hm2 := Mono.filter_not_eq hmono
          simp only [Function.comp_def, id] at hm2
          have hm3 : (Core.iter s).drop ((Core.iter s).countP (fun x => !lt v x)) = _ := hm2.symm
          rw [hm3] at hmem
          have := not_equiv_of_gt (lt := lt) (a := (Core.iter s)[j]) (b := v) (by simpa using (List.mem_filter.1 hmem).2)
          have hjn : j ≠ n := by omega
          simp [List.getElem?_eq_getElem hjl, this, hjn]
        · simp [hjlo]

/-- One call. -/
theorem step_refines (hE : E.Ordered lt) (op : Op α) (hv : op.Valid) :
    Refines (Inv id lt false) Core.iter ((SL.api E).step op) (EqSpec.step lt E.cmp op) := by
  have hL := SL.api_lawful (lawful hE)
  have he : ∀ op' : Op α, op'.Valid → (SL.api E).step op' = (SL.api (E.byOrder lt)).step op' →
      Spec.step { lt := lt, same := equiv lt, cmp := E.cmp } op' = Spec.step (Spec.Order.ofValues lt) op' →
      Refines (Inv id lt false) Core.iter ((SL.api E).step op') (Spec.step { lt := lt, same := equiv lt, cmp := E.cmp } op') := by
    intro op' hv' h1 h2
    rw [h1, h2]
    exact hL.step op' hv'
  have hm := methods_eq hE
  have hn := new_eq hE
  cases op with
  | contains v => exact (contains_refines hE v).out _
  | discard v => exact (discard_refines hE v).out _
  | remove v => exact (remove_refines hE v).out _
  | index v a b => exact (index_refines hE v a b).out _
  | compare op other => exact (compare_refines (O := { lt := lt, same := equiv lt, cmp := E.cmp }) rfl op other).out _
  | add v => exact he _ hv (by show Spec.out _ (add E v) = _; rw [add_eq hE]; rfl) rfl
  | update v => exact he _ hv (by show Spec.out _ (update E v) = _; rw [update_eq hE]; rfl) rfl
  | bisectLeft v => exact he _ hv (by show Spec.out _ (bisect_left E v) = _; rw [bisect_left_eq hE]; rfl) rfl
  | bisectRight v => exact he _ hv (by show Spec.out _ (bisect_right E v) = _; rw [bisect_right_eq hE]; rfl) rfl
  | count v => exact he _ hv (by show Spec.out _ (count E v) = _; rw [count_eq hE]; rfl) rfl
  | irange lo hi a b r => exact he _ hv (by show Spec.out _ (irange E lo hi a b r) = _; rw [irange_eq hE]; rfl) rfl
  | delInt i => exact he _ hv (by show Spec.out _ (Core.delInt (methods E) i) = _; rw [hm]; rfl) rfl
  | delSlice i => exact he _ hv (by show Spec.out _ (Core.delSlice (methods E) i) = _; rw [hm]; rfl) rfl
  | pop i => exact he _ hv (by show Spec.out _ (Core.pop (methods E) i) = _; rw [hm]; rfl) rfl
  | iadd i => exact he _ hv (by show Spec.out _ (Core.iadd (methods E) i) = _; rw [hm]; rfl) rfl
  | imul i => exact he _ hv (by show Spec.out _ (Core.imul (methods E) i) = _; rw [hm]; rfl) rfl
  | reset i => exact he _ hv (by show Spec.out _ (Core.reset (methods E) i) = _; rw [hm]; rfl) rfl
  | copy => exact he _ hv (by show Spec.out _ (ListAPI.valuesOf _ fun s => new E (some (Core.iter s))) = _; rw [hn]; rfl) rfl
  | concat xs => exact he _ hv (by show Spec.out _ (ListAPI.valuesOf _ fun s => new E (some (Core.iter s ++ xs))) = _; rw [hn]; rfl) rfl
  | mul n => exact he _ hv (by show Spec.out _ (ListAPI.valuesOf _ fun s => new E (some (repeatList (Core.iter s) n))) = _; rw [hn]; rfl) rfl
  | clear => exact he _ hv rfl rfl
  | getInt => exact he _ hv rfl rfl
  | getSlice => exact he _ hv rfl rfl
  | islice => exact he _ hv rfl rfl
  | iter => exact he _ hv rfl rfl
  | reversed => exact he _ hv rfl rfl
  | len => exact he _ hv rfl rfl
  | unsupported => exact he _ hv rfl rfl

theorem reachable_inv (hE : E.Ordered lt) {s : St α α} (hs : (SL.api E).Reachable s) : Inv id lt false s := by
  induction hs with
  | new e =>
    rename_i xs s
    obtain ⟨s', e', hi, _⟩ := SL.new_ok (lawful hE) xs
    have e2 : new E xs = .ok s := e
    rw [new_eq hE, e'] at e2
    cases e2
    exact hi
  | step op hv _ ih => exact (step_refines hE op hv _ ih).2.2

end Equality.SL
end Verif
