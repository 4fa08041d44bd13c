import Verif.Proofs.Distinct
/-!
# SortedSet: the built-in set and the sorted list hold the same values
-/

namespace Verif
namespace SS
variable {τ σ α : Type} {S : SetOps τ α} {L : ListAPI σ α} {O : Spec.Order α} {eqv : α → α → Bool} {I : σ → Prop}

/-- What the proofs about SortedSet use of its two components. -/
structure Good (S : SetOps τ α) (L : ListAPI σ α) (O : Spec.Order α) (eqv : α → α → Bool) (I : σ → Prop) : Prop where
  set : S.Lawful eqv
  list : L.Lawful O I
  same : ∀ a b, O.same a b = eqv a b

theorem Good.equiv (h : Good S L O eqv I) : IsEquiv eqv := ⟨h.set.refl, h.set.symm, h.set.trans⟩

theorem Good.same_fun (h : Good S L O eqv I) (v : α) : (fun x => O.same x v) = fun x => eqv x v := by
  funext x; exact h.same x v

/-- The representation invariant. -/
structure Inv (S : SetOps τ α) (L : ListAPI σ α) (I : σ → Prop) (s : SS τ σ) : Prop where
  list : I s.list
  perm : (S.toList s.set).Perm (L.iter s.list)

variable {s : SS τ σ}

theorem Inv.distinct (h : Good S L O eqv I) (hs : Inv S L I s) : Distinct eqv (L.iter s.list) :=
  Distinct.perm h.equiv hs.perm (h.set.distinct _)

theorem Inv.sorted (h : Good S L O eqv I) (hs : Inv S L I s) : Sorted O.lt (L.iter s.list) := h.list.sorted _ hs.list

theorem Inv.mem (h : Good S L O eqv I) (hs : Inv S L I s) (v : α) :
    S.mem v s.set = (L.iter s.list).any (eqv · v) := by
  rw [h.set.mem, any_perm hs.perm]

theorem Inv.len (h : Good S L O eqv I) (hs : Inv S L I s) : S.len s.set = (L.iter s.list).length := by
  rw [h.set.len, hs.perm.length_eq]

theorem onList_run {β : Type} {m : Py σ β} {f : Py (List α) β} (hm : Refines I L.iter m f) (hi : I s.list)
    {r : Except PyErr β} {l : List α} (hf : f (L.iter s.list) = (r, l)) :
    ∃ l', onList m s = (r, { s with list := l' }) ∧ L.iter l' = l ∧ I l' := by
  obtain ⟨l', e, h1, h2⟩ := hm.eq_of hi hf
  exact ⟨l', by simp only [onList, e], h1, h2⟩

/-- A query of the list. -/
theorem onList_query {β : Type} {m : Py σ β} {f : Py (List α) β} (hm : Refines I L.iter m f) (hs : Inv S L I s)
    (hf : ∀ l, (f l).2 = l) :
    ∃ s', onList m s = ((f (L.iter s.list)).1, s') ∧ L.iter s'.list = L.iter s.list ∧ s'.set = s.set ∧ Inv S L I s' := by
  obtain ⟨l', e, h1, h2⟩ := onList_run (l := L.iter s.list) hm hs.list (Prod.ext rfl (hf _))
  exact ⟨_, e, h1, rfl, h2, by rw [h1]; exact hs.perm⟩

theorem setRemove_run (h : Good S L O eqv I) {v : α} (hp : (S.toList s.set).any (eqv · v) = true) :
    ∃ t, setRemove S v s = (.ok (), { s with set := t }) ∧
      (S.toList t).Perm ((S.toList s.set).filter fun y => !eqv y v) := by
  obtain ⟨t, e, h1⟩ := h.set.remove v s.set hp
  exact ⟨t, by simp only [setRemove, e], h1⟩

theorem add_ok (h : Good S L O eqv I) (hs : Inv S L I s) (v : α) :
    ∃ s', add S L v s = (.ok (), s') ∧ Inv S L I s' ∧ iter L s' =
      if (iter L s).any (eqv · v) then iter L s else Spec.insert O (iter L s) v := by
  unfold add iter
  simp only [Py.get_bind, Inv.mem h hs, Py.ite_apply']
  split
  · rename_i hv
    exact ⟨s, rfl, hs, rfl⟩
  · rename_i hv
    simp only [onSet, Py.modify_bind]
    obtain ⟨l', e, h1, h2⟩ := onList_run (s := { s with set := S.add v s.set }) (h.list.add v) hs.list rfl
    refine ⟨_, e, ⟨h2, ?_⟩, ?_⟩
    · show (S.toList (S.add v s.set)).Perm (L.iter l')
      rw [h1]
      refine (h.set.add v s.set).trans ?_
      rw [addNew, any_perm hs.perm, if_neg hv]
      exact (hs.perm.append_right _).trans (Spec.insert_perm _ _).symm
    · exact h1

theorem removePresent_ok (h : Good S L O eqv I) (hs : Inv S L I s) {v : α} (hv : (iter L s).any (eqv · v) = true) :
    ∃ s', remove S L v s = (.ok (), s') ∧ Inv S L I s' ∧ iter L s' = (iter L s).filter fun y => !eqv y v := by
  unfold iter at *
  unfold remove
  obtain ⟨t, e, ht⟩ := setRemove_run h (s := s) (v := v) (by rw [any_perm hs.perm]; exact hv)
  rw [Py.bind_ok e]
  obtain ⟨l', e, h1, h2⟩ := onList_run (s := { s with set := t }) (h.list.remove v) hs.list
    (r := .ok ()) (l := (L.iter s.list).filter fun y => !eqv y v)
    (by rw [← (Inv.distinct h hs).eraseP_eq_filter h.equiv]
        simp only [Spec.remove]; rw [h.same_fun, if_pos hv])
  refine ⟨_, e, ⟨h2, ?_⟩, h1⟩
  show (S.toList t).Perm (L.iter l')
  rw [h1]
  exact ht.trans (hs.perm.filter _)

theorem remove_absent (h : Good S L O eqv I) (hs : Inv S L I s) {v : α} (hv : (iter L s).any (eqv · v) = false) :
    remove S L v s = (.error .keyError, s) := by
  have := h.set.remove_absent v s.set (by rw [any_perm hs.perm]; exact hv)
  unfold remove
  exact Py.bind_error (by simp only [setRemove, this])

theorem discard_ok (h : Good S L O eqv I) (hs : Inv S L I s) (v : α) :
    ∃ s', discard S L v s = (.ok (), s') ∧ Inv S L I s' ∧ iter L s' = (iter L s).filter fun y => !eqv y v := by
  unfold discard
  simp only [Py.get_bind, Inv.mem h hs, Py.ite_apply']
  split
  · rename_i hv
    exact removePresent_ok h hs hv
  · rename_i hv
    refine ⟨s, rfl, hs, (List.filter_eq_self.2 fun y hy => ?_).symm⟩
    cases hyv : eqv y v
    · rfl
    · exact absurd (List.any_eq_true.2 ⟨y, hy, hyv⟩) hv

theorem pop_ok (h : Good S L O eqv I) (hs : Inv S L I s) (i : Int) :
    ∃ s', pop S L i s = ((Spec.pop i (iter L s)).1, s') ∧ Inv S L I s' ∧ iter L s' = (Spec.pop i (iter L s)).2 := by
  unfold iter pop
  rcases hq : Spec.pop i (L.iter s.list) with ⟨r, l⟩
  obtain ⟨l', e, h1, h2⟩ := onList_run (h.list.pop i) hs.list hq
  cases r with
  | error x =>
    refine ⟨_, Py.bind_error e, ⟨h2, ?_⟩, h1⟩
    have : l = L.iter s.list := by
      simp only [Spec.pop] at hq
      split at hq
      · cases hq; rfl
      · split at hq
        · cases hq
        · cases hq; rfl
    show (S.toList s.set).Perm (L.iter l')
    rw [h1, this]; exact hs.perm
  | ok v =>
    obtain ⟨p, hp, hl⟩ : ∃ p, (L.iter s.list)[p]? = some v ∧ l = (L.iter s.list).eraseIdx p := by
      simp only [Spec.pop] at hq
      split at hq
      · cases hq
      · rename_i p hpos
        split at hq
        · rename_i w hw
          cases hq
          exact ⟨p, hw, rfl⟩
        · cases hq
    rw [Py.bind_ok e]
    obtain ⟨t, e', ht⟩ := setRemove_run h (s := { s with list := l' }) (v := v)
      (by show (S.toList s.set).any _ = true
          rw [any_perm hs.perm]; exact any_self h.equiv (List.mem_of_getElem? hp))
    rw [Py.bind_ok e']
    refine ⟨_, rfl, ⟨h2, ?_⟩, h1⟩
    show (S.toList t).Perm (L.iter l')
    rw [h1, hl, ← (Inv.distinct h hs).filter_position h.equiv hp]
    exact ht.trans (hs.perm.filter _)

theorem delInt_ok (h : Good S L O eqv I) (hs : Inv S L I s) (i : Int) :
    ∃ s', delInt S L i s = ((Spec.delInt i (iter L s)).1, s') ∧ Inv S L I s' ∧ iter L s' = (Spec.delInt i (iter L s)).2 := by
  unfold iter delInt
  obtain ⟨s1, e, h1, h1s, hi1⟩ := onList_query (h.list.getInt i) hs (fun l => by simp only [Spec.getInt]; split <;> rfl)
  rcases hpos : Spec.position (L.iter s.list).length i with _ | p
  · have hg : (Spec.getInt i (L.iter s.list)).1 = .error .indexError := by
      simp only [Spec.getInt, hpos, Option.bind_none]
    have hd : Spec.delInt i (L.iter s.list) = (.error .indexError, L.iter s.list) := by
      simp only [Spec.delInt, hpos]
    rw [hg] at e
    rw [hd]
    exact ⟨s1, Py.bind_error e, hi1, h1⟩
  · have hd : Spec.delInt i (L.iter s.list) = (.ok (), (L.iter s.list).eraseIdx p) := by
      simp only [Spec.delInt, hpos]
    have hlt : p < (L.iter s.list).length := by
      simp only [Spec.position] at hpos
      split at hpos
      · cases hpos; omega
      · split at hpos
        · cases hpos; omega
        · cases hpos
    have hp : (L.iter s.list)[p]? = some (L.iter s.list)[p] := List.getElem?_eq_getElem hlt
    have hg : (Spec.getInt i (L.iter s.list)).1 = .ok (L.iter s.list)[p] := by
      simp only [Spec.getInt, hpos, Option.bind_some, hp]
    rw [hg] at e
    rw [hd, Py.bind_ok e]
    obtain ⟨t, e', ht⟩ := setRemove_run h (s := s1) (v := (L.iter s.list)[p])
      (by rw [h1s, any_perm hs.perm]; exact any_self h.equiv (List.getElem_mem _))
    rw [Py.bind_ok e']
    obtain ⟨l', e2, h3, h4⟩ := onList_run (s := { s1 with set := t }) (h.list.delInt i) hi1.list
      (r := .ok ()) (l := (L.iter s.list).eraseIdx p) (by show Spec.delInt i (L.iter s1.list) = _; rw [h1, hd])
    refine ⟨_, e2, ⟨h4, ?_⟩, h3⟩
    show (S.toList t).Perm (L.iter l')
    rw [h3, ← (Inv.distinct h hs).filter_position h.equiv hp]
    rw [h1s] at ht
    exact ht.trans (hs.perm.filter _)

theorem delSlice_ok (h : Good S L O eqv I) (hs : Inv S L I s) (sl : PySlice) :
    ∃ s', delSlice S L sl s = ((Spec.delSlice sl (iter L s)).1, s') ∧ Inv S L I s' ∧
      iter L s' = (Spec.delSlice sl (iter L s)).2 := by
  unfold iter delSlice
  obtain ⟨s1, e, h1, h1s, hi1⟩ := onList_query (h.list.getSlice sl) hs
    (fun l => by simp only [Spec.getSlice]; split <;> rfl)
  rcases hpos : Spec.slicePositions sl (L.iter s.list).length with x | ps
  · have hg : (Spec.getSlice sl (L.iter s.list)).1 = .error x := by simp only [Spec.getSlice, hpos]
    have hd : Spec.delSlice sl (L.iter s.list) = (.error x, L.iter s.list) := by simp only [Spec.delSlice, hpos]
    rw [hg] at e
    rw [hd]
    exact ⟨s1, Py.bind_error e, hi1, h1⟩
  · have hd : Spec.delSlice sl (L.iter s.list) = (.ok (), Spec.deletePositions ps (L.iter s.list)) := by
      simp only [Spec.delSlice, hpos]
    have hg : (Spec.getSlice sl (L.iter s.list)).1 = .ok (ps.filterMap ((L.iter s.list)[·]?)) := by
      simp only [Spec.getSlice, hpos]
    rw [hg] at e
    rw [hd, Py.bind_ok e]
    simp only [onSet, Py.modify_bind]
    generalize hvs : ps.filterMap ((L.iter s.list)[·]?) = vs
    obtain ⟨l', e2, h3, h4⟩ := onList_run (s := { s1 with set := S.differenceUpdate vs s1.set })
      (h.list.delSlice sl) hi1.list
      (r := .ok ()) (l := Spec.deletePositions ps (L.iter s.list))
      (by show Spec.delSlice sl (L.iter s1.list) = _; rw [h1, hd])
    refine ⟨_, e2, ⟨h4, ?_⟩, h3⟩
    show (S.toList (S.differenceUpdate vs s1.set)).Perm (L.iter l')
    rw [h3, ← (Inv.distinct h hs).filter_positions h.equiv, hvs, h1s]
    exact (h.set.differenceUpdate vs s.set).trans (hs.perm.filter _)

theorem clear_ok (h : Good S L O eqv I) (hs : Inv S L I s) :
    ∃ s', clear S L s = (.ok (), s') ∧ Inv S L I s' ∧ iter L s' = [] := by
  unfold clear iter
  simp only [onSet, Py.modify_bind]
  obtain ⟨l', e, h1, h2⟩ := onList_run (s := { s with set := S.empty }) h.list.clear hs.list rfl
  refine ⟨_, e, ⟨h2, ?_⟩, h1⟩
  show (S.toList S.empty).Perm (L.iter l')
  rw [h1, h.set.empty]

theorem rebuild_ok (h : Good S L O eqv I) {s : SS τ σ} (hi : I s.list) :
    ∃ s', rebuild S L s = (.ok (), s') ∧ Inv S L I s' ∧ s'.set = s.set := by
  unfold rebuild
  obtain ⟨l', e, h1, h2⟩ := onList_run h.list.clear hi rfl
  rw [Py.bind_ok e]
  simp only [Py.get_bind]
  obtain ⟨l2, e2, h3, h4⟩ := onList_run (s := { s with list := l' }) (h.list.update (S.toList s.set)) h2 rfl
  refine ⟨_, e2, ⟨h4, ?_⟩, rfl⟩
  show (S.toList s.set).Perm (L.iter l2)
  rw [h3]
  show (S.toList s.set).Perm (Spec.insertAll O (L.iter l') _)
  rw [h1]
  exact (Spec.insertAll_isStableSort h.list.order Spec.sorted_nil _).perm.symm

theorem forEach_add_ok (h : Good S L O eqv I) (vs : List α) (hs : Inv S L I s) :
    ∃ s', Py.forEach (add S L) vs s = (.ok (), s') ∧ Inv S L I s' ∧
      (iter L s').Perm (vs.foldl (addNew eqv) (iter L s)) := by
  induction vs generalizing s with
  | nil => exact ⟨s, rfl, hs, .refl _⟩
  | cons v vs ih =>
    obtain ⟨s1, e1, h1, h2⟩ := add_ok h hs v
    obtain ⟨s2, e2, h3, h4⟩ := ih h1
    refine ⟨s2, (Py.bind_ok e1).trans e2, h3, h4.trans ?_⟩
    rw [List.foldl_cons]
    refine foldl_addNew_perm ?_ vs
    rw [h2, addNew]
    split
    · exact .refl _
    · exact Spec.insert_perm _ _

theorem forEach_discard_ok (h : Good S L O eqv I) (vs : List α) (hs : Inv S L I s) :
    ∃ s', Py.forEach (discard S L) vs s = (.ok (), s') ∧ Inv S L I s' ∧
      iter L s' = (iter L s).filter fun y => !vs.any (eqv · y) := by
  induction vs generalizing s with
  | nil => exact ⟨s, rfl, hs, (List.filter_eq_self.2 fun _ _ => rfl).symm⟩
  | cons v vs ih =>
    obtain ⟨s1, e1, h1, h2⟩ := discard_ok h hs v
    obtain ⟨s2, e2, h3, h4⟩ := ih h1
    refine ⟨s2, (Py.bind_ok e1).trans e2, h3, ?_⟩
    rw [h4, h2, List.filter_filter]
    refine List.filter_congr fun y _ => ?_
    rw [List.any_cons, Bool.not_or, Bool.and_comm, h.set.symm y v]

theorem update_ok (h : Good S L O eqv I) (xss : List (List α)) (hs : Inv S L I s) :
    ∃ s', update S L xss s = (.ok (), s') ∧ Inv S L I s' ∧
      (iter L s').Perm (xss.flatten.foldl (addNew eqv) (iter L s)) := by
  unfold update
  simp only [Py.get_bind, Py.ite_apply']
  have hv := h.set.ofList xss.flatten
  split
  · simp only [onSet, Py.modify_bind]
    obtain ⟨s', e, h1, h2⟩ := rebuild_ok h (s := { s with set := S.update (S.toList (S.ofList xss.flatten)) s.set }) hs.list
    refine ⟨s', e, h1, h1.perm.symm.trans ?_⟩
    rw [h2]
    refine (h.set.update _ s.set).trans ?_
    exact (foldl_addNew_perm hs.perm _).trans (foldl_addNew_ofList h.equiv _ hv)
  · obtain ⟨s', e, h1, h2⟩ := forEach_add_ok h (S.toList (S.ofList xss.flatten)) hs
    exact ⟨s', e, h1, h2.trans (foldl_addNew_ofList h.equiv _ hv)⟩

/-- The values of `set(chain(*iterables))`. -/
theorem any_ofList (h : Good S L O eqv I) (xs : List α) (x : α) :
    (S.toList (S.ofList xs)).any (eqv · x) = xs.any (eqv · x) := by
  rw [any_perm (h.set.ofList xs), any_foldl_addNew h.equiv]; rfl

theorem differenceUpdate_ok (h : Good S L O eqv I) (xss : List (List α)) (hs : Inv S L I s) :
    ∃ s', differenceUpdate S L xss s = (.ok (), s') ∧ Inv S L I s' ∧
      (iter L s').Perm ((iter L s).filter fun y => !xss.flatten.any (eqv · y)) := by
  unfold differenceUpdate
  simp only [Py.get_bind, Py.ite_apply']
  split
  · simp only [onSet, Py.modify_bind]
    obtain ⟨s', e, h1, h2⟩ := rebuild_ok h
      (s := { s with set := S.differenceUpdate (S.toList (S.ofList xss.flatten)) s.set }) hs.list
    refine ⟨s', e, h1, h1.perm.symm.trans ?_⟩
    rw [h2]
    refine (h.set.differenceUpdate _ s.set).trans ?_
    simp only [any_ofList h]
    exact hs.perm.filter _
  · obtain ⟨s', e, h1, h2⟩ := forEach_discard_ok h (S.toList (S.ofList xss.flatten)) hs
    refine ⟨s', e, h1, ?_⟩
    rw [h2]
    simp only [any_ofList h]
    exact .refl _

theorem intersectionUpdate_ok (h : Good S L O eqv I) (xss : List (List α)) (hs : Inv S L I s) :
    ∃ s', intersectionUpdate S L xss s = (.ok (), s') ∧ Inv S L I s' ∧
      ∀ x, (iter L s').any (eqv · x) = ((iter L s).any (eqv · x) && xss.all fun xs => xs.any (eqv · x)) := by
  unfold intersectionUpdate
  simp only [onSet, Py.modify_bind]
  obtain ⟨s', e, h1, h2⟩ := rebuild_ok h (s := { s with set := S.intersectionUpdate xss s.set }) hs.list
  refine ⟨s', e, h1, fun x => ?_⟩
  rw [iter, ← any_perm h1.perm, h2, iter, ← any_perm hs.perm]
  exact h.set.intersectionUpdate xss s.set x

theorem symmetricDifferenceUpdate_ok (h : Good S L O eqv I) (xs : List α) (hs : Inv S L I s) :
    ∃ s', symmetricDifferenceUpdate S L xs s = (.ok (), s') ∧ Inv S L I s' ∧
      ∀ x, (iter L s').any (eqv · x) = ((iter L s).any (eqv · x) != xs.any (eqv · x)) := by
  unfold symmetricDifferenceUpdate
  simp only [onSet, Py.modify_bind]
  obtain ⟨s', e, h1, h2⟩ := rebuild_ok h (s := { s with set := S.symmetricDifferenceUpdate xs s.set }) hs.list
  refine ⟨s', e, h1, fun x => ?_⟩
  rw [iter, ← any_perm h1.perm, h2, iter, ← any_perm hs.perm]
  exact h.set.symmetricDifferenceUpdate xs s.set x

/-! ### New sets -/

theorem fromset_ok (h : Good S L O eqv I) (t : τ) :
    ∃ s', fromset S L t = .ok s' ∧ Inv S L I s' ∧ s'.set = t := by
  obtain ⟨l, e, h1, h2⟩ := h.list.new (some (S.toList t))
  refine ⟨⟨t, l⟩, by simp only [fromset, e], ⟨h1, ?_⟩, rfl⟩
  show (S.toList t).Perm (L.iter l)
  rw [h2]
  exact (Spec.insertAll_isStableSort h.list.order Spec.sorted_nil _).perm.symm

theorem new_ok (h : Good S L O eqv I) (xs : Option (List α)) :
    ∃ s', new S L xs = .ok s' ∧ Inv S L I s' ∧ (iter L s').Perm ((xs.getD []).foldl (addNew eqv) []) := by
  obtain ⟨l, e, h1, h2⟩ := h.list.new (some (S.toList S.empty))
  rw [h.set.empty] at e h2
  have hi : Inv S L I ⟨S.empty, l⟩ := ⟨h1, by rw [h.set.empty, h2]; exact .refl _⟩
  have h0 : iter L (⟨S.empty, l⟩ : SS τ σ) = [] := h2
  cases xs with
  | none => exact ⟨_, by simp only [new, h.set.empty, e], hi, by rw [h0]; exact .refl _⟩
  | some xs =>
    obtain ⟨s', e', h3, h4⟩ := update_ok h [xs] hi
    refine ⟨s', by simp only [new, h.set.empty, e, e'], h3, ?_⟩
    rw [h0] at h4
    simpa using h4

theorem copy_ok (h : Good S L O eqv I) (hs : Inv S L I s) :
    ∃ s', copy S L s = .ok s' ∧ Inv S L I s' ∧ (iter L s').Perm (iter L s) := by
  obtain ⟨s', e, h1, h2⟩ := fromset_ok h (S.copy s.set)
  refine ⟨s', e, h1, h1.perm.symm.trans ?_⟩
  rw [h2]
  exact (h.set.copy _).trans hs.perm

theorem difference_ok (h : Good S L O eqv I) (xss : List (List α)) (hs : Inv S L I s) :
    ∃ s', difference S L xss s = .ok s' ∧ Inv S L I s' ∧
      (iter L s').Perm ((iter L s).filter fun y => !xss.flatten.any (eqv · y)) := by
  obtain ⟨s', e, h1, h2⟩ := fromset_ok h (S.difference xss s.set)
  refine ⟨s', e, h1, h1.perm.symm.trans ?_⟩
  rw [h2]
  refine (h.set.difference xss s.set).trans ?_
  have : (fun y => !xss.flatten.any (eqv · y)) = fun y => !xss.any fun xs => xs.any (eqv · y) := by
    funext y; rw [List.any_flatten]
  rw [this]
  exact hs.perm.filter _

theorem intersection_ok (h : Good S L O eqv I) (xss : List (List α)) (hs : Inv S L I s) :
    ∃ s', intersection S L xss s = .ok s' ∧ Inv S L I s' ∧
      ∀ x, (iter L s').any (eqv · x) = ((iter L s).any (eqv · x) && xss.all fun xs => xs.any (eqv · x)) := by
  obtain ⟨s', e, h1, h2⟩ := fromset_ok h (S.intersection xss s.set)
  refine ⟨s', e, h1, fun x => ?_⟩
  rw [iter, ← any_perm h1.perm, h2, iter, ← any_perm hs.perm]
  exact h.set.intersection xss s.set x

theorem symmetricDifference_ok (h : Good S L O eqv I) (xs : List α) (hs : Inv S L I s) :
    ∃ s', symmetricDifference S L xs s = .ok s' ∧ Inv S L I s' ∧
      ∀ x, (iter L s').any (eqv · x) = ((iter L s).any (eqv · x) != xs.any (eqv · x)) := by
  obtain ⟨s', e, h1, h2⟩ := fromset_ok h (S.symmetricDifference xs s.set)
  refine ⟨s', e, h1, fun x => ?_⟩
  rw [iter, ← any_perm h1.perm, h2, iter, ← any_perm hs.perm]
  exact h.set.symmetricDifference xs s.set x

theorem union_ok (h : Good S L O eqv I) (xss : List (List α)) (hs : Inv S L I s) :
    ∃ s', union S L xss s = .ok s' ∧ Inv S L I s' ∧
      (iter L s').Perm (xss.flatten.foldl (addNew eqv) (iter L s)) := by
  obtain ⟨s', e, h1, h2⟩ := new_ok h (some (iter L s ++ xss.flatten))
  refine ⟨s', e, h1, h2.trans ?_⟩
  simp only [Option.getD_some, List.foldl_append]
  rw [foldl_addNew_of_distinct (l := []) (xs := iter L s) (Inv.distinct h hs)]
  simp only [List.any_nil, Bool.not_false, List.nil_append]
  rw [List.filter_eq_self.2 (fun _ _ => rfl)]

/-! ### Every call -/

theorem out_inv {β : Type} {f : β → Out α} {m : Py (SS τ σ) β} {P : SS τ σ → Prop} (h : P (m s).2) :
    P (Spec.out f m s).2 := by
  simp only [Spec.out]
  split <;> rename_i e <;> rw [e] at h <;> exact h

theorem step_inv (h : Good S L O eqv I) (hs : Inv S L I s) (op : SSOp α) (hv : op.Valid) :
    Inv S L I (step S L op s).2 := by
  have q : ∀ {β : Type} {m : Py σ β} {f : Py (List α) β}, Refines I L.iter m f → (∀ l, (f l).2 = l) →
      Inv S L I (onList m s).2 := by
    intro β m f hm hf
    obtain ⟨s', e, _, _, h'⟩ := onList_query hm hs hf
    rw [e]; exact h'
  have of : ∀ {β : Type} {m : Py (SS τ σ) β} {P : SS τ σ → Prop} {r : Except PyErr β}, (∃ s', m s = (r, s') ∧ Inv S L I s' ∧ P s') →
      Inv S L I (m s).2 := by
    rintro β m P r ⟨s', e, h', _⟩
    rw [e]; exact h'
  have vo : ∀ f, Inv S L I (valuesOf L f s).2 := by
    intro f; simp only [valuesOf]; split <;> exact hs
  cases op with
  | add v => exact out_inv (of (add_ok h hs v))
  | discard v => exact out_inv (of (discard_ok h hs v))
  | remove v =>
    refine out_inv (f := fun _ => .none) (m := remove S L v) ?_
    cases hv : (iter L s).any (eqv · v) with
    | true => exact of (removePresent_ok h hs hv)
    | false => rw [remove_absent h hs hv]; exact hs
  | pop i => exact out_inv (of (pop_ok h hs i))
  | delInt i => exact out_inv (of (delInt_ok h hs i))
  | delSlice sl => exact out_inv (of (delSlice_ok h hs sl))
  | clear => exact out_inv (of (clear_ok h hs))
  | update xss => exact out_inv (of (update_ok h xss hs))
  | differenceUpdate xss => exact out_inv (of (differenceUpdate_ok h xss hs))
  | intersectionUpdate xss => exact out_inv (of (intersectionUpdate_ok h xss hs))
  | symmetricDifferenceUpdate xs => exact out_inv (of (symmetricDifferenceUpdate_ok h xs hs))
  | getInt i => exact out_inv (q (h.list.getInt i) fun l => by simp only [Spec.getInt]; split <;> rfl)
  | getSlice sl => exact out_inv (q (h.list.getSlice sl) fun l => by simp only [Spec.getSlice]; split <;> rfl)
  | bisectLeft v => exact out_inv (q (h.list.bisectLeft v) fun _ => rfl)
  | bisectRight v => exact out_inv (q (h.list.bisectRight v) fun _ => rfl)
  | index v a b => exact out_inv (q (h.list.index v a b) fun l => by simp only [Spec.index]; split <;> rfl)
  | irange lo hi a b r => exact out_inv (q (h.list.irange lo hi a b r) fun _ => rfl)
  | islice a b r => exact out_inv (q (h.list.islice a b r) fun l => by simp only [Spec.islice]; split <;> rfl)
  | reset load => exact out_inv (q (h.list.reset load hv) fun _ => rfl)
  | copy => exact out_inv (vo _)
  | union xss => exact out_inv (vo _)
  | intersection xss => exact out_inv (vo _)
  | difference xss => exact out_inv (vo _)
  | symmetricDifference xs => exact out_inv (vo _)
  | _ => exact hs

theorem reachable_inv (h : Good S L O eqv I) (hs : Reachable S L s) : Inv S L I s := by
  induction hs with
  | new e =>
    rename_i xs s
    obtain ⟨s', e', h1, _⟩ := new_ok h xs
    rw [e] at e'; cases e'; exact h1
  | copy _ e ih => obtain ⟨s', e', h1, _⟩ := copy_ok h ih; rw [e] at e'; cases e'; exact h1
  | union _ e ih => obtain ⟨s', e', h1, _⟩ := union_ok h _ ih; rw [e] at e'; cases e'; exact h1
  | intersection _ e ih => obtain ⟨s', e', h1, _⟩ := intersection_ok h _ ih; rw [e] at e'; cases e'; exact h1
  | difference _ e ih => obtain ⟨s', e', h1, _⟩ := difference_ok h _ ih; rw [e] at e'; cases e'; exact h1
  | symmetricDifference _ e ih =>
    obtain ⟨s', e', h1, _⟩ := symmetricDifference_ok h _ ih; rw [e] at e'; cases e'; exact h1
  | step op hv _ ih => exact step_inv h ih op hv
  | keyCall hm _ ih =>
    obtain ⟨f, h1, h2⟩ := h.list.keyCall _ hm
    obtain ⟨s', e, _, _, h'⟩ := onList_query h1 ih h2
    rw [e]; exact h'

end SS
end Verif
