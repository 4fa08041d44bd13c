import Verif.Proofs.RobustAPI
import Verif.Proofs.Distinct
/-!
# SortedSet when nothing is known about comparisons: the two stores stay in step
-/

namespace Verif
namespace SS
variable {τ σ α : Type} {S : SetOps τ α} {L : ListAPI σ α} {eqv : α → α → Bool} {it : σ → List α} {W : σ → Prop}

/-- The built-in set and the sorted list hold the same values. -/
structure InStep (S : SetOps τ α) (it : σ → List α) (W : σ → Prop) (s : SS τ σ) : Prop where
  list : W s.list
  perm : (S.toList s.set).Perm (it s.list)

variable {s s' : SS τ σ}

theorem lawful_equiv (hS : S.Lawful eqv) : IsEquiv eqv := ⟨hS.refl, hS.symm, hS.trans⟩

theorem InStep.distinct (hS : S.Lawful eqv) (hs : InStep S it W s) : Distinct eqv (it s.list) :=
  Distinct.perm (lawful_equiv hS) hs.perm (hS.distinct _)

theorem InStep.mem (hS : S.Lawful eqv) (hs : InStep S it W s) (v : α) : S.mem v s.set = (it s.list).any (eqv · v) := by
  rw [hS.mem, any_perm hs.perm]

theorem InStep.len (hS : S.Lawful eqv) (hs : InStep S it W s) : S.len s.set = (it s.list).length := by
  rw [hS.len, hs.perm.length_eq]

theorem wild_setRemove (hS : S.Lawful eqv) {v : α} (hp : (S.toList s.set).any (eqv · v) = true) :
    ∃ t, setRemove S v s = (.ok (), { s with set := t }) ∧
      (S.toList t).Perm ((S.toList s.set).filter fun y => !eqv y v) := by
  obtain ⟨t, e, h1⟩ := hS.remove v s.set hp
  exact ⟨t, by simp only [setRemove, e], h1⟩

theorem wild_onList {β : Type} {m : Py σ β} {f : Py (List α) β} (hm : Refines W it m f) (hi : W s.list)
    {r : Except PyErr β} {l : List α} (hf : f (it s.list) = (r, l)) :
    ∃ l', onList m s = (r, { s with list := l' }) ∧ it l' = l ∧ W l' := by
  obtain ⟨l', e, h1, h2⟩ := hm.eq_of hi hf
  exact ⟨l', by simp only [onList, e], h1, h2⟩

theorem wild_query {β : Type} {m : Py σ β} {f : Py (List α) β} (hm : Refines W it m f) (hs : InStep S it W s)
    (hf : ∀ l, (f l).2 = l) :
    ∃ s', onList m s = ((f (it s.list)).1, s') ∧ it s'.list = it s.list ∧ s'.set = s.set ∧ InStep S it W s' := by
  obtain ⟨l', e, h1, h2⟩ := wild_onList (l := it s.list) hm hs.list (Prod.ext rfl (hf _))
  exact ⟨_, e, h1, rfl, h2, by rw [h1]; exact hs.perm⟩

/-- Splitting a call that returned. -/
theorem bind_returned {σ' β γ : Type} {m : Py σ' β} {f : β → Py σ' γ} {s s' : σ'} {r : γ} (h : (m >>= f) s = (.ok r, s')) :
    ∃ b s1, m s = (.ok b, s1) ∧ f b s1 = (.ok r, s') := by
  rw [Py.bind_apply] at h
  rcases hm : m s with ⟨_ | b, s1⟩
  · rw [hm] at h; cases h
  · rw [hm] at h; exact ⟨b, s1, rfl, h⟩

theorem onList_returned {β : Type} {m : Py σ β} {r : β} (h : onList m s = (.ok r, s')) :
    m s.list = (.ok r, s'.list) ∧ s'.set = s.set := by
  unfold onList at h
  have h1 := congrArg Prod.fst h
  have h2 := congrArg Prod.snd h
  dsimp only at h1 h2
  subst h2
  exact ⟨Prod.ext h1 rfl, rfl⟩

theorem filter_perm_removed (he : IsEquiv eqv) {l l' : List α} (hd : Distinct eqv l) {v : α}
    (h : Removed (fun x => eqv x v = true) l l') : l' = l.filter fun y => !eqv y v := by
  obtain ⟨X, x, Y, rfl, rfl, hx⟩ := h
  unfold Distinct at hd
  rw [List.pairwise_append] at hd
  obtain ⟨_, h2, h3⟩ := hd
  rw [List.pairwise_cons] at h2
  have hno : ∀ y, eqv y x = false → eqv y v = false := fun y hy => by rw [← he.congr hx y]; exact hy
  rw [List.filter_append, List.filter_cons, hx]
  simp only [Bool.not_true, Bool.false_eq_true, if_false]
  rw [List.filter_eq_self.2, List.filter_eq_self.2]
  · intro y hy; rw [hno y (by rw [he.symm]; exact h2.1 y hy)]; rfl
  · intro y hy; rw [hno y (h3 y hy x (by simp))]; rfl

section
variable (hS : S.Lawful eqv) (hL : L.Robust eqv it W)
include hS hL

theorem wild_add (hs : InStep S it W s) (v : α) (e : add S L v s = (.ok (), s')) :
    InStep S it W s' ∧ (it s'.list).Perm (addNew eqv (it s.list) v) := by
  unfold add at e
  simp only [Py.get_bind, hs.mem hS, Py.ite_apply'] at e
  unfold addNew
  split at e
  · rename_i hv
    cases e
    rw [if_pos hv]
    exact ⟨hs, .refl _⟩
  · rename_i hv
    simp only [onSet, Py.modify_bind] at e
    rw [if_neg hv]
    obtain ⟨h1, h2⟩ := onList_returned e
    rcases hL.add v hs.list with ⟨_, he⟩ | ⟨l, he, h3, h4⟩
    · rw [he] at h1; cases h1
    · rw [he] at h1
      cases h1
      have hp : (it s'.list).Perm (it s.list ++ [v]) := h4.trans (List.perm_append_singleton _ _).symm
      refine ⟨⟨h3, ?_⟩, hp⟩
      rw [h2]
      refine (hS.add v s.set).trans ?_
      rw [addNew, any_perm hs.perm, if_neg hv]
      exact (hs.perm.append_right _).trans hp.symm

/-- `add` never raises when the value is there; if it raises, the value is in the built-in set only. -/
theorem wild_remove (hs : InStep S it W s) (v : α) (e : remove S L v s = (.ok (), s')) :
    InStep S it W s' ∧ it s'.list = (it s.list).filter fun y => !eqv y v := by
  unfold remove at e
  obtain ⟨_, s1, e1, e2⟩ := bind_returned e
  cases hm : (S.toList s.set).any (eqv · v) with
  | false =>
    have := hS.remove_absent v s.set hm
    simp only [setRemove, this] at e1
    cases e1
  | true =>
    obtain ⟨t, e', ht⟩ := wild_setRemove hS hm
    rw [e'] at e1
    cases e1
    obtain ⟨h1, h2⟩ := onList_returned e2
    rcases hL.remove v hs.list with ⟨_, he⟩ | ⟨l, he, h3, h4⟩
    · rw [he] at h1; cases h1
    · rw [he] at h1
      cases h1
      have hl := filter_perm_removed (lawful_equiv hS) (hs.distinct hS) h4
      refine ⟨⟨h3, ?_⟩, hl⟩
      rw [h2, hl]
      exact ht.trans (hs.perm.filter _)

omit hL in
theorem wild_remove_absent (hs : InStep S it W s) {v : α} (hv : (it s.list).any (eqv · v) = false) :
    remove S L v s = (.error .keyError, s) := by
  have := hS.remove_absent v s.set (by rw [any_perm hs.perm]; exact hv)
  unfold remove
  exact Py.bind_error (by simp only [setRemove, this])

theorem wild_discard (hs : InStep S it W s) (v : α) (e : discard S L v s = (.ok (), s')) :
    InStep S it W s' ∧ it s'.list = (it s.list).filter fun y => !eqv y v := by
  unfold discard at e
  simp only [Py.get_bind, hs.mem hS, Py.ite_apply'] at e
  split at e
  · exact wild_remove hS hL hs v e
  · rename_i hv
    cases e
    refine ⟨hs, (List.filter_eq_self.2 fun y hy => ?_).symm⟩
    cases hyv : eqv y v
    · rfl
    · exact absurd (List.any_eq_true.2 ⟨y, hy, hyv⟩) hv

theorem wild_pop (hs : InStep S it W s) (i : Int) :
    ∃ s', pop S L i s = ((Spec.pop i (it s.list)).1, s') ∧ InStep S it W s' ∧ it s'.list = (Spec.pop i (it s.list)).2 := by
  unfold pop
  rcases hq : Spec.pop i (it s.list) with ⟨r, l⟩
  obtain ⟨l', e, h1, h2⟩ := wild_onList (hL.pop i) hs.list hq
  cases r with
  | error x =>
    refine ⟨_, Py.bind_error e, ⟨h2, ?_⟩, h1⟩
    have : l = it s.list := by
      simp only [Spec.pop] at hq
      split at hq
      · cases hq; rfl
      · split at hq
        · cases hq
        · cases hq; rfl
    show (S.toList s.set).Perm (it l')
    rw [h1, this]; exact hs.perm
  | ok v =>
    obtain ⟨p, hp, hl⟩ : ∃ p, (it s.list)[p]? = some v ∧ l = (it s.list).eraseIdx p := by
      simp only [Spec.pop] at hq
      split at hq
      · cases hq
      · rename_i p hpos
        split at hq
        · rename_i w hw
          cases hq
          exact ⟨p, hw, rfl⟩
        · cases hq
    rw [Py.bind_ok e]
    obtain ⟨t, e', ht⟩ := wild_setRemove (eqv := eqv) hS (s := { s with list := l' }) (v := v)
      (by show (S.toList s.set).any _ = true
          rw [any_perm hs.perm]; exact any_self (lawful_equiv hS) (List.mem_of_getElem? hp))
    rw [Py.bind_ok e']
    refine ⟨_, rfl, ⟨h2, ?_⟩, h1⟩
    show (S.toList t).Perm (it l')
    rw [h1, hl, ← (hs.distinct hS).filter_position (lawful_equiv hS) hp]
    exact ht.trans (hs.perm.filter _)

theorem wild_delInt (hs : InStep S it W s) (i : Int) :
    ∃ s', delInt S L i s = ((Spec.delInt i (it s.list)).1, s') ∧ InStep S it W s' ∧
      it s'.list = (Spec.delInt i (it s.list)).2 := by
  unfold delInt
  obtain ⟨s1, e, h1, h1s, hi1⟩ := wild_query (hL.getInt i) hs (fun l => by simp only [Spec.getInt]; split <;> rfl)
  rcases hpos : Spec.position (it s.list).length i with _ | p
  · have hg : (Spec.getInt i (it s.list)).1 = .error .indexError := by
      simp only [Spec.getInt, hpos, Option.bind_none]
    have hd : Spec.delInt i (it s.list) = (.error .indexError, it s.list) := by
      simp only [Spec.delInt, hpos]
    rw [hg] at e
    rw [hd]
    exact ⟨s1, Py.bind_error e, hi1, h1⟩
  · have hd : Spec.delInt i (it s.list) = (.ok (), (it s.list).eraseIdx p) := by
      simp only [Spec.delInt, hpos]
    have hlt : p < (it s.list).length := by
      simp only [Spec.position] at hpos
      split at hpos
      · cases hpos; omega
      · split at hpos
        · cases hpos; omega
        · cases hpos
    have hp : (it s.list)[p]? = some (it s.list)[p] := List.getElem?_eq_getElem hlt
    have hg : (Spec.getInt i (it s.list)).1 = .ok (it s.list)[p] := by
      simp only [Spec.getInt, hpos, Option.bind_some, hp]
    rw [hg] at e
    rw [hd, Py.bind_ok e]
    obtain ⟨t, e', ht⟩ := wild_setRemove (eqv := eqv) hS (s := s1) (v := (it s.list)[p])
      (by rw [h1s, any_perm hs.perm]; exact any_self (lawful_equiv hS) (List.getElem_mem _))
    rw [Py.bind_ok e']
    obtain ⟨l', e2, h3, h4⟩ := wild_onList (s := { s1 with set := t }) (hL.delInt i) hi1.list
      (r := .ok ()) (l := (it s.list).eraseIdx p) (by show Spec.delInt i (it s1.list) = _; rw [h1, hd])
    refine ⟨_, e2, ⟨h4, ?_⟩, h3⟩
    show (S.toList t).Perm (it l')
    rw [h3, ← (hs.distinct hS).filter_position (lawful_equiv hS) hp]
    rw [h1s] at ht
    exact ht.trans (hs.perm.filter _)

omit hS in
theorem wild_delSlice_error (hs : InStep S it W s) {sl : PySlice} {x : PyErr} (h : (Spec.delSlice sl (it s.list)).1 = .error x) :
    (delSlice S L sl s).1 = .error x := by
  unfold delSlice
  obtain ⟨s1, e, h1, h1s, hi1⟩ := wild_query (hL.getSlice sl) hs
    (fun l => by simp only [Spec.getSlice]; split <;> rfl)
  rcases hpos : Spec.slicePositions sl (it s.list).length with x' | ps
  · have hg : (Spec.getSlice sl (it s.list)).1 = .error x' := by simp only [Spec.getSlice, hpos]
    have hd : Spec.delSlice sl (it s.list) = (.error x', it s.list) := by simp only [Spec.delSlice, hpos]
    rw [hg] at e
    rw [hd] at h
    rw [Py.bind_error e]; exact h
  · simp only [Spec.delSlice, hpos] at h; cases h

theorem wild_delSlice (hs : InStep S it W s) (sl : PySlice) (e : delSlice S L sl s = (.ok (), s')) :
    InStep S it W s' ∧ (Spec.delSlice sl (it s.list)).1 = .ok () ∧ (it s'.list).Perm (Spec.delSlice sl (it s.list)).2 := by
  unfold delSlice at e
  obtain ⟨s1, e1, h1, h1s, hi1⟩ := wild_query (hL.getSlice sl) hs
    (fun l => by simp only [Spec.getSlice]; split <;> rfl)
  rcases hpos : Spec.slicePositions sl (it s.list).length with x | ps
  · have hg : (Spec.getSlice sl (it s.list)).1 = .error x := by simp only [Spec.getSlice, hpos]
    rw [hg] at e1
    rw [Py.bind_error e1] at e
    cases e
  · have hd : Spec.delSlice sl (it s.list) = (.ok (), Spec.deletePositions ps (it s.list)) := by
      simp only [Spec.delSlice, hpos]
    have hg : (Spec.getSlice sl (it s.list)).1 = .ok (ps.filterMap ((it s.list)[·]?)) := by
      simp only [Spec.getSlice, hpos]
    rw [hg] at e1
    rw [Py.bind_ok e1] at e
    simp only [onSet, Py.modify_bind] at e
    revert e
    generalize hvs : ps.filterMap ((it s.list)[·]?) = vs
    intro e
    obtain ⟨h2, h3⟩ := onList_returned e
    obtain ⟨h4, h5⟩ := hL.delSlice hi1.list h2
    rw [h1, hd] at h5
    rw [hd]
    refine ⟨⟨h4, ?_⟩, rfl, h5⟩
    rw [h3]
    refine List.Perm.trans ?_ h5.symm
    rw [← (hs.distinct hS).filter_positions (lawful_equiv hS), hvs]
    show (S.toList (S.differenceUpdate vs s1.set)).Perm _
    rw [h1s]
    exact (hS.differenceUpdate vs s.set).trans (hs.perm.filter _)

theorem wild_clear (hs : InStep S it W s) :
    ∃ s', clear S L s = (.ok (), s') ∧ InStep S it W s' ∧ it s'.list = [] := by
  unfold clear
  simp only [onSet, Py.modify_bind]
  obtain ⟨l', e, h1, h2⟩ := wild_onList (s := { s with set := S.empty }) hL.clear hs.list rfl
  refine ⟨_, e, ⟨h2, ?_⟩, h1⟩
  show (S.toList S.empty).Perm (it l')
  rw [h1, hS.empty]

omit hS in
theorem wild_rebuild (hi : W s.list) (e : rebuild S L s = (.ok (), s')) : InStep S it W s' ∧ s'.set = s.set := by
  unfold rebuild at e
  obtain ⟨l', e1, h1, h2⟩ := wild_onList hL.clear hi rfl
  rw [Py.bind_ok e1] at e
  simp only [Py.get_bind] at e
  obtain ⟨h3, h4⟩ := onList_returned e
  obtain ⟨h5, h6⟩ := hL.update h2 h3
  rw [h1] at h6
  refine ⟨⟨h5, ?_⟩, h4⟩
  rw [h4]
  exact h6.symm

theorem wild_forEach_add (vs : List α) (hs : InStep S it W s) (e : Py.forEach (add S L) vs s = (.ok (), s')) :
    InStep S it W s' ∧ (it s'.list).Perm (vs.foldl (addNew eqv) (it s.list)) := by
  induction vs generalizing s with
  | nil => cases e; exact ⟨hs, .refl _⟩
  | cons v vs ih =>
    obtain ⟨_, s1, e1, e2⟩ := bind_returned e
    obtain ⟨h1, h2⟩ := wild_add hS hL hs v e1
    obtain ⟨h3, h4⟩ := ih h1 e2
    refine ⟨h3, h4.trans ?_⟩
    rw [List.foldl_cons]
    exact foldl_addNew_perm h2 vs

theorem wild_forEach_discard (vs : List α) (hs : InStep S it W s) (e : Py.forEach (discard S L) vs s = (.ok (), s')) :
    InStep S it W s' ∧ it s'.list = (it s.list).filter fun y => !vs.any (eqv · y) := by
  induction vs generalizing s with
  | nil => cases e; exact ⟨hs, (List.filter_eq_self.2 fun _ _ => rfl).symm⟩
  | cons v vs ih =>
    obtain ⟨_, s1, e1, e2⟩ := bind_returned e
    obtain ⟨h1, h2⟩ := wild_discard hS hL hs v e1
    obtain ⟨h3, h4⟩ := ih h1 e2
    refine ⟨h3, ?_⟩
    rw [h4, h2, List.filter_filter]
    refine List.filter_congr fun y _ => ?_
    rw [List.any_cons, Bool.not_or, Bool.and_comm, hS.symm y v]

theorem wild_update (xss : List (List α)) (hs : InStep S it W s) (e : update S L xss s = (.ok (), s')) :
    InStep S it W s' ∧ (it s'.list).Perm (xss.flatten.foldl (addNew eqv) (it s.list)) := by
  unfold update at e
  simp only [Py.get_bind, Py.ite_apply'] at e
  have hv := hS.ofList xss.flatten
  split at e
  · simp only [onSet, Py.modify_bind] at e
    obtain ⟨h1, h2⟩ := wild_rebuild hL (s := { s with set := S.update (S.toList (S.ofList xss.flatten)) s.set }) hs.list e
    refine ⟨h1, h1.perm.symm.trans ?_⟩
    rw [h2]
    refine (hS.update _ s.set).trans ?_
    exact (foldl_addNew_perm hs.perm _).trans (foldl_addNew_ofList (lawful_equiv hS) _ hv)
  · obtain ⟨h1, h2⟩ := wild_forEach_add hS hL (S.toList (S.ofList xss.flatten)) hs e
    exact ⟨h1, h2.trans (foldl_addNew_ofList (lawful_equiv hS) _ hv)⟩

omit hL in
theorem wild_any_ofList (xs : List α) (x : α) : (S.toList (S.ofList xs)).any (eqv · x) = xs.any (eqv · x) := by
  rw [any_perm (hS.ofList xs), any_foldl_addNew (lawful_equiv hS)]; rfl

theorem wild_differenceUpdate (xss : List (List α)) (hs : InStep S it W s) (e : differenceUpdate S L xss s = (.ok (), s')) :
    InStep S it W s' ∧ (it s'.list).Perm ((it s.list).filter fun y => !xss.flatten.any (eqv · y)) := by
  unfold differenceUpdate at e
  simp only [Py.get_bind, Py.ite_apply'] at e
  split at e
  · simp only [onSet, Py.modify_bind] at e
    obtain ⟨h1, h2⟩ := wild_rebuild hL
      (s := { s with set := S.differenceUpdate (S.toList (S.ofList xss.flatten)) s.set }) hs.list e
    refine ⟨h1, h1.perm.symm.trans ?_⟩
    rw [h2]
    refine (hS.differenceUpdate _ s.set).trans ?_
    simp only [wild_any_ofList hS]
    exact hs.perm.filter _
  · obtain ⟨h1, h2⟩ := wild_forEach_discard hS hL (S.toList (S.ofList xss.flatten)) hs e
    refine ⟨h1, ?_⟩
    rw [h2]
    simp only [wild_any_ofList hS]
    exact .refl _

theorem wild_intersectionUpdate (xss : List (List α)) (hs : InStep S it W s) (e : intersectionUpdate S L xss s = (.ok (), s')) :
    InStep S it W s' ∧
      ∀ x, (it s'.list).any (eqv · x) = ((it s.list).any (eqv · x) && xss.all fun xs => xs.any (eqv · x)) := by
  unfold intersectionUpdate at e
  simp only [onSet, Py.modify_bind] at e
  obtain ⟨h1, h2⟩ := wild_rebuild hL (s := { s with set := S.intersectionUpdate xss s.set }) hs.list e
  refine ⟨h1, fun x => ?_⟩
  rw [← any_perm h1.perm, h2, ← any_perm hs.perm]
  exact hS.intersectionUpdate xss s.set x

theorem wild_symmetricDifferenceUpdate (xs : List α) (hs : InStep S it W s)
    (e : symmetricDifferenceUpdate S L xs s = (.ok (), s')) :
    InStep S it W s' ∧ ∀ x, (it s'.list).any (eqv · x) = ((it s.list).any (eqv · x) != xs.any (eqv · x)) := by
  unfold symmetricDifferenceUpdate at e
  simp only [onSet, Py.modify_bind] at e
  obtain ⟨h1, h2⟩ := wild_rebuild hL (s := { s with set := S.symmetricDifferenceUpdate xs s.set }) hs.list e
  refine ⟨h1, fun x => ?_⟩
  rw [← any_perm h1.perm, h2, ← any_perm hs.perm]
  exact hS.symmetricDifferenceUpdate xs s.set x

omit hS in
theorem wild_reset {load : Nat} (hl : 1 ≤ load) (hs : InStep S it W s) (e : onList (L.reset load) s = (.ok (), s')) :
    InStep S it W s' ∧ (it s'.list).Perm (it s.list) := by
  obtain ⟨h1, h2⟩ := onList_returned e
  obtain ⟨h3, h4⟩ := hL.reset hs.list hl h1
  exact ⟨⟨h3, by rw [h2]; exact hs.perm.trans h4.symm⟩, h4⟩

omit hS in
theorem wild_fromset {t : τ} (e : fromset S L t = .ok s) : InStep S it W s ∧ s.set = t := by
  unfold fromset at e
  split at e
  · rename_i l el
    cases e
    obtain ⟨h1, h2⟩ := hL.new el
    exact ⟨⟨h1, h2.symm⟩, rfl⟩
  · cases e

theorem wild_new {xs : Option (List α)} (e : new S L xs = .ok s) :
    InStep S it W s ∧ (it s.list).Perm ((xs.getD []).foldl (addNew eqv) []) := by
  unfold new at e
  split at e
  · cases e
  · rename_i l el
    obtain ⟨h1, h2⟩ := hL.new el
    rw [Option.getD_some, hS.empty, List.perm_nil] at h2
    have hi : InStep S it W ⟨S.empty, l⟩ := ⟨h1, by rw [hS.empty, h2]⟩
    cases xs with
    | none => cases e; exact ⟨hi, by rw [h2]; exact .refl _⟩
    | some xs =>
      dsimp only at e
      split at e
      · rename_i s1 eu
        cases e
        obtain ⟨h3, h4⟩ := wild_update hS hL [xs] hi eu
        refine ⟨h3, ?_⟩
        rw [show it (SS.mk S.empty l).list = [] from h2] at h4
        simpa using h4
      · cases e

theorem wild_union {t : SS τ σ} (xss : List (List α)) (hs : InStep S it W s) (e : union S L xss s = .ok t) :
    InStep S it W t ∧ (it t.list).Perm (xss.flatten.foldl (addNew eqv) (it s.list)) := by
  obtain ⟨h1, h2⟩ := wild_new hS hL e
  refine ⟨h1, h2.trans ?_⟩
  simp only [Option.getD_some, iter, hL.iter, List.foldl_append]
  rw [foldl_addNew_of_distinct (l := []) (xs := it s.list) (hs.distinct hS)]
  simp only [List.any_nil, Bool.not_false, List.nil_append]
  rw [List.filter_eq_self.2 (fun _ _ => rfl)]

end

end SS
end Verif
