import Verif.Proofs.RobustAPI
import Verif.Proofs.WildSet
import Verif.Proofs.SortedDict
/-!
# SortedDict when nothing is known about comparisons: the two stores stay in step
-/

namespace Verif
namespace DictSpec
open PyDict
variable {κ ν : Type} {eqv : κ → κ → Bool}

theorem itemsIn_map {ks : List κ} {d : List (κ × ν)} (h : ∀ k ∈ ks, ∃ v, lookup eqv d k = some v) :
    (itemsIn eqv ks d).map some = ks.map fun k => (lookup eqv d k).map fun v => (k, v) :=
  filterMap_eq_map fun k hk => by
    obtain ⟨v, hv⟩ := h k hk
    exact ⟨(k, v), by simp [hv]⟩

theorem itemsIn_length {ks : List κ} {d : List (κ × ν)} (h : ∀ k ∈ ks, ∃ v, lookup eqv d k = some v) :
    (itemsIn eqv ks d).length = ks.length := by
  have := congrArg List.length (itemsIn_map h)
  simpa using this

theorem itemsIn_getElem? {ks : List κ} {d : List (κ × ν)} (h : ∀ k ∈ ks, ∃ v, lookup eqv d k = some v) (i : Nat) :
    (itemsIn eqv ks d)[i]? = (ks[i]?).bind fun k => (lookup eqv d k).map fun v => (k, v) := by
  have := congrArg (·[i]?) (itemsIn_map h)
  simp only [List.getElem?_map] at this
  cases h1 : ks[i]? with
  | none =>
    rw [h1] at this
    cases h2 : (itemsIn eqv ks d)[i]? with
    | none => rfl
    | some p => rw [h2] at this; cases this
  | some k =>
    rw [h1] at this
    cases h2 : (itemsIn eqv ks d)[i]? with
    | none => rw [h2] at this; cases this
    | some p => rw [h2] at this; simp only [Option.map_some, Option.some.injEq] at this; rw [this]; rfl

theorem keys_itemsIn {ks : List κ} {d : List (κ × ν)} (h : ∀ k ∈ ks, ∃ v, lookup eqv d k = some v) :
    keys (itemsIn eqv ks d) = ks := by
  apply List.ext_getElem?
  intro i
  unfold keys
  rw [List.getElem?_map, itemsIn_getElem? h]
  cases h1 : ks[i]? with
  | none => rfl
  | some k =>
    obtain ⟨v, hv⟩ := h k (List.mem_of_getElem? h1)
    simp [hv]

theorem lookup_itemsIn (he : IsEquiv eqv) {ks : List κ} {d : List (κ × ν)} (hd : Keyed eqv d) (hp : (keys d).Perm ks) (k : κ) :
    lookup eqv (itemsIn eqv ks d) k = lookup eqv d k := by
  have h : ∀ k ∈ ks, ∃ v, lookup eqv d k = some v := fun k hk => by
    apply lookup_some
    rw [has_eq, any_perm hp]
    exact any_self he hk
  have hk : Keyed eqv (itemsIn eqv ks d) := by
    unfold Keyed; rw [keys_itemsIn h]; exact Distinct.perm he hp hd
  cases hl : lookup eqv d k with
  | none =>
    apply lookup_none
    rw [has_eq, keys_itemsIn h, ← any_perm hp, ← has_eq, has_eq_lookup, hl]; rfl
  | some v =>
    obtain ⟨k', hk', hm⟩ := mem_of_lookup hl
    refine (lookup_of_keyed he hk k v).2 ⟨k', hk', ?_⟩
    refine List.mem_filterMap.2 ⟨k', hp.mem_iff.1 (List.mem_map.2 ⟨_, hm, rfl⟩), ?_⟩
    rw [lookup_mem he hd hm]; rfl

theorem getInt_itemsIn {ks : List κ} {d : List (κ × ν)} (h : ∀ k ∈ ks, ∃ v, lookup eqv d k = some v) (i : Int) :
    (∃ p k v, Spec.position ks.length i = some p ∧ ks[p]? = some k ∧ lookup eqv d k = some v ∧
      (Spec.getInt i ks).1 = .ok k ∧ (Spec.getInt i (itemsIn eqv ks d)).1 = .ok (k, v)) ∨
    (Spec.position ks.length i = none ∧ (Spec.getInt i ks).1 = .error .indexError ∧
      (Spec.getInt i (itemsIn eqv ks d)).1 = .error .indexError) := by
  unfold Spec.getInt
  rw [itemsIn_length h]
  cases hp : Spec.position ks.length i with
  | none => exact .inr ⟨rfl, rfl, rfl⟩
  | some p =>
    have hlt := position_lt hp
    obtain ⟨v, hv⟩ := h _ (List.getElem_mem hlt)
    refine .inl ⟨p, ks[p], v, rfl, by simp, hv, ?_, ?_⟩
    · simp [hlt]
    · simp only [Option.bind_some]
      rw [itemsIn_getElem? h]; simp [hlt, hv]

theorem getInt_map_snd (l : List (κ × ν)) (i : Int) : (Spec.getInt i (l.map Prod.snd)).1 = (Spec.getInt i l).1.map Prod.snd := by
  unfold Spec.getInt
  rw [List.length_map]
  cases Spec.position l.length i with
  | none => rfl
  | some p =>
    simp only [Option.bind_some, List.getElem?_map]
    cases l[p]? <;> rfl

theorem getSlice_itemsIn {ks : List κ} {d : List (κ × ν)} (h : ∀ k ∈ ks, ∃ v, lookup eqv d k = some v) (sl : PySlice) :
    (∃ ks' ps, (Spec.getSlice sl ks).1 = .ok ks' ∧ (Spec.getSlice sl (itemsIn eqv ks d)).1 = .ok ps ∧
      (Spec.getSlice sl ((itemsIn eqv ks d).map Prod.snd)).1 = .ok (ps.map Prod.snd) ∧
      ks'.map (fun k => (lookup eqv d k).map fun v => (k, v)) = ps.map some) ∨
    (∃ e, (Spec.getSlice sl ks).1 = .error e ∧ (Spec.getSlice sl (itemsIn eqv ks d)).1 = .error e ∧
      (Spec.getSlice sl ((itemsIn eqv ks d).map Prod.snd)).1 = .error e) := by
  unfold Spec.getSlice
  rw [List.length_map, itemsIn_length h]
  cases hp : Spec.slicePositions sl ks.length with
  | error e => exact .inr ⟨e, rfl, rfl, rfl⟩
  | ok ps =>
    refine .inl ⟨_, _, rfl, rfl, ?_, ?_⟩
    · simp only [Except.ok.injEq, List.map_filterMap]
      congr 1; funext i
      simp
    · clear hp
      induction ps with
      | nil => rfl
      | cons p ps ih =>
        rw [List.filterMap_cons, List.filterMap_cons, itemsIn_getElem? h]
        cases hk : ks[p]? with
        | none => exact ih
        | some k =>
          obtain ⟨v, hv⟩ := h k (List.mem_of_getElem? hk)
          simp only [Option.bind_some, hv, Option.map_some, List.map_cons]
          rw [ih]

theorem keys_eraseAll (he : IsEquiv eqv) (d : List (κ × ν)) (ks : List κ) :
    keys (eraseAll eqv ks d) = (keys d).filter fun y => !ks.any (eqv · y) := by
  unfold eraseAll
  induction ks generalizing d with
  | nil => exact (List.filter_eq_self.2 fun _ _ => rfl).symm
  | cons k ks ih =>
    rw [List.foldl_cons, ih, keys_erase, List.filter_filter]
    refine List.filter_congr fun y _ => ?_
    rw [List.any_cons, he.symm k y]
    cases eqv y k <;> cases ks.any (eqv · y) <;> rfl

end DictSpec

namespace SD
open PyDict DictSpec
variable {κ ν σ : Type} {L : ListAPI σ κ} {eqv : κ → κ → Bool} {it : σ → List κ} {W : σ → Prop} {s s' : SD κ ν σ}

/-- The sorted list holds the keys of the built-in dict. -/
structure InStep (eqv : κ → κ → Bool) (it : σ → List κ) (W : σ → Prop) (s : SD κ ν σ) : Prop where
  list : W s.list
  keyed : Keyed eqv s.dict
  perm : (keys s.dict).Perm (it s.list)

theorem InStep.has (hs : InStep eqv it W s) (k : κ) : has eqv s.dict k = (it s.list).any (eqv · k) := by
  rw [has_eq, any_perm hs.perm]

theorem InStep.distinct (he : IsEquiv eqv) (hs : InStep eqv it W s) : Distinct eqv (it s.list) :=
  Distinct.perm he hs.perm hs.keyed

theorem InStep.lookup (he : IsEquiv eqv) (hs : InStep eqv it W s) : ∀ k ∈ it s.list, ∃ v, lookup eqv s.dict k = some v :=
  fun k hk => lookup_some (by rw [hs.has]; exact any_self he hk)

theorem wild_onList {β : Type} {m : Py σ β} {f : Py (List κ) β} (hm : Refines W it m f) (hi : W s.list)
    {r : Except PyErr β} {l : List κ} (hf : f (it s.list) = (r, l)) :
    ∃ l', onList m s = (r, { s with list := l' }) ∧ it l' = l ∧ W l' := by
  obtain ⟨l', e, h1, h2⟩ := hm.eq_of hi hf
  exact ⟨l', by simp only [onList, e], h1, h2⟩

theorem wild_query {β : Type} {m : Py σ β} {f : Py (List κ) β} (hm : Refines W it m f) (hs : InStep eqv it W s)
    (hf : ∀ l, (f l).2 = l) :
    ∃ l', onList m s = ((f (it s.list)).1, { s with list := l' }) ∧ it l' = it s.list ∧ InStep eqv it W { s with list := l' } := by
  obtain ⟨l', e, h1, h2⟩ := wild_onList (l := it s.list) hm hs.list (Prod.ext rfl (hf _))
  exact ⟨_, e, h1, h2, hs.keyed, by show (keys s.dict).Perm (it l'); rw [h1]; exact hs.perm⟩

theorem onList_returned {β : Type} {m : Py σ β} {r : β} (h : onList m s = (.ok r, s')) :
    m s.list = (.ok r, s'.list) ∧ s'.dict = s.dict := by
  unfold onList at h
  have h1 := congrArg Prod.fst h
  have h2 := congrArg Prod.snd h
  dsimp only at h1 h2
  subst h2
  exact ⟨Prod.ext h1 rfl, rfl⟩

theorem getInt_snd {α : Type} (i : Int) (l : List α) : (Spec.getInt i l).2 = l := by unfold Spec.getInt; split <;> rfl

section
variable (he : IsEquiv eqv) (hL : L.Robust eqv it W)
include he hL

omit he in
theorem wild_list_add (hs : InStep eqv it W s) {k : κ} (hk : PyDict.has eqv s.dict k = false) (v : ν)
    (e : L.add k s.list = (.ok (), s'.list)) (hd : s'.dict = PyDict.set eqv s.dict k v) : InStep eqv it W s' := by
  rcases hL.add k hs.list with ⟨_, he⟩ | ⟨l, he, h3, h4⟩
  · rw [he] at e; cases e
  · rw [he] at e; cases e
    refine ⟨h3, by rw [hd]; exact hs.keyed.set k v, ?_⟩
    rw [hd, keys_set, addNew, ← has_eq, hk]
    exact (hs.perm.append_right [k]).trans ((List.perm_append_singleton _ _).trans h4.symm)

theorem wild_list_remove (hs : InStep eqv it W s) {k : κ} (e : L.remove k s.list = (.ok (), s'.list))
    (hd : s'.dict = erase eqv s.dict k) : InStep eqv it W s' := by
  rcases hL.remove k hs.list with ⟨_, he⟩ | ⟨l, he', h3, h4⟩
  · rw [he] at e; cases e
  · rw [he'] at e; cases e
    refine ⟨h3, by rw [hd]; exact hs.keyed.erase k, ?_⟩
    rw [hd, keys_erase, SS.filter_perm_removed he (hs.distinct he) h4]
    exact hs.perm.filter _

omit he in
theorem wild_setitem (hs : InStep eqv it W s) (k : κ) (v : ν) (e : setitem eqv L k v s = (.ok (), s')) :
    InStep eqv it W s' ∧ s'.dict = PyDict.set eqv s.dict k v := by
  unfold setitem at e
  simp only [Py.get_bind] at e
  rcases Bool.eq_false_or_eq_true (PyDict.has eqv s.dict k) with hk | hk
  · simp only [show contains eqv k s = _ from hk, if_true] at e
    cases e
    refine ⟨⟨hs.list, hs.keyed.set k v, ?_⟩, rfl⟩
    show (keys (PyDict.set eqv s.dict k v)).Perm (it s.list)
    rw [keys_set, addNew, ← has_eq, hk]
    exact hs.perm
  · simp only [show contains eqv k s = _ from hk] at e
    obtain ⟨_, s1, e1, e2⟩ := SS.bind_returned e
    obtain ⟨h1, h2⟩ := onList_returned e1
    cases e2
    have hd : PyDict.set eqv s1.dict k v = PyDict.set eqv s.dict k v := by rw [h2]
    exact ⟨wild_list_add hL hs hk v h1 hd, hd⟩

theorem wild_delitem (hs : InStep eqv it W s) {k : κ} (e : delitem eqv L k s = (.ok (), s')) :
    PyDict.has eqv s.dict k = true ∧ InStep eqv it W s' ∧ s'.dict = erase eqv s.dict k := by
  unfold delitem at e
  obtain ⟨_, s1, e1, e2⟩ := SS.bind_returned e
  cases hk : PyDict.has eqv s.dict k with
  | false =>
    unfold dictDelitem at e1
    simp only [Py.get_bind, hk, Bool.false_eq_true, if_false] at e1
    cases e1
  | true =>
    rw [dictDelitem_run hk] at e1
    cases e1
    obtain ⟨h1, h2⟩ := onList_returned e2
    exact ⟨rfl, wild_list_remove he hL hs h1 h2, h2⟩

omit he hL in
theorem wild_delitem_absent {k : κ} (hk : PyDict.has eqv s.dict k = false) : delitem eqv L k s = (.error .keyError, s) := by
  unfold delitem
  refine Py.bind_error ?_
  unfold dictDelitem
  simp only [Py.get_bind, hk, Bool.false_eq_true, if_false]; rfl

omit he in
theorem wild_clear (hs : InStep eqv it W s) : ∃ s', clear L s = (.ok (), s') ∧ InStep eqv it W s' ∧ s'.dict = [] := by
  unfold clear onDict
  simp only [Py.modify_bind]
  obtain ⟨l', e, h1, h2⟩ := wild_onList (s := { s with dict := [] }) hL.clear hs.list rfl
  exact ⟨_, e, ⟨h2, Keyed.nil, by show ([] : List κ).Perm (it l'); rw [h1]⟩, rfl⟩

theorem wild_pop_present (hs : InStep eqv it W s) {k : κ} {v w : ν} (hv : PyDict.lookup eqv s.dict k = some v) (default : Option ν)
    (e : pop eqv L k default s = (.ok w, s')) : w = v ∧ InStep eqv it W s' ∧ s'.dict = erase eqv s.dict k := by
  unfold pop at e
  simp only [Py.get_bind, show contains eqv k s = true by rw [contains, has_eq_lookup, hv]; rfl, if_true] at e
  obtain ⟨_, s1, e1, e2⟩ := SS.bind_returned e
  obtain ⟨h1, h2⟩ := onList_returned e1
  rw [dictPop_run (by rw [h2]; exact hv)] at e2
  cases e2
  have hd : erase eqv s1.dict k = erase eqv s.dict k := by rw [h2]
  exact ⟨rfl, wild_list_remove he hL hs h1 hd, hd⟩

omit he hL in
theorem wild_pop_absent {k : κ} (hk : PyDict.lookup eqv s.dict k = none) (default : Option ν) :
    pop eqv L k default s = ((match default with | some v => .ok v | none => .error .keyError), s) := by
  unfold pop
  simp only [Py.get_bind, show contains eqv k s = false by rw [contains, has_eq_lookup, hk]; rfl, Bool.false_eq_true, if_false]
  cases default <;> rfl

omit he in
theorem wild_setdefault (hs : InStep eqv it W s) (k : κ) (v : ν) {w : ν} (e : setdefault eqv L k v s = (.ok w, s')) :
    w = (PyDict.lookup eqv s.dict k).getD v ∧ InStep eqv it W s' ∧
      s'.dict = if PyDict.has eqv s.dict k then s.dict else PyDict.set eqv s.dict k v := by
  unfold setdefault at e
  simp only [Py.get_bind] at e
  rcases (Bool.eq_false_or_eq_true (PyDict.has eqv s.dict k)).symm with hk | hk
  · simp only [show contains eqv k s = _ from hk] at e
    simp only [Bool.false_eq_true, if_false, onDict, Py.modify_bind] at e
    obtain ⟨_, s1, e1, e2⟩ := SS.bind_returned e
    cases e2
    obtain ⟨h1, h2⟩ := onList_returned e1
    rw [hk, lookup_none hk]
    exact ⟨rfl, wild_list_add hL hs hk v h1 h2, h2⟩
  · simp only [show contains eqv k s = _ from hk, if_true] at e
    obtain ⟨x, hx⟩ := lookup_some hk
    have : getitem eqv k s = (.ok x, s) := by
      simp only [getitem, Py.get_bind, PyDict.getitem, hx]; rfl
    rw [this] at e
    cases e
    rw [hx, hk]
    exact ⟨rfl, hs, rfl⟩

/-- What `_list.pop(i)` does. -/
theorem wild_list_pop (hs : InStep eqv it W s) (i : Int) :
    (∃ k v l', (Spec.getInt i (it s.list)).1 = .ok k ∧ PyDict.lookup eqv s.dict k = some v ∧
      (Spec.getInt i (itemsIn eqv (it s.list) s.dict)).1 = .ok (k, v) ∧
      onList (L.pop i) s = (.ok k, { s with list := l' }) ∧
      InStep eqv it W { dict := erase eqv s.dict k, list := l' } ∧ it l' = (Spec.delInt i (it s.list)).2) ∨
    (∃ l', (Spec.getInt i (it s.list)).1 = .error .indexError ∧
      (Spec.getInt i (itemsIn eqv (it s.list) s.dict)).1 = .error .indexError ∧
      onList (L.pop i) s = (.error .indexError, { s with list := l' }) ∧ InStep eqv it W { s with list := l' } ∧
      it l' = (Spec.delInt i (it s.list)).2) := by
  rcases getInt_itemsIn (hs.lookup he) i with ⟨p, k, v, hp, hk, hv, h1, h2⟩ | ⟨hp, h1, h2⟩
  · obtain ⟨l', e, h3, h4⟩ := wild_onList (hL.pop i) hs.list (spec_pop_ok hp hk)
    refine .inl ⟨k, v, l', h1, hv, h2, e, ⟨h4, hs.keyed.erase k, ?_⟩, by rw [h3, Spec.delInt, hp]⟩
    show (keys (erase eqv s.dict k)).Perm (it l')
    rw [h3, keys_erase, ← (hs.distinct he).filter_position he hk]
    exact hs.perm.filter _
  · obtain ⟨l', e, h3, h4⟩ := wild_onList (hL.pop i) hs.list (spec_pop_error hp)
    exact .inr ⟨l', h1, h2, e, ⟨h4, hs.keyed, by show (keys s.dict).Perm (it l'); rw [h3]; exact hs.perm⟩,
      by rw [h3, Spec.delInt, hp]⟩

theorem wild_viewDelSlice (hs : InStep eqv it W s) (sl : PySlice) :
    (∃ x l', (Spec.getSlice sl (it s.list)).1 = .error x ∧ (Spec.delSlice sl (it s.list)).1 = .error x ∧
      viewDelSlice eqv L sl s = (.error x, { s with list := l' })) ∨
    (∃ ks, (Spec.getSlice sl (it s.list)).1 = .ok ks ∧ (Spec.delSlice sl (it s.list)).1 = .ok () ∧
      ∀ s', viewDelSlice eqv L sl s = (.ok (), s') → InStep eqv it W s' ∧ s'.dict = eraseAll eqv ks s.dict) := by
  unfold viewDelSlice
  obtain ⟨l', e, h0, hs'⟩ := wild_query (hL.getSlice sl) hs (spec_getSlice_snd sl)
  have hdist := hs.distinct he
  cases hp : Spec.slicePositions sl (it s.list).length with
  | error x =>
    have e1 : (Spec.getSlice sl (it s.list)).1 = .error x := by unfold Spec.getSlice; rw [hp]
    rw [e1] at e
    exact .inl ⟨x, l', e1, by unfold Spec.delSlice; rw [hp], Py.bind_error e⟩
  | ok ps =>
    have e1 : (Spec.getSlice sl (it s.list)).1 = .ok (ps.filterMap ((it s.list)[·]?)) := by
      unfold Spec.getSlice; rw [hp]
    have e2 : Spec.delSlice sl (it s.list) = (.ok (), Spec.deletePositions ps (it s.list)) := by unfold Spec.delSlice; rw [hp]
    rw [e1] at e
    refine .inr ⟨_, e1, by rw [e2], fun s2 h => ?_⟩
    rw [Py.bind_ok e] at h
    obtain ⟨_, s1, h1, h2⟩ := SS.bind_returned h
    obtain ⟨h3, h4⟩ := onList_returned h1
    obtain ⟨h5, h6⟩ := hL.delSlice hs'.list h3
    rw [show it ({ s with list := l' } : SD κ ν σ).list = it s.list from h0, e2] at h6
    have h4 : s1.dict = s.dict := h4
    rw [forEach_dictDelitem (distinct_filterMap_positions he hdist (slicePositions_nodup hp)) he] at h2
    · cases h2
      refine ⟨⟨h5, ?_, ?_⟩, by rw [h4]⟩
      · show Keyed eqv (eraseAll eqv _ s1.dict)
        rw [h4]; exact eraseAll_keyed hs.keyed _
      · show (keys (eraseAll eqv _ s1.dict)).Perm (it s1.list)
        rw [h4, keys_eraseAll he]
        refine List.Perm.trans ?_ h6.symm
        rw [← hdist.filter_positions he]
        exact hs.perm.filter _
    · intro k hk
      obtain ⟨i, _, hi⟩ := List.mem_filterMap.1 hk
      rw [h4, hs.has]
      exact any_self he (List.mem_of_getElem? hi)

omit he in
theorem wild_forEach_setitem (ps : List (κ × ν)) (hs : InStep eqv it W s)
    (e : Py.forEach (fun p => setitem eqv L p.1 p.2) ps s = (.ok (), s')) :
    InStep eqv it W s' ∧ s'.dict = PyDict.update eqv s.dict ps := by
  induction ps generalizing s with
  | nil => cases e; exact ⟨hs, rfl⟩
  | cons p ps ih =>
    obtain ⟨_, s1, e1, e2⟩ := SS.bind_returned e
    obtain ⟨h1, h2⟩ := wild_setitem hL hs p.1 p.2 e1
    obtain ⟨h3, h4⟩ := ih h1 e2
    exact ⟨h3, by rw [h4, h2]; rfl⟩

omit he in
theorem wild_refill {l : σ} (hi : W l) (hl : it l = []) {d : List (κ × ν)} (hd : Keyed eqv d)
    (e : onList (L.update (keys d)) { dict := d, list := l } = (.ok (), s')) : InStep eqv it W s' ∧ s'.dict = d := by
  obtain ⟨h1, h2⟩ := onList_returned e
  obtain ⟨h3, h4⟩ := hL.update hi h1
  rw [hl] at h4
  exact ⟨⟨h3, by rw [h2]; exact hd, by rw [h2]; exact h4.symm⟩, h2⟩

omit he in
theorem wild_update_empty {l : σ} (hi : W l) (hl : it l = []) {arg : DictArg κ ν}
    (e : update eqv L arg { dict := [], list := l } = (.ok (), s')) :
    arg.fail = none ∧ InStep eqv it W s' ∧ s'.dict = ofPairs eqv arg.items := by
  unfold update dictUpdate at e
  cases hf : arg.fail with
  | some x =>
    simp only [Py.get_bind, List.length_nil, if_true, onDict, hf, Py.bind_assoc', Py.modify_bind] at e
    obtain ⟨_, s1, e1, _⟩ := SS.bind_returned e
    cases e1
  | none =>
    simp only [Py.get_bind, List.length_nil, if_true, onDict, hf, Py.bind_assoc', Py.modify_bind, Py.pure_bind'] at e
    obtain ⟨h1, h2⟩ := wild_refill hL hi hl (Keyed.nil.update _) e
    exact ⟨rfl, h1, h2⟩

theorem wild_update (hs : InStep eqv it W s) {arg : DictArg κ ν} (e : update eqv L arg s = (.ok (), s')) :
    arg.fail = none ∧ InStep eqv it W s' ∧ s'.dict = PyDict.update eqv s.dict arg.items := by
  obtain ⟨d, l⟩ := s
  by_cases h0 : d.length = 0
  · obtain rfl : d = [] := List.length_eq_zero_iff.1 h0
    obtain ⟨h1, h2, h3⟩ := wild_update_empty hL hs.list (by have := hs.perm; exact List.nil_perm.1 this) e
    exact ⟨h1, h2, h3⟩
  · unfold update at e
    simp only [Py.get_bind, h0, if_false] at e
    obtain ⟨pairs, s1, e1, e⟩ := SS.bind_returned e
    have hp : pairsOf eqv arg = .ok pairs ∧ s1 = { dict := d, list := l } := by
      unfold Py.lift at e1
      cases hq : pairsOf eqv arg with
      | error x => rw [hq] at e1; cases e1
      | ok y => rw [hq] at e1; cases e1; exact ⟨rfl, rfl⟩
    obtain ⟨hp, rfl⟩ := hp
    have hu : arg.fail = none ∧ PyDict.update eqv d pairs = PyDict.update eqv d arg.items := by
      cases arg with
      | dict items => cases hp; exact ⟨rfl, rfl⟩
      | pairs items fail =>
        cases fail with
        | none => cases hp; exact ⟨rfl, update_ofPairs he d items⟩
        | some x => cases hp
    refine ⟨hu.1, ?_⟩
    show _ ∧ s'.dict = PyDict.update eqv d arg.items
    rw [← hu.2]
    simp only [Py.ite_apply'] at e
    split at e
    · simp only [dictUpdate, DictArg.fail, DictArg.items, onDict, Py.bind_assoc', Py.modify_bind, Py.pure_bind'] at e
      obtain ⟨l', e2, h1, h2⟩ := wild_onList (s := ({ dict := PyDict.update eqv d pairs, list := l } : SD κ ν σ))
        hL.clear hs.list rfl
      rw [Py.bind_ok e2] at e
      simp only [Py.get_bind] at e
      exact wild_refill hL h2 h1 (Keyed.update hs.keyed _) e
    · exact wild_forEach_setitem hL pairs hs e

omit he in
theorem wild_new {arg : DictArg κ ν} (e : new eqv L arg = .ok s) :
    arg.fail = none ∧ InStep eqv it W s ∧ s.dict = ofPairs eqv arg.items := by
  unfold new at e
  split at e
  · cases e
  · rename_i l el
    obtain ⟨h1, h2⟩ := hL.new el
    rw [Option.getD_none, List.perm_nil] at h2
    split at e
    · rename_i s1 eu
      cases e
      exact wild_update_empty hL h1 h2 eu
    · cases e

theorem wild_items (hs : InStep eqv it W s) : items eqv L s = .ok (itemsIn eqv (it s.list) s.dict) := by
  unfold items iter
  rw [hL.iter, mapE_eq_ok_iff]
  have := congrArg (List.map fun o : Option (κ × ν) => match o with
    | some p => Except.ok p
    | none => Except.error PyErr.keyError) (itemsIn_map (hs.lookup he))
  rw [List.map_map, List.map_map] at this
  refine Eq.trans ?_ (this.symm.trans ?_)
  · refine List.map_congr_left fun k _ => ?_
    simp only [Function.comp_apply, PyDict.getitem]
    cases PyDict.lookup eqv s.dict k <;> rfl
  · rfl

theorem wild_values (hs : InStep eqv it W s) : values eqv L s = .ok ((itemsIn eqv (it s.list) s.dict).map Prod.snd) := by
  unfold values iter
  rw [hL.iter, mapE_eq_ok_iff]
  have := congrArg (List.map fun o : Option (κ × ν) => match o with
    | some p => Except.ok p.2
    | none => Except.error PyErr.keyError) (itemsIn_map (hs.lookup he))
  rw [List.map_map, List.map_map] at this
  refine Eq.trans ?_ (this.symm.trans ?_)
  · refine List.map_congr_left fun k _ => ?_
    simp only [Function.comp_apply, PyDict.getitem]
    cases PyDict.lookup eqv s.dict k <;> rfl
  · rw [List.map_map]; rfl

end
end SD
end Verif
