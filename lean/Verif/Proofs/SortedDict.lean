import Verif.Proofs.PyDict
import Verif.Model.SortedDict
/-!
# SortedDict: the sorted list holds the keys of the dict, and every call refines its specification
-/

namespace Verif
namespace SD
variable {κ ν σ : Type} {L : ListAPI σ κ} {O : Spec.Order κ} {eqv : κ → κ → Bool} {I : σ → Prop}

open PyDict DictSpec

/-- What the proofs about SortedDict use of its components. -/
structure Good (L : ListAPI σ κ) (O : Spec.Order κ) (eqv : κ → κ → Bool) (I : σ → Prop) : Prop where
  equiv : IsEquiv eqv
  list : L.Lawful O I
  same : ∀ a b, O.same a b = eqv a b

theorem Good.order (h : Good L O eqv I) : StrictWeakOrder O.lt := h.list.order

theorem Good.same_fun (h : Good L O eqv I) (v : κ) : (fun x => O.same x v) = fun x => eqv x v := by
  funext x; exact h.same x v

/-- The representation invariant: the list of keys is `sorted(dict, key=key)`. -/
structure Inv (L : ListAPI σ κ) (O : Spec.Order κ) (eqv : κ → κ → Bool) (I : σ → Prop) (s : SD κ ν σ) : Prop where
  list : I s.list
  keyed : Keyed eqv s.dict
  iter : L.iter s.list = sortedKeys O s.dict

variable {s : SD κ ν σ}

theorem onList_run {β : Type} {m : Py σ β} {f : Py (List κ) β} (hm : Refines I L.iter m f) (hi : I s.list)
    {r : Except PyErr β} {l : List κ} (hf : f (L.iter s.list) = (r, l)) :
    ∃ l', onList m s = (r, { s with list := l' }) ∧ L.iter l' = l ∧ I l' := by
  obtain ⟨l', e, h1, h2⟩ := hm.eq_of hi hf
  exact ⟨l', by simp only [onList, e], h1, h2⟩

/-- A query of the list. -/
theorem onList_query {β : Type} {m : Py σ β} {f : Py (List κ) β} (hm : Refines I L.iter m f) (hs : Inv L O eqv I s)
    (hf : ∀ l, (f l).2 = l) :
    ∃ l', onList m s = ((f (sortedKeys O s.dict)).1, { s with list := l' }) ∧
      Inv L O eqv I { s with list := l' } := by
  obtain ⟨l', e, h1, h2⟩ := onList_run (l := L.iter s.list) hm hs.list (Prod.ext rfl (hf _))
  exact ⟨l', by rw [e, hs.iter], h2, hs.keyed, by rw [← hs.iter, ← h1]⟩

theorem onKeys_refines {β : Type} {m : Py σ β} {f : Py (List κ) β} (hm : Refines I L.iter m f) (hf : ∀ l, (f l).2 = l) :
    Refines (Inv L O eqv I) SD.dict (onList m : Py (SD κ ν σ) β) (onKeys O f) :=
  Refines.of fun s hs => by
    obtain ⟨l', e, h⟩ := onList_query hm hs hf
    exact ⟨_, e, rfl, h⟩

theorem out_refines {β : Type} {m : Py (SD κ ν σ) β} {f : Py (List (κ × ν)) β} (g : β → DOut κ ν)
    (h : Refines (Inv L O eqv I) SD.dict m f) : Refines (Inv L O eqv I) SD.dict (SD.out g m) (DictSpec.out g f) :=
  Refines.bind h fun _ => Refines.pure _

theorem read_refines {β : Type} {f : SD κ ν σ → Except PyErr β} {g : List (κ × ν) → Except PyErr β}
    (h : ∀ s, Inv L O eqv I s → f s = g s.dict) : Refines (Inv L O eqv I) SD.dict (read f) (query g) :=
  fun s hs => ⟨h s hs, rfl, hs⟩

theorem getitem_refines (k : κ) :
    Refines (Inv L O eqv I) SD.dict (getitem eqv k : Py (SD κ ν σ) ν) (query fun d => PyDict.getitem eqv d k) :=
  fun _ hs => ⟨rfl, rfl, hs⟩

theorem setitem_refines (h : Good L O eqv I) (k : κ) (v : ν) :
    Refines (Inv L O eqv I) SD.dict (setitem eqv L k v) (assign fun d => PyDict.set eqv d k v) :=
  Refines.of fun s hs => by
    unfold setitem
    simp only [Py.get_bind]
    rcases Bool.eq_false_or_eq_true (has eqv s.dict k) with hk | hk
    · simp only [show contains eqv k s = _ from hk, if_true]
      exact ⟨{ s with dict := PyDict.set eqv s.dict k v }, rfl, rfl, hs.list, hs.keyed.set k v, by
        show L.iter s.list = _
        rw [hs.iter, sortedKeys_set_old hk]⟩
    · simp only [show contains eqv k s = _ from hk]
      obtain ⟨l', e, h1, h2⟩ := onList_run (h.list.add k) hs.list rfl
      simp only [Bool.false_eq_true, if_false]
      rw [Py.bind_ok e]
      refine ⟨{ dict := PyDict.set eqv s.dict k v, list := l' }, rfl, rfl, h2, hs.keyed.set k v, ?_⟩
      show L.iter l' = _
      rw [h1, hs.iter, sortedKeys_set_new hk]

theorem clear_refines (h : Good L O eqv I) :
    Refines (Inv L O eqv I) SD.dict (clear L) (assign fun _ => ([] : List (κ × ν))) :=
  Refines.of fun s hs => by
    unfold clear onDict
    simp only [Py.modify_bind]
    obtain ⟨l', e, h1, h2⟩ := onList_run (s := { s with dict := [] }) h.list.clear hs.list rfl
    exact ⟨_, e, rfl, h2, Keyed.nil, h1⟩

theorem list_remove (h : Good L O eqv I) (hs : Inv L O eqv I s) (k : κ) (hk : has eqv s.dict k = true) :
    Spec.remove O k (L.iter s.list) = (.ok (), sortedKeys O (erase eqv s.dict k)) := by
  rw [hs.iter, sortedKeys_erase h.order, ← (sortedKeys_distinct h.order h.equiv hs.keyed).eraseP_eq_filter h.equiv]
  simp only [Spec.remove]
  rw [h.same_fun, if_pos (by rw [sortedKeys_any h.order, hk])]

theorem delitem_refines (h : Good L O eqv I) (k : κ) :
    Refines (Inv L O eqv I) SD.dict (delitem eqv L k) (DictSpec.delitem eqv k : Py (List (κ × ν)) Unit) :=
  Refines.of fun s hs => by
    unfold delitem dictDelitem DictSpec.delitem
    cases hk : has eqv s.dict k with
    | false =>
      refine ⟨s, Py.bind_error ?_, rfl, hs⟩
      simp only [Py.get_bind, hk, Bool.false_eq_true, if_false]; rfl
    | true =>
      have e : (Py.get >>= fun s => if has eqv s.dict k then onDict fun d => erase eqv d k else Py.raise .keyError) s =
          (.ok (), ({ s with dict := erase eqv s.dict k } : SD κ ν σ)) := by
        simp only [Py.get_bind, hk, if_true]; rfl
      rw [Py.bind_ok e]
      obtain ⟨l', e, h1, h2⟩ := onList_run (s := { s with dict := erase eqv s.dict k }) (h.list.remove k) hs.list
        (list_remove h hs k hk)
      exact ⟨_, e, rfl, h2, hs.keyed.erase k, h1⟩

theorem dictPop_run {k : κ} {v : ν} (hv : lookup eqv s.dict k = some v) :
    dictPop eqv k s = (.ok v, { s with dict := erase eqv s.dict k }) := by
  unfold dictPop PyDict.getitem
  simp only [Py.get_bind, hv, Py.lift_ok_bind]; rfl

theorem pop_refines (h : Good L O eqv I) (k : κ) (default : Option ν) :
    Refines (Inv L O eqv I) SD.dict (pop eqv L k default) (DictSpec.pop eqv k default) :=
  Refines.of fun s hs => by
    unfold pop DictSpec.pop
    simp only [Py.get_bind]
    rcases (Bool.eq_false_or_eq_true (has eqv s.dict k)).symm with hk | hk
    · simp only [show contains eqv k s = _ from hk]
      rw [lookup_none hk]
      simp only [Bool.false_eq_true, if_false]
      cases default with
      | none => exact ⟨s, rfl, rfl, hs⟩
      | some v => exact ⟨s, rfl, rfl, hs⟩
    · simp only [show contains eqv k s = _ from hk]
      obtain ⟨v, hv⟩ := lookup_some hk
      rw [hv]
      simp only [if_true]
      obtain ⟨l', e, h1, h2⟩ := onList_run (h.list.remove k) hs.list (list_remove h hs k hk)
      rw [Py.bind_ok e, dictPop_run (s := { s with list := l' }) hv]
      exact ⟨_, rfl, rfl, h2, hs.keyed.erase k, h1⟩

theorem setdefault_refines (h : Good L O eqv I) (k : κ) (v : ν) :
    Refines (Inv L O eqv I) SD.dict (setdefault eqv L k v) (DictSpec.setdefault eqv k v) :=
  Refines.of fun s hs => by
    unfold setdefault DictSpec.setdefault
    simp only [Py.get_bind]
    rcases (Bool.eq_false_or_eq_true (has eqv s.dict k)).symm with hk | hk
    · simp only [show contains eqv k s = _ from hk]
      rw [lookup_none hk]
      simp only [Bool.false_eq_true, if_false, onDict, Py.modify_bind]
      obtain ⟨l', e, h1, h2⟩ := onList_run (s := { s with dict := PyDict.set eqv s.dict k v }) (h.list.add k) hs.list rfl
      rw [Py.bind_ok e]
      refine ⟨_, rfl, rfl, h2, hs.keyed.set k v, ?_⟩
      show L.iter l' = _
      rw [h1]
      show Spec.insert O (L.iter s.list) k = _
      rw [hs.iter, sortedKeys_set_new hk]
    · simp only [show contains eqv k s = _ from hk]
      obtain ⟨w, hw⟩ := lookup_some hk
      rw [hw]
      simp only [if_true]
      refine ⟨s, ?_, rfl, hs⟩
      simp only [getitem, Py.get_bind, PyDict.getitem, hw]; rfl

/-! ### Positions -/

theorem getInt_keys (h : Good L O eqv I) (d : List (κ × ν)) (i : Int) :
    (∃ p k v, Spec.position (sortedKeys O d).length i = some p ∧ (sortedKeys O d)[p]? = some k ∧ lookup eqv d k = some v ∧
      (Spec.getInt i (sortedKeys O d)).1 = .ok k ∧ (Spec.getInt i (sortedItems eqv O d)).1 = .ok (k, v)) ∨
    (Spec.position (sortedKeys O d).length i = none ∧
      (Spec.getInt i (sortedKeys O d)).1 = .error .indexError ∧
      (Spec.getInt i (sortedItems eqv O d)).1 = .error .indexError) := by
  unfold Spec.getInt
  rw [sortedItems_length h.order h.equiv]
  cases hp : Spec.position (sortedKeys O d).length i with
  | none => exact .inr ⟨rfl, rfl, rfl⟩
  | some p =>
    have hlt := position_lt hp
    obtain ⟨v, hv⟩ := sortedKeys_lookup h.order h.equiv d (List.getElem_mem hlt)
    refine .inl ⟨p, (sortedKeys O d)[p], v, rfl, by simp, hv, ?_, ?_⟩
    · simp [hlt]
    · simp only [Option.bind_some]
      rw [sortedItems_getElem? h.order h.equiv]; simp [hlt, hv]

theorem peekitem_refines (h : Good L O eqv I) (i : Int) :
    Refines (Inv L O eqv I) SD.dict (peekitem eqv L i : Py (SD κ ν σ) (κ × ν)) (onItems eqv O (Spec.getInt i)) :=
  Refines.of fun s hs => by
    unfold peekitem
    obtain ⟨l', e, hs'⟩ := onList_query (h.list.getInt i) hs (fun l => by unfold Spec.getInt; split <;> rfl)
    refine ⟨{ s with list := l' }, ?_, rfl, hs'⟩
    rcases getInt_keys h s.dict i with ⟨p, k, v, _, _, hv, h1, h2⟩ | ⟨_, h1, h2⟩
    · rw [h1] at e
      rw [Py.bind_ok e]
      simp only [onItems, h2, getitem, Py.get_bind, PyDict.getitem, hv, Py.lift_ok_bind, Py.bind_assoc']; rfl
    · rw [h1] at e
      rw [Py.bind_error e]; simp only [onItems, h2]

theorem sortedValues_getInt (d : List (κ × ν)) (i : Int) :
    (Spec.getInt i (sortedValues eqv O d)).1 = (Spec.getInt i (sortedItems eqv O d)).1.map Prod.snd := by
  unfold Spec.getInt sortedValues
  rw [List.length_map]
  cases Spec.position (sortedItems eqv O d).length i with
  | none => rfl
  | some p =>
    simp only [Option.bind_some, List.getElem?_map]
    cases (sortedItems eqv O d)[p]? <;> rfl

theorem valuesAt_refines (h : Good L O eqv I) (i : Int) :
    Refines (Inv L O eqv I) SD.dict (valuesAt eqv L i : Py (SD κ ν σ) ν) (onValues eqv O (Spec.getInt i)) :=
  Refines.of fun s hs => by
    unfold valuesAt
    obtain ⟨l', e, hs'⟩ := onList_query (h.list.getInt i) hs (fun l => by unfold Spec.getInt; split <;> rfl)
    refine ⟨{ s with list := l' }, ?_, rfl, hs'⟩
    simp only [onValues, sortedValues_getInt]
    rcases getInt_keys h s.dict i with ⟨p, k, v, _, _, hv, h1, h2⟩ | ⟨_, h1, h2⟩
    · rw [h1] at e
      rw [Py.bind_ok e]
      simp only [h2, getitem, Py.get_bind, PyDict.getitem, hv]; rfl
    · rw [h1] at e
      rw [Py.bind_error e]; simp only [h2]; rfl

theorem mapEach_getitem {ks : List κ} {vs : List ν} (h : ks.map (lookup eqv s.dict) = vs.map some) :
    Py.mapEach (getitem eqv) ks s = (.ok vs, s) := by
  induction ks generalizing vs with
  | nil => cases vs with
    | nil => rfl
    | cons v vs => cases h
  | cons k ks ih =>
    cases vs with
    | nil => cases h
    | cons v vs =>
      simp only [List.map_cons, List.cons.injEq] at h
      have e : getitem eqv k s = (.ok v, s) := by
        simp only [getitem, Py.get_bind, PyDict.getitem, h.1]; rfl
      show (getitem eqv k >>= fun a => Py.mapEach (getitem eqv) ks >>= fun as => pure (a :: as)) s = _
      rw [Py.bind_ok e, Py.bind_ok (ih h.2)]; rfl

theorem mapEach_item {ks : List κ} {ps : List (κ × ν)}
    (h : ks.map (fun k => (lookup eqv s.dict k).map fun v => (k, v)) = ps.map some) :
    Py.mapEach (fun k => do
      let v ← getitem eqv k
      pure (k, v)) ks s = (.ok ps, s) := by
  induction ks generalizing ps with
  | nil => cases ps with
    | nil => rfl
    | cons v vs => cases h
  | cons k ks ih =>
    cases ps with
    | nil => cases h
    | cons p ps =>
      simp only [List.map_cons, List.cons.injEq] at h
      obtain ⟨v, hv, rfl⟩ := Option.map_eq_some_iff.1 h.1
      have e : (getitem eqv k >>= fun v => (pure (k, v) : Py (SD κ ν σ) (κ × ν))) s = (.ok (k, v), s) := by
        have e : getitem eqv k s = (.ok v, s) := by
          simp only [getitem, Py.get_bind, PyDict.getitem, hv]; rfl
        rw [Py.bind_ok e]; rfl
      show ((getitem eqv k >>= fun v => pure (k, v)) >>= fun a => Py.mapEach _ ks >>= fun as => pure (a :: as)) s = _
      rw [Py.bind_ok e, Py.bind_ok (ih h.2)]; rfl

theorem getSlice_keys (h : Good L O eqv I) (d : List (κ × ν)) (sl : PySlice) :
    (∃ ks ps, (Spec.getSlice sl (sortedKeys O d)).1 = .ok ks ∧ (Spec.getSlice sl (sortedItems eqv O d)).1 = .ok ps ∧
      (Spec.getSlice sl (sortedValues eqv O d)).1 = .ok (ps.map Prod.snd) ∧
      ks.map (fun k => (lookup eqv d k).map fun v => (k, v)) = ps.map some) ∨
    (∃ e, (Spec.getSlice sl (sortedKeys O d)).1 = .error e ∧ (Spec.getSlice sl (sortedItems eqv O d)).1 = .error e ∧
      (Spec.getSlice sl (sortedValues eqv O d)).1 = .error e) := by
  unfold Spec.getSlice sortedValues
  rw [List.length_map, sortedItems_length h.order h.equiv]
  cases hp : Spec.slicePositions sl (sortedKeys O d).length with
  | error e => exact .inr ⟨e, rfl, rfl, rfl⟩
  | ok ps =>
    refine .inl ⟨_, _, rfl, rfl, ?_, ?_⟩
    · simp only [Except.ok.injEq, List.map_filterMap]
      congr 1; funext i
      simp
    · clear hp
      induction ps with
      | nil => rfl
      | cons p ps ih =>
        rw [List.filterMap_cons, List.filterMap_cons, sortedItems_getElem? h.order h.equiv]
        cases hk : (sortedKeys O d)[p]? with
        | none => exact ih
        | some k =>
          obtain ⟨v, hv⟩ := sortedKeys_lookup h.order h.equiv d (List.mem_of_getElem? hk)
          simp only [Option.bind_some, hv, Option.map_some, List.map_cons]
          rw [ih]

theorem spec_getSlice_snd (sl : PySlice) (l : List κ) : (Spec.getSlice sl l).2 = l := by
  unfold Spec.getSlice; split <;> rfl

theorem itemsSlice_refines (h : Good L O eqv I) (sl : PySlice) :
    Refines (Inv L O eqv I) SD.dict (itemsSlice eqv L sl : Py (SD κ ν σ) _) (onItems eqv O (Spec.getSlice sl)) :=
  Refines.of fun s hs => by
    unfold itemsSlice
    obtain ⟨l', e, hs'⟩ := onList_query (h.list.getSlice sl) hs (spec_getSlice_snd sl)
    refine ⟨{ s with list := l' }, ?_, rfl, hs'⟩
    rcases getSlice_keys h s.dict sl with ⟨ks, ps, h1, h2, _, h3⟩ | ⟨x, h1, h2, _⟩
    · rw [h1] at e
      rw [Py.bind_ok e, mapEach_item (s := { s with list := l' }) h3]
      simp only [onItems, h2]
    · rw [h1] at e
      rw [Py.bind_error e]; simp only [onItems, h2]

theorem valuesSlice_refines (h : Good L O eqv I) (sl : PySlice) :
    Refines (Inv L O eqv I) SD.dict (valuesSlice eqv L sl : Py (SD κ ν σ) _) (onValues eqv O (Spec.getSlice sl)) :=
  Refines.of fun s hs => by
    unfold valuesSlice
    obtain ⟨l', e, hs'⟩ := onList_query (h.list.getSlice sl) hs (spec_getSlice_snd sl)
    refine ⟨{ s with list := l' }, ?_, rfl, hs'⟩
    rcases getSlice_keys h s.dict sl with ⟨ks, ps, h1, _, h2, h3⟩ | ⟨x, h1, _, h2⟩
    · rw [h1] at e
      have h4 : ks.map (lookup eqv s.dict) = (ps.map Prod.snd).map some := by
        have := congrArg (List.map (Option.map Prod.snd)) h3
        rw [List.map_map, List.map_map] at this
        rw [List.map_map]
        refine Eq.trans ?_ (this.trans ?_)
        · refine List.map_congr_left fun k _ => ?_
          simp only [Function.comp_apply, Option.map_map]
          cases lookup eqv s.dict k <;> rfl
        · rfl
      rw [Py.bind_ok e, mapEach_getitem (s := { s with list := l' }) h4]
      simp only [onValues, h2]
    · rw [h1] at e
      rw [Py.bind_error e]; simp only [onValues, h2]

theorem spec_pop_ok {l : List κ} {i : Int} {p : Nat} {k : κ} (hp : Spec.position l.length i = some p) (hk : l[p]? = some k) :
    Spec.pop i l = (.ok k, l.eraseIdx p) := by
  unfold Spec.pop; rw [hp]; simp only [hk]

theorem spec_pop_error {l : List κ} {i : Int} (hp : Spec.position l.length i = none) :
    Spec.pop i l = (.error .indexError, l) := by
  unfold Spec.pop; rw [hp]

theorem sortedKeys_eraseIdx (h : Good L O eqv I) {d : List (κ × ν)} (hd : Keyed eqv d) {p : Nat} {k : κ}
    (hk : (sortedKeys O d)[p]? = some k) : (sortedKeys O d).eraseIdx p = sortedKeys O (erase eqv d k) := by
  rw [sortedKeys_erase h.order, (sortedKeys_distinct h.order h.equiv hd).filter_position h.equiv hk]

/-- What `_list.pop(i)` does to a sorted dict. -/
theorem list_pop (h : Good L O eqv I) (hs : Inv L O eqv I s) (i : Int) :
    (∃ k v l', (Spec.getInt i (sortedKeys O s.dict)).1 = .ok k ∧ lookup eqv s.dict k = some v ∧
      (Spec.getInt i (sortedItems eqv O s.dict)).1 = .ok (k, v) ∧
      onList (L.pop i) s = (.ok k, { s with list := l' }) ∧
      Inv L O eqv I { dict := erase eqv s.dict k, list := l' }) ∨
    (∃ l', (Spec.getInt i (sortedKeys O s.dict)).1 = .error .indexError ∧
      (Spec.getInt i (sortedItems eqv O s.dict)).1 = .error .indexError ∧
      onList (L.pop i) s = (.error .indexError, { s with list := l' }) ∧ Inv L O eqv I { s with list := l' }) := by
  rcases getInt_keys h s.dict i with ⟨p, k, v, hp, hk, hv, h1, h2⟩ | ⟨hp, h1, h2⟩
  · obtain ⟨l', e, h3, h4⟩ := onList_run (h.list.pop i) hs.list (spec_pop_ok (by rw [hs.iter]; exact hp) (by rw [hs.iter]; exact hk))
    refine .inl ⟨k, v, l', h1, hv, h2, e, h4, hs.keyed.erase k, ?_⟩
    show L.iter l' = _
    rw [h3, hs.iter, sortedKeys_eraseIdx h hs.keyed hk]
  · obtain ⟨l', e, h3, h4⟩ := onList_run (h.list.pop i) hs.list (spec_pop_error (by rw [hs.iter]; exact hp))
    exact .inr ⟨l', h1, h2, e, h4, hs.keyed, by show L.iter l' = _; rw [h3, hs.iter]⟩

theorem popitem_refines (h : Good L O eqv I) (i : Int) :
    Refines (Inv L O eqv I) SD.dict (popitem eqv L i : Py (SD κ ν σ) _) (DictSpec.popitem eqv O i) :=
  Refines.of fun s hs => by
    unfold popitem DictSpec.popitem
    simp only [Py.get_bind]
    split
    · exact ⟨s, rfl, rfl, hs⟩
    · rcases list_pop h hs i with ⟨k, v, l', h1, hv, h2, e, hi⟩ | ⟨l', h1, h2, e, hi⟩
      · rw [h2, Py.bind_ok e, Py.bind_ok (dictPop_run (s := { s with list := l' }) hv)]
        exact ⟨_, rfl, rfl, hi⟩
      · rw [h2, Py.bind_error e]
        exact ⟨_, rfl, rfl, hi⟩

theorem dictDelitem_run {k : κ} (hk : has eqv s.dict k = true) :
    dictDelitem eqv k s = (.ok (), { s with dict := erase eqv s.dict k }) := by
  unfold dictDelitem
  simp only [Py.get_bind, hk, if_true]; rfl

theorem viewDelInt_refines (h : Good L O eqv I) (i : Int) :
    Refines (Inv L O eqv I) SD.dict (viewDelInt eqv L i : Py (SD κ ν σ) _) (DictSpec.viewDelInt eqv O i) :=
  Refines.of fun s hs => by
    unfold viewDelInt DictSpec.viewDelInt
    rcases list_pop h hs i with ⟨k, v, l', h1, hv, h2, e, hi⟩ | ⟨l', h1, h2, e, hi⟩
    · rw [h1, Py.bind_ok e, dictDelitem_run (s := { s with list := l' }) (by rw [has_eq_lookup, hv]; rfl)]
      exact ⟨_, rfl, rfl, hi⟩
    · rw [h1, Py.bind_error e]
      exact ⟨_, rfl, rfl, hi⟩

theorem eraseAll_keyed {d : List (κ × ν)} (hd : Keyed eqv d) (ks : List κ) : Keyed eqv (eraseAll eqv ks d) := by
  unfold eraseAll
  induction ks generalizing d with
  | nil => exact hd
  | cons k ks ih => exact ih (hd.erase k)

theorem sortedKeys_eraseAll (hO : StrictWeakOrder O.lt) (he : IsEquiv eqv) (d : List (κ × ν)) (ks : List κ) :
    sortedKeys O (eraseAll eqv ks d) = (sortedKeys O d).filter fun y => !ks.any (eqv · y) := by
  unfold eraseAll
  induction ks generalizing d with
  | nil => exact (List.filter_eq_self.2 fun _ _ => rfl).symm
  | cons k ks ih =>
    rw [List.foldl_cons, ih, sortedKeys_erase hO, List.filter_filter]
    refine List.filter_congr fun y _ => ?_
    rw [List.any_cons, he.symm k y]
    cases eqv y k <;> cases ks.any (eqv · y) <;> rfl

theorem forEach_dictDelitem {ks : List κ} (hd : Distinct eqv ks) (he : IsEquiv eqv) (hk : ∀ k ∈ ks, has eqv s.dict k = true) :
    Py.forEach (dictDelitem eqv) ks s = (.ok (), { s with dict := eraseAll eqv ks s.dict }) := by
  induction ks generalizing s with
  | nil => rfl
  | cons k ks ih =>
    obtain ⟨h1, h2⟩ := List.pairwise_cons.1 hd
    show (dictDelitem eqv k >>= fun _ => Py.forEach (dictDelitem eqv) ks) s = _
    rw [Py.bind_ok (dictDelitem_run (hk k (by simp))), ih h2]
    · rfl
    · intro k' hk'
      rw [has_eq_lookup, lookup_erase he, h1 k' hk', if_neg (by simp), ← has_eq_lookup]
      exact hk k' (List.mem_cons_of_mem _ hk')

theorem distinct_filterMap_positions (he : IsEquiv eqv) {l : List κ} (hl : Distinct eqv l) {ps : List Nat} (hn : ps.Nodup) :
    Distinct eqv (ps.filterMap (l[·]?)) := by
  unfold Distinct
  rw [List.pairwise_filterMap]
  refine hn.imp_of_mem ?_
  intro i j _ _ hij a ha b hb
  cases hab : eqv a b with
  | false => rfl
  | true => exact absurd (hl.eq_of_eqv he ha hb hab) hij

theorem slicePositions_nodup {sl : PySlice} {n : Nat} {ps : List Nat} (h : Spec.slicePositions sl n = .ok ps) : ps.Nodup := by
  unfold Spec.slicePositions at h
  split at h
  · cases h
  · rename_i a b c hi
    cases h
    have hne : (pyRange a b c).Pairwise (· ≠ ·) := by
      rcases Int.lt_trichotomy c 0 with hc | hc | hc
      · exact (pyRange_pairwise_neg hc).imp fun h => by omega
      · exact absurd hc (indices_step hi).1
      · exact (pyRange_pairwise_pos hc).imp fun h => by omega
    refine List.pairwise_map.2 (hne.imp_of_mem fun {x y} hx hy hxy => ?_)
    have h1 := mem_pyRange_bounds hi hx
    have h2 := mem_pyRange_bounds hi hy
    omega

theorem viewDelSlice_refines (h : Good L O eqv I) (sl : PySlice) :
    Refines (Inv L O eqv I) SD.dict (viewDelSlice eqv L sl : Py (SD κ ν σ) _) (DictSpec.viewDelSlice eqv O sl) :=
  Refines.of fun s hs => by
    unfold viewDelSlice DictSpec.viewDelSlice
    obtain ⟨l', e, hs'⟩ := onList_query (h.list.getSlice sl) hs (spec_getSlice_snd sl)
    have hdist := sortedKeys_distinct h.order h.equiv hs.keyed
    cases hp : Spec.slicePositions sl (sortedKeys O s.dict).length with
    | error x =>
      have e1 : (Spec.getSlice sl (sortedKeys O s.dict)).1 = .error x := by unfold Spec.getSlice; rw [hp]
      rw [e1] at e
      rw [Py.bind_error e, e1]
      exact ⟨_, rfl, rfl, hs'⟩
    | ok ps =>
      have e1 : (Spec.getSlice sl (sortedKeys O s.dict)).1 = .ok (ps.filterMap ((sortedKeys O s.dict)[·]?)) := by
        unfold Spec.getSlice; rw [hp]
      rw [e1] at e
      rw [Py.bind_ok e, e1]
      obtain ⟨l2, e2, h1, h2⟩ := onList_run (s := { s with list := l' }) (h.list.delSlice sl) hs'.list
        (r := .ok ()) (l := Spec.deletePositions ps (sortedKeys O s.dict))
        (by rw [hs'.iter]; unfold Spec.delSlice; simp only [hp])
      rw [Py.bind_ok e2, forEach_dictDelitem (s := { dict := s.dict, list := l2 })
        (distinct_filterMap_positions h.equiv hdist (slicePositions_nodup hp)) h.equiv]
      · refine ⟨_, rfl, rfl, h2, eraseAll_keyed hs.keyed _, ?_⟩
        show L.iter l2 = sortedKeys O (eraseAll eqv _ s.dict)
        rw [h1, sortedKeys_eraseAll h.order h.equiv, hdist.filter_positions h.equiv]
      · intro k hk
        obtain ⟨i, _, hi⟩ := List.mem_filterMap.1 hk
        show has eqv s.dict k = true
        rw [← sortedKeys_any h.order]
        exact any_self h.equiv (List.mem_of_getElem? hi)

theorem _root_.Verif.DictSpec.lookup_eraseAll (he : IsEquiv eqv) (d : List (κ × ν)) (ks : List κ) (k : κ) :
    lookup eqv (eraseAll eqv ks d) k = if ks.any (eqv · k) then none else lookup eqv d k := by
  unfold eraseAll
  induction ks generalizing d with
  | nil => rfl
  | cons x ks ih =>
    rw [List.foldl_cons, ih, lookup_erase he, List.any_cons]
    cases eqv x k <;> cases ks.any (eqv · k) <;> rfl

theorem map_eraseIdx {α β : Type} (f : α → β) (l : List α) (n : Nat) : (l.eraseIdx n).map f = (l.map f).eraseIdx n := by
  induction l generalizing n with
  | nil => rfl
  | cons a l ih =>
    cases n with
    | zero => rfl
    | succ n => simp only [List.eraseIdx_cons_succ, List.map_cons, ih]

theorem map_some_inj {β : Type} {a b : List β} (h : a.map some = b.map some) : a = b :=
  (List.map_inj_right fun _ _ h => Option.some.inj h).1 h

/-- The items after removing some keys, in terms of the items before. -/
theorem sortedItems_of_sublist (h : Good L O eqv I) {d d' : List (κ × ν)}
    (hl : ∀ k ∈ sortedKeys O d', lookup eqv d' k = lookup eqv d k) {items : List (κ × ν)}
    (hi : items.map some = (sortedKeys O d').map fun k => (lookup eqv d k).map fun v => (k, v)) :
    sortedItems eqv O d' = items := by
  apply map_some_inj
  rw [sortedItems_map h.order h.equiv, hi]
  exact List.map_congr_left fun k hk => by rw [hl k hk]

theorem _root_.Verif.DictSpec.sortedItems_erase (h : Good L O eqv I) {d : List (κ × ν)} (hd : Keyed eqv d) {p : Nat} {k : κ}
    (hk : (sortedKeys O d)[p]? = some k) : sortedItems eqv O (erase eqv d k) = (sortedItems eqv O d).eraseIdx p := by
  refine sortedItems_of_sublist h (d := d) (fun x hx => ?_) ?_
  · rw [sortedKeys_erase h.order, List.mem_filter] at hx
    rw [lookup_erase h.equiv, h.equiv.symm, if_neg]
    intro hc; rw [hc] at hx; exact absurd hx.2 (by simp)
  · rw [map_eraseIdx, sortedItems_map h.order h.equiv, ← map_eraseIdx, sortedKeys_eraseIdx h hd hk]

theorem map_deletePositions {α β : Type} (f : α → β) (ps : List Nat) (l : List α) :
    (Spec.deletePositions ps l).map f = Spec.deletePositions ps (l.map f) := by
  unfold Spec.deletePositions
  rw [List.zipIdx_map, List.filter_map, List.map_map, List.map_map]
  rfl

theorem _root_.Verif.DictSpec.sortedItems_eraseAll (h : Good L O eqv I) {d : List (κ × ν)} (hd : Keyed eqv d) (ps : List Nat) :
    sortedItems eqv O (eraseAll eqv (ps.filterMap ((sortedKeys O d)[·]?)) d) =
      Spec.deletePositions ps (sortedItems eqv O d) := by
  refine sortedItems_of_sublist h (d := d) (fun x hx => ?_) ?_
  · rw [sortedKeys_eraseAll h.order h.equiv, List.mem_filter] at hx
    rw [lookup_eraseAll h.equiv, if_neg]
    intro hc; rw [hc] at hx; exact absurd hx.2 (by simp)
  · rw [map_deletePositions, sortedItems_map h.order h.equiv, ← map_deletePositions,
      sortedKeys_eraseAll h.order h.equiv, (sortedKeys_distinct h.order h.equiv hd).filter_positions h.equiv]

/-! ### `update` and construction -/

theorem forEach_setitem (h : Good L O eqv I) (ps : List (κ × ν)) :
    Refines (Inv L O eqv I) SD.dict (Py.forEach (fun p => setitem eqv L p.1 p.2) ps)
      (assign fun d => PyDict.update eqv d ps) := by
  induction ps with
  | nil => exact fun _ hs => ⟨rfl, rfl, hs⟩
  | cons p ps ih => exact Refines.bind (setitem_refines h p.1 p.2) fun _ => ih

theorem update_empty (h : Good L O eqv I) {l : σ} (hi : I l) (hl : L.iter l = []) {arg : DictArg κ ν} (hf : arg.fail = none) :
    ∃ s', update eqv L arg { dict := [], list := l } = (.ok (), s') ∧ s'.dict = ofPairs eqv arg.items ∧ Inv L O eqv I s' := by
  unfold update dictUpdate
  simp only [Py.get_bind, List.length_nil, if_true, onDict, hf, Py.bind_assoc', Py.modify_bind, Py.pure_bind']
  obtain ⟨l', e, h1, h2⟩ := onList_run (s := ({ dict := PyDict.update eqv [] arg.items, list := l } : SD κ ν σ))
    (h.list.update (keys (PyDict.update eqv [] arg.items))) hi rfl
  refine ⟨_, e, rfl, h2, Keyed.nil.update _, ?_⟩
  show L.iter l' = _
  rw [h1]
  show Spec.insertAll O (L.iter l) _ = _
  rw [hl]; rfl

theorem update_refines (h : Good L O eqv I) {arg : DictArg κ ν} (hf : arg.fail = none) :
    Refines (Inv L O eqv I) SD.dict (update eqv L arg) (assign fun d => PyDict.update eqv d arg.items) :=
  Refines.of fun s hs => by
    obtain ⟨d, l⟩ := s
    by_cases h0 : d.length = 0
    · obtain rfl : d = [] := List.length_eq_zero_iff.1 h0
      obtain ⟨s', e, h1, h2⟩ := update_empty h hs.list (by have := hs.iter; exact this) hf
      exact ⟨s', e, h1, h2⟩
    · obtain ⟨pairs, hp, hu⟩ : ∃ pairs, pairsOf eqv arg = .ok pairs ∧
          PyDict.update eqv d pairs = PyDict.update eqv d arg.items := by
        cases arg with
        | dict items => exact ⟨items, rfl, rfl⟩
        | pairs items fail =>
          cases hf
          exact ⟨_, rfl, update_ofPairs h.equiv d items⟩
      unfold update
      simp only [Py.get_bind, h0, if_false, hp, Py.lift_ok_bind]
      split
      · simp only [dictUpdate, DictArg.fail, DictArg.items, onDict, Py.bind_assoc', Py.modify_bind, Py.pure_bind']
        obtain ⟨l', e, h1, h2⟩ := onList_run (s := ({ dict := PyDict.update eqv d pairs, list := l } : SD κ ν σ))
          h.list.clear hs.list rfl
        rw [Py.bind_ok e]
        simp only [Py.get_bind]
        obtain ⟨l2, e2, h3, h4⟩ := onList_run (s := ({ dict := PyDict.update eqv d pairs, list := l' } : SD κ ν σ))
          (h.list.update (keys (PyDict.update eqv d pairs))) h2 rfl
        refine ⟨_, e2, hu, h4, Keyed.update hs.keyed _, ?_⟩
        show L.iter l2 = _
        rw [h3]
        show Spec.insertAll O (L.iter l') _ = _
        rw [h1]; rfl
      · obtain ⟨s', e, h1, h2⟩ := (forEach_setitem h pairs).eq_of hs rfl
        exact ⟨s', e, h1.trans hu, h2⟩

theorem new_ok (h : Good L O eqv I) {arg : DictArg κ ν} (hf : arg.fail = none) :
    ∃ s', new eqv L arg = .ok s' ∧ s'.dict = ofPairs eqv arg.items ∧ Inv L O eqv I s' := by
  unfold new
  obtain ⟨l, e, h1, h2⟩ := h.list.new none
  rw [e]
  obtain ⟨s', e', h3, h4⟩ := update_empty h h1 h2 hf
  exact ⟨s', by simp only [e'], h3, h4⟩

theorem items_ok (h : Good L O eqv I) (hs : Inv L O eqv I s) : items eqv L s = .ok (sortedItems eqv O s.dict) := by
  unfold items iter
  rw [hs.iter, mapE_eq_ok_iff]
  have := congrArg (List.map fun o : Option (κ × ν) => match o with
    | some p => Except.ok p
    | none => Except.error PyErr.keyError) (sortedItems_map h.order h.equiv s.dict)
  rw [List.map_map, List.map_map] at this
  refine Eq.trans ?_ (this.symm.trans ?_)
  · refine List.map_congr_left fun k _ => ?_
    simp only [Function.comp_apply, PyDict.getitem]
    cases lookup eqv s.dict k <;> rfl
  · rfl

theorem values_ok (h : Good L O eqv I) (hs : Inv L O eqv I s) : values eqv L s = .ok (sortedValues eqv O s.dict) := by
  unfold values iter sortedValues
  rw [hs.iter, mapE_eq_ok_iff]
  have := congrArg (List.map fun o : Option (κ × ν) => match o with
    | some p => Except.ok p.2
    | none => Except.error PyErr.keyError) (sortedItems_map h.order h.equiv s.dict)
  rw [List.map_map, List.map_map] at this
  refine Eq.trans ?_ (this.symm.trans ?_)
  · refine List.map_congr_left fun k _ => ?_
    simp only [Function.comp_apply, PyDict.getitem]
    cases lookup eqv s.dict k <;> rfl
  · rw [List.map_map]; rfl

theorem copy_ok (h : Good L O eqv I) (hs : Inv L O eqv I s) :
    ∃ s', copy eqv L s = .ok s' ∧ s'.dict = sortedItems eqv O s.dict ∧ Inv L O eqv I s' := by
  unfold copy
  rw [items_ok h hs]
  obtain ⟨s', e, h1, h2⟩ := new_ok h (arg := .pairs (sortedItems eqv O s.dict) none) rfl
  exact ⟨s', e, h1.trans (update_nil_keyed (keyed_sortedItems h.order h.equiv hs.keyed)), h2⟩

theorem or_ok (h : Good L O eqv I) (hs : Inv L O eqv I s) (other : List (κ × ν)) :
    ∃ s', or eqv L other s = .ok s' ∧ s'.dict = PyDict.update eqv (sortedItems eqv O s.dict) other ∧ Inv L O eqv I s' := by
  unfold or
  rw [items_ok h hs]
  obtain ⟨s', e, h1, h2⟩ := new_ok h (arg := .pairs (sortedItems eqv O s.dict ++ other) none) rfl
  refine ⟨s', e, h1.trans ?_, h2⟩
  show PyDict.update eqv [] (_ ++ other) = _
  rw [update_append]
  congr 1
  exact update_nil_keyed (keyed_sortedItems h.order h.equiv hs.keyed)

theorem ror_ok (h : Good L O eqv I) (hs : Inv L O eqv I s) (other : List (κ × ν)) :
    ∃ s', ror eqv L other s = .ok s' ∧ s'.dict = PyDict.update eqv (ofPairs eqv other) (sortedItems eqv O s.dict) ∧
      Inv L O eqv I s' := by
  unfold ror
  rw [items_ok h hs]
  obtain ⟨s', e, h1, h2⟩ := new_ok h (arg := .pairs (other ++ sortedItems eqv O s.dict) none) rfl
  refine ⟨s', e, h1.trans ?_, h2⟩
  show PyDict.update eqv [] (other ++ _) = _
  rw [update_append]; rfl

theorem itemsOf_refines (h : Good L O eqv I) {f : SD κ ν σ → Except PyErr (SD κ ν σ)} {g : List (κ × ν) → List (κ × ν)}
    (hf : ∀ s, Inv L O eqv I s → ∃ s', f s = .ok s' ∧ Inv L O eqv I s' ∧ sortedItems eqv O s'.dict = g s.dict) :
    Refines (Inv L O eqv I) SD.dict (itemsOf eqv L f) (query fun d => .ok (g d)) := fun s hs => by
  obtain ⟨s', e, h1, h2⟩ := hf s hs
  unfold itemsOf
  simp only [e, items_ok h h1, h2]
  exact ⟨rfl, rfl, hs⟩

/-! ### Every call -/

theorem step_refines (h : Good L O eqv I) (op : SDOp κ ν) (hv : op.Valid) :
    Refines (Inv L O eqv I) SD.dict (step eqv L op) (DictSpec.step eqv O op) := by
  cases op with
  | setitem k v => exact out_refines _ (setitem_refines h k v)
  | delitem k => exact out_refines _ (delitem_refines h k)
  | clear => exact out_refines _ (clear_refines h)
  | pop k default => exact out_refines _ (pop_refines h k default)
  | popitem i => exact out_refines _ (popitem_refines h i)
  | peekitem i => exact out_refines _ (peekitem_refines h i)
  | setdefault k v => exact out_refines _ (setdefault_refines h k v)
  | update arg => exact out_refines _ (update_refines h hv)
  | getitem k => exact out_refines _ (getitem_refines k)
  | get k => exact out_refines _ (read_refines (g := fun d => .ok (lookup eqv d k)) fun s hs => rfl)
  | contains k => exact out_refines _ (read_refines (g := fun d => .ok (has eqv d k)) fun s hs => rfl)
  | len => exact out_refines _ (read_refines (g := fun d => .ok d.length) fun s hs => rfl)
  | iter => exact out_refines _ (read_refines (g := fun d => .ok (sortedKeys O d)) fun s hs => congrArg _ hs.iter)
  | reversed =>
    refine out_refines _ (read_refines (g := fun d => .ok (sortedKeys O d).reverse) fun s hs => ?_)
    have := (h.list.reversed s.list hs.list).1
    rw [hs.iter] at this
    exact this
  | items => exact out_refines _ (read_refines (g := fun d => .ok (sortedItems eqv O d)) fun s hs => items_ok h hs)
  | values => exact out_refines _ (read_refines (g := fun d => .ok (sortedValues eqv O d)) fun s hs => values_ok h hs)
  | keysAt i => exact out_refines _ (onKeys_refines (h.list.getInt i) fun l => by unfold Spec.getInt; split <;> rfl)
  | keysSlice sl => exact out_refines _ (onKeys_refines (h.list.getSlice sl) (spec_getSlice_snd sl))
  | itemsAt i => exact out_refines _ (peekitem_refines h i)
  | itemsSlice sl => exact out_refines _ (itemsSlice_refines h sl)
  | valuesAt i => exact out_refines _ (valuesAt_refines h i)
  | valuesSlice sl => exact out_refines _ (valuesSlice_refines h sl)
  | viewDelInt i => exact out_refines _ (viewDelInt_refines h i)
  | viewDelSlice sl => exact out_refines _ (viewDelSlice_refines h sl)
  | bisectLeft k => exact out_refines _ (onKeys_refines (h.list.bisectLeft k) fun _ => rfl)
  | bisectRight k => exact out_refines _ (onKeys_refines (h.list.bisectRight k) fun _ => rfl)
  | index k a b =>
    exact out_refines _ (onKeys_refines (h.list.index k a b) fun l => by unfold Spec.index; dsimp only; split <;> rfl)
  | irange lo hi a b r => exact out_refines _ (onKeys_refines (h.list.irange lo hi a b r) fun _ => rfl)
  | islice a b r =>
    exact out_refines _ (onKeys_refines (h.list.islice a b r) fun l => by unfold Spec.islice; split <;> rfl)
  | reset load =>
    refine out_refines _ (Refines.of fun s hs => ?_)
    obtain ⟨l', e, h1⟩ := onList_query (h.list.reset load hv) hs fun _ => rfl
    exact ⟨_, e, rfl, h1⟩
  | copy =>
    refine out_refines _ (itemsOf_refines h fun s hs => ?_)
    obtain ⟨s', e, h1, h2⟩ := copy_ok h hs
    exact ⟨s', e, h2, by rw [h1, sortedItems_idem h.order h.equiv hs.keyed]⟩
  | or other =>
    refine out_refines _ (itemsOf_refines h (g := fun d => sortedItems eqv O (PyDict.update eqv d other)) fun s hs => ?_)
    obtain ⟨s', e, h1, h2⟩ := or_ok h hs other
    exact ⟨s', e, h2, by rw [h1, sortedItems_or h.order h.equiv hs.keyed]⟩
  | ror other =>
    refine out_refines _ (itemsOf_refines h
      (g := fun d => sortedItems eqv O (PyDict.update eqv (ofPairs eqv other) d)) fun s hs => ?_)
    obtain ⟨s', e, h1, h2⟩ := ror_ok h hs other
    exact ⟨s', e, h2, by rw [h1, sortedItems_ror h.order h.equiv hs.keyed]⟩

theorem reachable_inv (h : Good L O eqv I) (hs : Reachable eqv L s) : Inv L O eqv I s := by
  induction hs with
  | new hf e =>
    obtain ⟨s', e', _, h2⟩ := new_ok h hf
    rw [e'] at e; cases e; exact h2
  | copy _ e ih =>
    obtain ⟨s', e', _, h2⟩ := copy_ok h ih
    rw [e'] at e; cases e; exact h2
  | or _ e ih =>
    obtain ⟨s', e', _, h2⟩ := or_ok h ih _
    rw [e'] at e; cases e; exact h2
  | ror _ e ih =>
    obtain ⟨s', e', _, h2⟩ := ror_ok h ih _
    rw [e'] at e; cases e; exact h2
  | step op hv _ ih => exact (step_refines h op hv _ ih).2.2
  | keyCall hm _ ih =>
    obtain ⟨f, hf, hq⟩ := h.list.keyCall _ hm
    obtain ⟨l', e, h1⟩ := onList_query hf ih hq
    rw [e]; exact h1

end SD
end Verif
