import Verif.Proofs.WildDict
/-!
# Every call on a SortedDict when nothing is known about comparisons
-/

namespace Verif
namespace SD
open PyDict DictSpec
variable {κ ν σ : Type} {L : ListAPI σ κ} {eqv : κ → κ → Bool} {it : σ → List κ} {W : σ → Prop} {s s' : SD κ ν σ}

/-- What is known of a call `op` on `s` with the outcome `r`. -/
structure Behaves (eqv : κ → κ → Bool) (it : σ → List κ) (W : σ → Prop) (op : SDOp κ ν) (s : SD κ ν σ)
    (r : Except PyErr (DOut κ ν) × SD κ ν σ) : Prop where
  keeps : (op.compares = true → (∃ o, r.1 = .ok o) ∨ r.2 = s) → InStep eqv it W r.2
  after : (op.compares = true → ∃ o, r.1 = .ok o) → r.2.dict = DictSpec.after eqv op (it s.list) s.dict
  order : op.compares = false → it r.2.list = DictSpec.remaining op (it s.list)
  answer : ∀ a, DictSpec.answer eqv op (it s.list) s.dict = some a → r.1 = a ∨ (op.compares = true ∧ ∃ e, r.1 = .error e)
  refuse : ∀ e, DictSpec.answer eqv op (it s.list) s.dict = some (.error e) → r.1 = .error e

theorem out_eq {τ β : Type} (f : β → DOut κ ν) {m : Py τ β} {s s' : τ} {r : Except PyErr β} (h : m s = (r, s')) :
    out f m s = (r.map f, s') := by
  cases r with
  | error e => exact Py.bind_error h
  | ok b => exact Py.bind_ok h

theorem spec_out_fst {τ β : Type} (f : β → DOut κ ν) (m : Py τ β) (s : τ) : (DictSpec.out f m s).1 = (m s).1.map f := by
  rcases e : m s with ⟨r, s'⟩
  have : DictSpec.out f m s = (r.map f, s') := by
    cases r with
    | error x => exact Py.bind_error e
    | ok b => exact Py.bind_ok e
  rw [this]

theorem behaves_compares {β : Type} {op : SDOp κ ν} {m : Py (SD κ ν σ) β} {f : β → DOut κ ν} (hs : InStep eqv it W s)
    (hc : op.compares = true)
    (hr : ∀ e, DictSpec.answer eqv op (it s.list) s.dict ≠ some (.error e))
    (hm : ∀ b s', m s = (.ok b, s') → InStep eqv it W s' ∧ s'.dict = DictSpec.after eqv op (it s.list) s.dict ∧
      ∀ a, DictSpec.answer eqv op (it s.list) s.dict = some a → .ok (f b) = a) :
    Behaves eqv it W op s (out f m s) := by
  rcases e : m s with ⟨x | u, s'⟩
  · rw [out_eq _ e]
    refine ⟨fun h => ?_, fun h => ?_, fun h => (by rw [hc] at h; cases h), fun a _ => .inr ⟨hc, x, rfl⟩, fun e' h => absurd h (hr e')⟩
    · rcases h hc with ⟨o, ho⟩ | h
      · cases ho
      · dsimp only at h ⊢; rw [h]; exact hs
    · obtain ⟨o, ho⟩ := h hc; cases ho
  · rw [out_eq _ e]
    obtain ⟨h1, h2, h3⟩ := hm u s' e
    exact ⟨fun _ => h1, fun _ => h2, fun h => (by rw [hc] at h; cases h), fun a h => .inl (h3 a h), fun e' h => absurd h (hr e')⟩

theorem behaves_sure {β : Type} {op : SDOp κ ν} {m : Py (SD κ ν σ) β} {f : β → DOut κ ν} {r : Except PyErr β}
    (e : m s = (r, s')) (h : InStep eqv it W s')
    (ha : s'.dict = DictSpec.after eqv op (it s.list) s.dict)
    (hx : op.compares = false → it s'.list = DictSpec.remaining op (it s.list))
    (hr : ∀ a, DictSpec.answer eqv op (it s.list) s.dict = some a → r.map f = a) :
    Behaves eqv it W op s (out f m s) := by
  rw [out_eq _ e]
  exact ⟨fun _ => h, fun _ => ha, hx, fun a h => .inl (hr a h), fun e' h => hr _ h⟩

theorem getitem_run {k : κ} {v : ν} (h : PyDict.lookup eqv s.dict k = some v) : getitem eqv k s = (.ok v, s) := by
  simp only [getitem, Py.get_bind, PyDict.getitem, h]; rfl

section
variable (he : IsEquiv eqv) (hL : L.Robust eqv it W)
include he hL

theorem wild_peekitem (hs : InStep eqv it W s) (i : Int) :
    ∃ l', peekitem eqv L i s = ((Spec.getInt i (itemsIn eqv (it s.list) s.dict)).1, { s with list := l' }) ∧
      InStep eqv it W { s with list := l' } ∧ it l' = it s.list := by
  obtain ⟨l', e, h1, h2⟩ := wild_query (hL.getInt i) hs (getInt_snd i)
  refine ⟨l', ?_, h2, h1⟩
  unfold peekitem
  rcases getInt_itemsIn (hs.lookup he) i with ⟨p, k, v, _, _, hv, h3, h4⟩ | ⟨_, h3, h4⟩
  · rw [h3] at e
    rw [h4, Py.bind_ok e, Py.bind_ok (getitem_run (s := { s with list := l' }) hv)]; rfl
  · rw [h3] at e
    rw [h4, Py.bind_error e]

theorem wild_valuesAt (hs : InStep eqv it W s) (i : Int) :
    ∃ l', valuesAt eqv L i s = ((Spec.getInt i ((itemsIn eqv (it s.list) s.dict).map Prod.snd)).1, { s with list := l' }) ∧
      InStep eqv it W { s with list := l' } ∧ it l' = it s.list := by
  obtain ⟨l', e, h1, h2⟩ := wild_query (hL.getInt i) hs (getInt_snd i)
  refine ⟨l', ?_, h2, h1⟩
  unfold valuesAt
  rw [getInt_map_snd]
  rcases getInt_itemsIn (hs.lookup he) i with ⟨p, k, v, _, _, hv, h3, h4⟩ | ⟨_, h3, h4⟩
  · rw [h3] at e
    rw [h4, Py.bind_ok e, getitem_run (s := { s with list := l' }) hv]; rfl
  · rw [h3] at e
    rw [h4, Py.bind_error e]; rfl

theorem wild_itemsSlice (hs : InStep eqv it W s) (sl : PySlice) :
    ∃ l', itemsSlice eqv L sl s = ((Spec.getSlice sl (itemsIn eqv (it s.list) s.dict)).1, { s with list := l' }) ∧
      InStep eqv it W { s with list := l' } ∧ it l' = it s.list := by
  obtain ⟨l', e, h1, h2⟩ := wild_query (hL.getSlice sl) hs (spec_getSlice_snd sl)
  refine ⟨l', ?_, h2, h1⟩
  unfold itemsSlice
  rcases getSlice_itemsIn (hs.lookup he) sl with ⟨ks, ps, h3, h4, _, h5⟩ | ⟨x, h3, h4, _⟩
  · rw [h3] at e
    rw [h4, Py.bind_ok e, mapEach_item (s := { s with list := l' }) h5]
  · rw [h3] at e
    rw [h4, Py.bind_error e]

theorem wild_valuesSlice (hs : InStep eqv it W s) (sl : PySlice) :
    ∃ l', valuesSlice eqv L sl s =
        ((Spec.getSlice sl ((itemsIn eqv (it s.list) s.dict).map Prod.snd)).1, { s with list := l' }) ∧
      InStep eqv it W { s with list := l' } ∧ it l' = it s.list := by
  obtain ⟨l', e, h1, h2⟩ := wild_query (hL.getSlice sl) hs (spec_getSlice_snd sl)
  refine ⟨l', ?_, h2, h1⟩
  unfold valuesSlice
  rcases getSlice_itemsIn (hs.lookup he) sl with ⟨ks, ps, h3, _, h4, h5⟩ | ⟨x, h3, _, h4⟩
  · rw [h3] at e
    have h6 : ks.map (PyDict.lookup eqv s.dict) = (ps.map Prod.snd).map some := by
      have := congrArg (List.map (Option.map Prod.snd)) h5
      rw [List.map_map, List.map_map] at this
      rw [List.map_map]
      refine Eq.trans ?_ (this.trans ?_)
      · refine List.map_congr_left fun k _ => ?_
        simp only [Function.comp_apply]
        cases PyDict.lookup eqv s.dict k <;> rfl
      · rfl
    rw [h4, Py.bind_ok e, mapEach_getitem (s := { s with list := l' }) h6]
  · rw [h3] at e
    rw [h4, Py.bind_error e]

theorem wild_step (hs : InStep eqv it W s) (op : SDOp κ ν) (hv : ∀ load, op = .reset load → 1 ≤ load) :
    Behaves eqv it W op s (step eqv L op s) := by
  -- queries of the list that are those of a plain list
  have q : ∀ {β : Type} {op : SDOp κ ν} {m : Py σ β} {f : Py (List κ) β} {g : β → DOut κ ν}, Refines W it m f → (∀ l, (f l).2 = l) →
      DictSpec.after eqv op (it s.list) s.dict = s.dict → (∀ l, DictSpec.remaining op l = l) →
      (∀ a, DictSpec.answer eqv op (it s.list) s.dict = some a → (f (it s.list)).1.map g = a) →
      Behaves eqv it W op s (out g (onList m) s) := by
    intro β op m f g hm hf h1 hx h2
    obtain ⟨l', e, h3, h5⟩ := wild_query hm hs hf
    exact behaves_sure e h5 h1.symm (fun _ => by rw [hx]; exact h3) h2
  -- queries of which nothing is known
  have w : ∀ {β : Type} {op : SDOp κ ν} {m : Py σ β} {g : β → DOut κ ν}, (W (m s.list).2 ∧ it (m s.list).2 = it s.list) →
      DictSpec.after eqv op (it s.list) s.dict = s.dict → (∀ l, DictSpec.remaining op l = l) → DictSpec.answer eqv op (it s.list) s.dict = none →
      Behaves eqv it W op s (out g (onList m) s) := by
    intro β op m g hm h1 hx h2
    exact behaves_sure (s' := { s with list := (m s.list).2 }) rfl
      ⟨hm.1, hs.keyed, by show (keys s.dict).Perm (it (m s.list).2); rw [hm.2]; exact hs.perm⟩
      h1.symm (fun _ => by rw [hx]; exact hm.2) (fun a h => by rw [h2] at h; cases h)
  -- calls that only read
  have r : ∀ {β : Type} {op : SDOp κ ν} {m : SD κ ν σ → Except PyErr β} {g : β → DOut κ ν},
      DictSpec.after eqv op (it s.list) s.dict = s.dict → (∀ l, DictSpec.remaining op l = l) →
      (∀ a, DictSpec.answer eqv op (it s.list) s.dict = some a → (m s).map g = a) →
      Behaves eqv it W op s (out g (read m) s) := by
    intro β op m g h1 hx h2
    exact behaves_sure (s' := s) rfl hs h1.symm (fun _ => (hx _).symm) h2
  -- calls that make a new dict
  have vo : ∀ {op : SDOp κ ν} (f : SD κ ν σ → Except PyErr (SD κ ν σ)),
      DictSpec.after eqv op (it s.list) s.dict = s.dict → (∀ l, DictSpec.remaining op l = l) → DictSpec.answer eqv op (it s.list) s.dict = none →
      Behaves eqv it W op s (out .items (itemsOf eqv L f) s) := by
    intro op f h1 hx h2
    have : itemsOf eqv L f s = ((itemsOf eqv L f s).1, s) := by simp only [itemsOf]; split <;> rfl
    exact behaves_sure this hs h1.symm (fun _ => (hx _).symm) (fun a h => by rw [h2] at h; cases h)
  cases op with
  | setitem k v =>
    refine behaves_compares hs rfl nofun fun _ s' e => ?_
    obtain ⟨h1, h2⟩ := wild_setitem hL hs k v e
    exact ⟨h1, h2, fun a h => by cases h; rfl⟩
  | delitem k =>
    cases hk : PyDict.has eqv s.dict k with
    | true =>
      have ha : DictSpec.answer eqv (.delitem k) (it s.list) s.dict = some (.ok .none) := by
        simp only [DictSpec.answer, hk, if_true]
      refine behaves_compares hs rfl (fun e => by rw [ha]; nofun) fun _ s' e => ?_
      obtain ⟨_, h1, h2⟩ := wild_delitem he hL hs e
      exact ⟨h1, h2, fun a h => by rw [ha] at h; cases h; rfl⟩
    | false =>
      refine behaves_sure (wild_delitem_absent hk) hs (erase_absent hk).symm nofun fun a h => ?_
      simp only [DictSpec.answer, hk, Bool.false_eq_true, if_false] at h
      cases h; rfl
  | clear =>
    obtain ⟨s', e, h1, h2⟩ := wild_clear hL hs
    exact behaves_sure e h1 h2 (fun _ => by have := h1.perm; rw [h2] at this; exact List.nil_perm.1 this) (fun a h => by cases h; rfl)
  | pop k default =>
    cases hk : PyDict.lookup eqv s.dict k with
    | some v =>
      have ha : DictSpec.answer eqv (.pop k default) (it s.list) s.dict = some (.ok (.val v)) := by
        simp only [DictSpec.answer, hk]
      refine behaves_compares hs rfl (fun e => by rw [ha]; nofun) fun x s' e => ?_
      obtain ⟨rfl, h1, h2⟩ := wild_pop_present he hL hs hk default e
      exact ⟨h1, h2, fun a h => by rw [ha] at h; cases h; rfl⟩
    | none =>
      refine behaves_sure (wild_pop_absent hk default) hs
        (erase_absent (by rw [has_eq_lookup, hk]; rfl)).symm nofun fun a h => ?_
      simp only [DictSpec.answer, hk] at h
      cases default <;> cases h <;> rfl
  | popitem i =>
    show Behaves eqv it W _ s (out _ (popitem eqv L i) s)
    by_cases h0 : s.dict.length = 0
    · have e : popitem eqv L i s = (.error .keyError, s) := by
        simp only [popitem, Py.get_bind, h0, if_true]; rfl
      refine behaves_sure e hs ?_ (fun _ => ?_) fun a h => ?_
      · obtain hd : s.dict = [] := List.length_eq_zero_iff.1 h0
        show _ = match (Spec.getInt i (it s.list)).1 with | .ok k => erase eqv s.dict k | .error _ => s.dict
        rw [hd]
        split <;> rfl
      · have hp := hs.perm
        rw [List.length_eq_zero_iff.1 h0] at hp
        rw [List.nil_perm.1 hp]
        simp only [DictSpec.remaining, Spec.delInt]
        split <;> rfl
      · simp only [DictSpec.answer, h0, if_true] at h
        cases h; rfl
    · have e0 : popitem eqv L i s = (onList (L.pop i) >>= fun key => dictPop eqv key >>= fun value => pure (key, value)) s := by
        simp only [popitem, Py.get_bind, h0, if_false]
      rcases wild_list_pop he hL hs i with ⟨k, v, l', h1, h2, h3, e, h4, h5⟩ | ⟨l', h1, h2, e, h4, h5⟩
      · rw [Py.bind_ok e, Py.bind_ok (dictPop_run (s := { s with list := l' }) h2)] at e0
        refine behaves_sure e0 h4 ?_ (fun _ => h5) fun a h => ?_
        · simp only [DictSpec.after, h1]
        · simp only [DictSpec.answer, h0, if_false, spec_out_fst, h3] at h
          cases h; rfl
      · rw [Py.bind_error e] at e0
        refine behaves_sure e0 h4 ?_ (fun _ => h5) fun a h => ?_
        · simp only [DictSpec.after, h1]
        · simp only [DictSpec.answer, h0, if_false, spec_out_fst, h2] at h
          cases h; rfl
  | peekitem i =>
    obtain ⟨l', e, h1, h2⟩ := wild_peekitem he hL hs i
    exact behaves_sure e h1 rfl (fun _ => h2) fun a h => by cases h; rw [spec_out_fst]
  | setdefault k v =>
    refine behaves_compares hs rfl nofun fun x s' e => ?_
    obtain ⟨rfl, h1, h2⟩ := wild_setdefault hL hs k v e
    exact ⟨h1, h2, fun a h => by cases h; rfl⟩
  | update arg =>
    refine behaves_compares hs rfl (fun e => by simp only [DictSpec.answer]; split <;> nofun) fun x s' e => ?_
    obtain ⟨h0, h1, h2⟩ := wild_update he hL hs e
    exact ⟨h1, h2, fun a h => by simp only [DictSpec.answer, h0, if_true] at h; cases h; rfl⟩
  | getitem k =>
    have e : getitem eqv k s = (PyDict.getitem eqv s.dict k, s) := by
      simp only [getitem, Py.get_bind, Py.lift]
    refine behaves_sure e hs rfl (fun _ => rfl) fun a h => ?_
    simp only [DictSpec.answer, spec_out_fst, Py.lift] at h
    cases h
    cases PyDict.getitem eqv s.dict k <;> rfl
  | get k => exact r (op := .get k) rfl (fun _ => rfl) fun a h => by cases h; rfl
  | contains k => exact r (op := .contains k) rfl (fun _ => rfl) fun a h => by cases h; rfl
  | len => exact r (op := .len) (g := fun (n : Nat) => .int n) rfl (fun _ => rfl) fun a h => by cases h; rfl
  | iter => exact r (op := .iter) rfl (fun _ => rfl) fun a h => by cases h; rw [iter, hL.iter]; rfl
  | reversed => exact r (op := .reversed) rfl (fun _ => rfl) fun a h => by cases h; rw [reversed, hL.reversed _ hs.list]; rfl
  | items => exact r (op := .items) rfl (fun _ => rfl) fun a h => by cases h; rw [wild_items he hL hs]; rfl
  | values => exact r (op := .values) rfl (fun _ => rfl) fun a h => by cases h; rw [wild_values he hL hs]; rfl
  | keysAt i => exact q (hL.getInt i) (getInt_snd i) rfl (fun _ => rfl) fun a h => by cases h; rw [spec_out_fst]
  | keysSlice sl => exact q (hL.getSlice sl) (spec_getSlice_snd sl) rfl (fun _ => rfl) fun a h => by cases h; rw [spec_out_fst]
  | itemsAt i =>
    obtain ⟨l', e, h1, h2⟩ := wild_peekitem he hL hs i
    exact behaves_sure e h1 rfl (fun _ => h2) fun a h => by cases h; rw [spec_out_fst]
  | itemsSlice sl =>
    obtain ⟨l', e, h1, h2⟩ := wild_itemsSlice he hL hs sl
    exact behaves_sure e h1 rfl (fun _ => h2) fun a h => by cases h; rw [spec_out_fst]
  | valuesAt i =>
    obtain ⟨l', e, h1, h2⟩ := wild_valuesAt he hL hs i
    exact behaves_sure e h1 rfl (fun _ => h2) fun a h => by cases h; rw [spec_out_fst]
  | valuesSlice sl =>
    obtain ⟨l', e, h1, h2⟩ := wild_valuesSlice he hL hs sl
    exact behaves_sure e h1 rfl (fun _ => h2) fun a h => by cases h; rw [spec_out_fst]
  | viewDelInt i =>
    have hdel : ∀ k, (Spec.getInt i (it s.list)).1 = .ok k → (Spec.delInt i (it s.list)).1 = .ok () := by
      intro k hk
      unfold Spec.getInt at hk
      unfold Spec.delInt
      cases hp : Spec.position (it s.list).length i with
      | none => rw [hp] at hk; cases hk
      | some p => rfl
    have hdel' : (Spec.getInt i (it s.list)).1 = .error .indexError → (Spec.delInt i (it s.list)).1 = .error .indexError := by
      intro hk
      unfold Spec.getInt at hk
      unfold Spec.delInt
      cases hp : Spec.position (it s.list).length i with
      | none => rfl
      | some p =>
        have := position_lt hp
        simp only [hp, Option.bind_some, List.getElem?_eq_getElem this] at hk
        cases hk
    have e0 : viewDelInt eqv L i s = (onList (L.pop i) >>= fun key => dictDelitem eqv key) s := rfl
    rcases wild_list_pop he hL hs i with ⟨k, v, l', h1, h2, h3, e, h4, h5⟩ | ⟨l', h1, h2, e, h4, h5⟩
    · rw [Py.bind_ok e, dictDelitem_run (s := { s with list := l' }) (by
        show PyDict.has eqv s.dict k = true
        rw [has_eq_lookup, h2]; rfl)] at e0
      refine behaves_sure e0 h4 ?_ (fun _ => h5) fun a h => ?_
      · simp only [DictSpec.after, h1]
      · simp only [DictSpec.answer, spec_out_fst, hdel k h1] at h
        cases h; rfl
    · rw [Py.bind_error e] at e0
      refine behaves_sure e0 h4 ?_ (fun _ => h5) fun a h => ?_
      · simp only [DictSpec.after, h1]
      · simp only [DictSpec.answer, spec_out_fst, hdel' h1] at h
        cases h; rfl
  | viewDelSlice sl =>
    show Behaves eqv it W _ s (out _ (viewDelSlice eqv L sl) s)
    rcases wild_viewDelSlice he hL hs sl with ⟨x, l', h1, h2, e⟩ | ⟨ks, h1, h2, h3⟩
    · rw [out_eq _ e]
      have ha : ∀ a, DictSpec.answer eqv (.viewDelSlice sl) (it s.list) s.dict = some a → .error x = a := by
        intro a h
        simp only [DictSpec.answer, spec_out_fst, h2] at h
        cases h; rfl
      refine ⟨fun h => ?_, fun h => ?_, nofun, fun a h => .inl (ha a h), fun e' h => ha _ h⟩
      · rcases h rfl with ⟨o, ho⟩ | h
        · cases ho
        · dsimp only at h ⊢; rw [h]; exact hs
      · obtain ⟨o, ho⟩ := h rfl; cases ho
    · have ha : DictSpec.answer eqv (.viewDelSlice sl) (it s.list) s.dict = some (.ok .none) := by
        simp only [DictSpec.answer, spec_out_fst, h2]; rfl
      refine behaves_compares hs rfl (fun e => by rw [ha]; nofun) fun _ s' e => ?_
      obtain ⟨h4, h5⟩ := h3 s' e
      exact ⟨h4, by simp only [DictSpec.after, h1]; exact h5, fun a h => by rw [ha] at h; cases h; rfl⟩
  | bisectLeft v => exact w (hL.bisectLeft v hs.list) rfl (fun _ => rfl) rfl
  | bisectRight v => exact w (hL.bisectRight v hs.list) rfl (fun _ => rfl) rfl
  | index v a b => exact w (hL.index v a b hs.list) rfl (fun _ => rfl) rfl
  | irange lo hi a b r => exact w (hL.irange lo hi a b r hs.list) rfl (fun _ => rfl) rfl
  | islice a b r =>
    exact q (hL.islice a b r) (fun l => by simp only [Spec.islice]; split <;> rfl) rfl (fun _ => rfl)
      (fun _ h => by cases h; rw [spec_out_fst])
  | reset load =>
    refine behaves_compares hs rfl nofun fun _ s' e => ?_
    obtain ⟨h1, h2⟩ := onList_returned e
    obtain ⟨h3, h4⟩ := hL.reset hs.list (hv load rfl) h1
    exact ⟨⟨h3, by rw [h2]; exact hs.keyed, by rw [h2]; exact hs.perm.trans h4.symm⟩, h2, fun a h => by cases h; rfl⟩
  | copy => exact vo _ rfl (fun _ => rfl) rfl
  | or other => exact vo _ rfl (fun _ => rfl) rfl
  | ror other => exact vo _ rfl (fun _ => rfl) rfl

/-- The calls that make a new dict. -/
theorem wild_result (hs : InStep eqv it W s) (op : SDOp κ ν) {ps : List (κ × ν)} (e : (step eqv L op s).1 = .ok (.items ps))
    (k : κ) {o : Option ν} (ho : DictSpec.result eqv op s.dict k = some o) : Keyed eqv ps ∧ lookup eqv ps k = o := by
  have own : ∀ k, lookup eqv (itemsIn eqv (it s.list) s.dict) k = lookup eqv s.dict k := fun k =>
    lookup_itemsIn he hs.keyed hs.perm k
  have hk : Keyed eqv (itemsIn eqv (it s.list) s.dict) := by
    unfold Keyed; rw [keys_itemsIn (hs.lookup he)]; exact hs.distinct he
  have rev : lookup eqv (itemsIn eqv (it s.list) s.dict).reverse k = lookup eqv s.dict k := by
    rw [← own k]; exact (lookup_perm he (List.reverse_perm _).symm hk k).symm
  have key : ∀ (f : SD κ ν σ → Except PyErr (SD κ ν σ)) (arg : List (κ × ν)),
      (out .items (itemsOf eqv L f) s).1 = .ok (.items ps) → f s = new eqv L (.pairs arg none) →
      lookup eqv arg.reverse k = o → Keyed eqv ps ∧ lookup eqv ps k = o := by
    intro f arg e hf ho
    rcases ef : f s with x | t
    · have : itemsOf eqv L f s = (.error x, s) := by simp only [itemsOf, ef]
      rw [out_eq _ this] at e; cases e
    · rw [ef] at hf
      obtain ⟨_, h1, h2⟩ := wild_new hL hf.symm
      have : itemsOf eqv L f s = (.ok (itemsIn eqv (it t.list) t.dict), s) := by
        simp only [itemsOf, ef, wild_items he hL h1]
      rw [out_eq _ this] at e
      cases e
      refine ⟨by unfold Keyed; rw [keys_itemsIn (h1.lookup he)]; exact h1.distinct he, ?_⟩
      rw [lookup_itemsIn he h1.keyed h1.perm, h2]
      show lookup eqv (PyDict.update eqv [] arg) k = o
      rw [lookup_update he, ho]
      cases o <;> rfl
  have hi := wild_items he hL hs
  cases op with
  | copy =>
    cases ho
    refine key (copy eqv L) _ e (by unfold copy; rw [hi]; rfl) rev
  | or other =>
    cases ho
    refine key (or eqv L other) _ e (by unfold or; rw [hi]; rfl) ?_
    rw [List.reverse_append, lookup_append, rev]
  | ror other =>
    cases ho
    refine key (ror eqv L other) _ e (by unfold ror; rw [hi]; rfl) ?_
    rw [List.reverse_append, lookup_append, rev]
  | _ => cases ho

end

theorem Wild.inStep {c : ListClass κ} (he : IsEquiv eqv) {s : SD κ ν c.State} (h : SD.Wild eqv c s) :
    InStep eqv c.values c.W s := by
  induction h with
  | new hL e => exact (wild_new hL.robust e).2.1
  | step op hL hv _ hc ih => exact (wild_step he hL.robust ih op hv).keeps hc
  | keyCall hL hm _ ih =>
    rename_i L s m _
    obtain ⟨h1, h2⟩ := hL.robust.keyCall hm ih.list
    exact ⟨h1, ih.keyed, by show (keys s.dict).Perm (c.values (m s.list).2); rw [h2]; exact ih.perm⟩
  | cleared hL hs =>
    rename_i L s
    obtain ⟨l', e, h1, h2⟩ := hL.any.clear hs.load_pos
    have : SD.clear L s = (.ok (), { dict := [], list := l' }) := by
      simp only [SD.clear, SD.onDict, Py.modify_bind, SD.onList, e]
    rw [this]
    exact ⟨h1, Keyed.nil, by show ([] : List κ).Perm (c.values l'); rw [h2]⟩

end SD
end Verif
