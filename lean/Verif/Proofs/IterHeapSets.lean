import Verif.Proofs.IterBox
import Verif.Proofs.SortedSet
import Verif.Proofs.SortedDict
/-!
# Iterators of sets and dicts that hold list objects
-/

namespace Verif

/-- From a state with `P` the call leads to a state with `Q`, whether it raises or not. -/
def Leads {σ β : Type} (P Q : σ → Prop) (m : Py σ β) : Prop := ∀ s, P s → Q (m s).2

theorem Preserves.leads {σ β : Type} {P : σ → Prop} {m : Py σ β} (h : Preserves P m) : Leads P P m := h

namespace Leads
variable {σ β γ : Type} {P P' Q : σ → Prop}

theorem bind {m : Py σ β} {f : β → Py σ γ} (h1 : Leads P P' m) (hw : ∀ s, P' s → Q s) (h2 : ∀ b, Leads P' Q (f b)) :
    Leads P Q (m >>= f) := by
  intro s hs
  have := h1 s hs
  rw [Py.bind_apply]
  rcases hm : m s with ⟨_ | b, s'⟩ <;> rw [hm] at this
  · exact hw _ this
  · exact h2 b s' this

theorem then_ {m : Py σ β} {f : β → Py σ γ} (h1 : Leads P Q m) (h2 : ∀ b, Preserves Q (f b)) : Leads P Q (m >>= f) :=
  bind h1 (fun _ h => h) h2

theorem get {f : σ → Py σ γ} (h : ∀ b, Leads P Q (f b)) : Leads P Q (Py.get >>= f) := fun s hs => h s s hs

theorem ite {p : Prop} [Decidable p] {m m' : Py σ β} (h : Leads P Q m) (h' : Leads P Q m') :
    Leads P Q (if p then m else m') := by
  by_cases hp : p
  · rw [if_pos hp]; exact h
  · rw [if_neg hp]; exact h'

theorem mono {m : Py σ β} (h : Leads P P' m) (hw : ∀ s, P' s → Q s) : Leads P Q m := fun s hs => hw _ (h s hs)

end Leads

namespace Heap
variable {α κ : Type}

/-- No list object is changed, and all values of the sorted list are values of before. -/
structure Calm (c0 c : Ctx α κ) : Prop where
  cells : Untouched c0 c
  values : ∀ v ∈ Verif.Core.iter c.view, v ∈ Verif.Core.iter c0.view
  own : Own c

/-- Values were added one by one. -/
structure Added (c0 c : Ctx α κ) : Prop where
  attached : Attached c0 c
  rel : ∃ s, Rel c0 c s

/-- Values were removed one by one. -/
structure Pruned (c0 c : Ctx α κ) : Prop where
  shrinks : Shrinks c0 c
  own : Own c

/-- After a call. -/
structure Any (c0 c : Ctx α κ) : Prop where
  own : Own c
  live : Live c0 c

variable {c0 c c1 : Ctx α κ}

theorem Calm.refl (h : Own c) : Calm c c := ⟨Untouched.refl c, fun _ h => h, h⟩
theorem Added.refl (h : Own c) : Added c c := ⟨fun _ h => h, _, h.rel⟩
theorem Pruned.refl (h : Own c) : Pruned c c := ⟨Shrinks.refl c, h⟩
theorem Calm.any (h : Calm c0 c) : Any c0 c := ⟨h.own, h.cells.live⟩
theorem Added.any (h : Added c0 c) : Any c0 c := by
  obtain ⟨h1, s, h2⟩ := h
  exact ⟨h2.own, h1.live h2⟩
theorem Pruned.any (h : Pruned c0 c) : Any c0 c := ⟨h.own, h.shrinks.live⟩

theorem Calm.any_trans (h : Calm c0 c) (h' : Any c c1) : Any c0 c1 := by
  obtain ⟨h1, h2, h3⟩ := h'
  refine ⟨h1, Nat.le_trans h.cells.1 h2, fun a ha v hv => ?_⟩
  rcases h3 a (Nat.lt_of_lt_of_le ha h.cells.1) v hv with h4 | h4 | h4
  · rw [h.cells.2 a ha] at h4; exact .inl h4
  · exact .inr (.inl (h.values v h4))
  · exact .inr (.inr h4)

theorem iter_reading {β : Type} (m : Py (St α κ) β) (c : Ctx α κ) :
    Verif.Core.iter (reading m c).2.view = Verif.Core.iter c.view := rfl

theorem calm_reading {β : Type} (m : Py (St α κ) β) : Preserves (Calm c0) (reading m) := fun _ h =>
  ⟨h.cells.reading m, h.values, LiveSys.Own.congr h.own rfl rfl rfl⟩

section
variable {H : HeapAPI α κ} {V : Verif.Methods α κ} (hH : HeapSim H V) (hL : HeapLive H)
include hH hL

theorem calm_clear : Preserves (Calm c0) H.M.clear := fun c h => by
  obtain ⟨e1, e2⟩ := hL.methods.clear c
  refine ⟨?_, fun v hv => ?_, (hH.methods.clear h.own.rel).1.own⟩
  · unfold Untouched Ctx.cell
    rw [e1]; exact h.cells
  · obtain ⟨a, ha, _⟩ := mem_iter.1 hv
    rw [e2] at ha; simp at ha

omit hL in
theorem calm_getSlice (sl : PySlice) : Preserves (Calm c0) (H.list.getSlice sl) := fun c h => by
  have h1 := Core.getSlice_untouched H.M.ilog2 sl h.own.rel (Untouched.refl c)
  have h2 : Untouched c (H.list.getSlice sl c).2 := Ends.bind h1 fun _ _ => h1
  have h3 := getSlice_list_out hH sl h.own.rel
  have e : (H.list.getSlice sl c).2.self.lists = c.self.lists :=
    Preserves.bind (Core.keeps_getSlice H.M.ilog2 sl _) (fun _ => keeps_read _ _) c rfl
  refine ⟨h.cells.trans h2, fun v hv => ?_, h3.1.own⟩
  obtain ⟨a, ha, hv⟩ := mem_iter.1 hv
  rw [e] at ha
  rw [h2.2 a (h.own.bound a ha)] at hv
  exact h.values v (mem_iter.2 ⟨a, ha, hv⟩)

theorem add_added (v : α) : Preserves (Added c0) (H.add v) := fun c h => by
  obtain ⟨h1, s, h2⟩ := h
  exact ⟨hL.add v h1, _, (hH.add v h2).1⟩

theorem pruned_remove (v : α) : Preserves (Pruned c0) (H.remove v) := fun c h =>
  ⟨hL.remove v h.shrinks, (hH.remove v h.own.rel).1.own⟩

theorem any_add (v : α) : Leads (Calm c0) (Any c0) (H.add v) := fun c h =>
  h.any_trans (add_added hH hL v c (.refl h.own)).any

theorem any_remove (v : α) : Leads (Calm c0) (Any c0) (H.remove v) := fun c h =>
  h.any_trans (pruned_remove hH hL v c (.refl h.own)).any

theorem any_update (xs : List α) : Leads (Calm c0) (Any c0) (H.M.update (.values xs)) := fun _ h =>
  h.any_trans ⟨(hH.methods.update (src := .values xs) (xs := xs) h.own.rel rfl).1.own, update_call_live hH hL _ h.own⟩

theorem any_delInt (i : Int) : Leads (Calm c0) (Any c0) (Core.delInt H.M i) := fun c h =>
  h.any_trans ⟨(Core.delInt_out hH.methods i h.own.rel).1.own, (Core.delInt_shrinks hL.methods i (Shrinks.refl c)).live⟩

theorem any_delSlice (sl : PySlice) : Leads (Calm c0) (Any c0) (Core.delSlice H.M sl) := fun _ h =>
  h.any_trans ⟨(Core.delSlice_out hH.methods sl h.own.rel).1.own, Core.delSlice_live hH.methods hL.methods sl h.own⟩

theorem any_pop (i : Int) : Leads (Calm c0) (Any c0) (Core.pop H.M i) := fun c h =>
  h.any_trans ⟨(Core.pop_out hH.methods i h.own.rel).1.own, (Core.pop_shrinks hL.methods i (Shrinks.refl c)).live⟩

theorem any_reset (load : Nat) : Leads (Calm c0) (Any c0) (Core.reset H.M load) := fun c h =>
  h.any_trans ⟨(Core.reset_out hH.methods load h.own.rel).1.own,
    (Core.reset_untouched hH.methods hL.methods load h.own (Untouched.refl c)).live⟩

end
end Heap

open Heap

namespace SS
variable {α κ τ : Type} {S : SetOps τ α} {H : HeapAPI α κ} {V : Verif.Methods α κ} {c0 : Ctx α κ}

theorem keeps_onList {β : Type} {P : Ctx α κ → Prop} {m : Run α κ β} (h : Preserves P m) :
    Preserves (fun s : SS τ (Ctx α κ) => P s.list) (onList m) := fun s hs => h s.list hs

theorem leads_onList {β : Type} {P Q : Ctx α κ → Prop} {m : Run α κ β} (h : Leads P Q m) :
    Leads (fun s : SS τ (Ctx α κ) => P s.list) (fun s => Q s.list) (onList m) := fun s hs => h s.list hs

theorem keeps_onSet {P : Ctx α κ → Prop} (f : τ → τ) : Preserves (fun s : SS τ (Ctx α κ) => P s.list) (onSet f) := fun _ h => h

theorem keeps_setRemove {P : Ctx α κ → Prop} (v : α) : Preserves (fun s : SS τ (Ctx α κ) => P s.list) (setRemove S v) :=
  fun s h => by unfold setRemove; split <;> exact h

theorem keeps_valuesOf {L : ListAPI (Ctx α κ) α} {P : Ctx α κ → Prop} (f : SS τ (Ctx α κ) → Except PyErr (SS τ (Ctx α κ))) :
    Preserves (fun s : SS τ (Ctx α κ) => P s.list) (valuesOf L f) := fun s h => by unfold valuesOf; split <;> exact h

theorem leads_out {β : Type} {P Q : SS τ (Ctx α κ) → Prop} {m : Py (SS τ (Ctx α κ)) β} (f : β → Verif.Out α) (h : Leads P Q m) :
    Leads P Q (Spec.out f m) := fun s hs => by rw [Spec.out_snd]; exact h s hs

section
variable (hH : HeapSim H V) (hL : HeapLive H)
include hH hL

theorem rebuild_any : Leads (fun s : SS τ (Ctx α κ) => Calm c0 s.list) (fun s => Any c0 s.list) (rebuild S H.list) :=
  Leads.bind (keeps_onList (calm_clear hH hL)).leads (fun _ h => h.any) fun _ => Leads.get fun _ => leads_onList (any_update hH hL _)

theorem discard_pruned (v : α) : Preserves (fun s : SS τ (Ctx α κ) => Pruned c0 s.list) (discard S H.list v) :=
  Preserves.bind Preserves.get fun _ => Preserves.ite
    (Preserves.bind (keeps_setRemove (P := Pruned c0) v) fun _ => keeps_onList (pruned_remove hH hL v)) (Preserves.pure _)

theorem add_added (v : α) : Preserves (fun s : SS τ (Ctx α κ) => Added c0 s.list) (add S H.list v) :=
  Preserves.bind Preserves.get fun _ => Preserves.ite (Preserves.pure _)
    (Preserves.bind (keeps_onSet (P := Added c0) _) fun _ => keeps_onList (Heap.add_added hH hL v))

theorem step_any (op : SSOp α) {s : SS τ (Ctx α κ)} (ho : Own s.list) : Any s.list (step S H.list op s).2.list := by
  have hc := Calm.refl ho
  have one : ∀ {β : Type} (f : β → Verif.Out α) {m : Py (SS τ (Ctx α κ)) β}, Any s.list (m s).2.list → Any s.list (Spec.out f m s).2.list :=
    fun f m h => leads_out (P := fun x => x = s) (Q := fun x => Any s.list x.list) f (fun x hx => hx ▸ h) s rfl
  have key : ∀ {β : Type} (f : β → Verif.Out α) {m : Py (SS τ (Ctx α κ)) β},
      Leads (fun x : SS τ (Ctx α κ) => Calm s.list x.list) (fun x => Any s.list x.list) m → Any s.list (Spec.out f m s).2.list :=
    fun f m h => leads_out f h s hc
  have rd : ∀ {β : Type} (f : β → Verif.Out α) {m : Py (SS τ (Ctx α κ)) β},
      Preserves (fun x : SS τ (Ctx α κ) => Calm s.list x.list) m → Any s.list (Spec.out f m s).2.list :=
    fun f m h => key f (Leads.mono h.leads fun _ h => h.any)
  have lst : ∀ {β : Type} (m : Py (St α κ) β), Preserves (fun x : SS τ (Ctx α κ) => Calm s.list x.list) (onList (reading m)) :=
    fun m => keeps_onList (calm_reading m)
  cases op with
  | add v =>
    exact one _ (add_added (S := S) hH hL v s (Added.refl ho)).any
  | discard v =>
    exact one _ (discard_pruned (S := S) hH hL v s (Pruned.refl ho)).any
  | remove v => exact key _ (Leads.bind (keeps_setRemove v).leads (fun _ h => h.any) fun _ => leads_onList (any_remove hH hL v))
  | pop i =>
    exact key _ (Leads.then_ (leads_onList (any_pop hH hL i)) fun v =>
      Preserves.bind (keeps_setRemove (P := Any s.list) v) fun _ => Preserves.pure _)
  | delInt i =>
    exact key _ (Leads.bind (lst _).leads (fun _ h => h.any) fun v =>
      Leads.bind (keeps_setRemove v).leads (fun _ h => h.any) fun _ => leads_onList (any_delInt hH hL i))
  | delSlice sl =>
    exact key _ (Leads.bind (keeps_onList (calm_getSlice hH sl)).leads (fun _ h => h.any) fun v =>
      Leads.bind (keeps_onSet _).leads (fun _ h => h.any) fun _ => leads_onList (any_delSlice hH hL sl))
  | clear => exact rd _ (Preserves.bind (keeps_onSet (P := Calm s.list) _) fun _ => keeps_onList (calm_clear hH hL))
  | update xss =>
    refine one _ ?_
    unfold update
    rw [Py.get_bind]
    split
    · exact Leads.bind (keeps_onSet _).leads (fun _ h => h.any) (fun _ => rebuild_any hH hL) s hc
    · exact Added.any (Preserves.forEach (fun v => add_added hH hL v) _ s (Added.refl ho))
  | differenceUpdate xss =>
    refine one _ ?_
    unfold differenceUpdate
    rw [Py.get_bind]
    split
    · exact Leads.bind (keeps_onSet _).leads (fun _ h => h.any) (fun _ => rebuild_any hH hL) s hc
    · exact Pruned.any (Preserves.forEach (fun v => discard_pruned hH hL v) _ s (Pruned.refl ho))
  | intersectionUpdate xss => exact key _ (Leads.bind (keeps_onSet _).leads (fun _ h => h.any) fun _ => rebuild_any hH hL)
  | symmetricDifferenceUpdate xs => exact key _ (Leads.bind (keeps_onSet _).leads (fun _ h => h.any) fun _ => rebuild_any hH hL)
  | getInt i => exact rd _ (lst _)
  | getSlice sl => exact rd _ (keeps_onList (calm_getSlice hH sl))
  | bisectLeft v => exact rd _ (lst _)
  | bisectRight v => exact rd _ (lst _)
  | index v a b => exact rd _ (lst _)
  | irange lo hi a b r => exact rd _ (lst _)
  | islice a b r => exact rd _ (lst _)
  | reset load => exact key _ (leads_onList (any_reset hH hL load))
  | copy => exact rd _ (keeps_valuesOf (P := Calm s.list) _)
  | union xss => exact rd _ (keeps_valuesOf (P := Calm s.list) _)
  | intersection xss => exact rd _ (keeps_valuesOf (P := Calm s.list) _)
  | difference xss => exact rd _ (keeps_valuesOf (P := Calm s.list) _)
  | symmetricDifference xs => exact rd _ (keeps_valuesOf (P := Calm s.list) _)
  | _ => exact hc.any

end
end SS

namespace SD
variable {κ κ' ν : Type} {eqv : κ → κ → Bool} {H : HeapAPI κ κ'} {V : Verif.Methods κ κ'} {c0 : Ctx κ κ'}

theorem keeps_onList {β : Type} {P : Ctx κ κ' → Prop} {m : Run κ κ' β} (h : Preserves P m) :
    Preserves (fun s : SD κ ν (Ctx κ κ') => P s.list) (onList m) := fun s hs => h s.list hs

theorem leads_onList {β : Type} {P Q : Ctx κ κ' → Prop} {m : Run κ κ' β} (h : Leads P Q m) :
    Leads (fun s : SD κ ν (Ctx κ κ') => P s.list) (fun s => Q s.list) (onList m) := fun s hs => h s.list hs

theorem keeps_onDict {P : Ctx κ κ' → Prop} (f : List (κ × ν) → List (κ × ν)) :
    Preserves (fun s : SD κ ν (Ctx κ κ') => P s.list) (onDict f) := fun _ h => h

theorem keeps_getitem {P : Ctx κ κ' → Prop} (k : κ) : Preserves (fun s : SD κ ν (Ctx κ κ') => P s.list) (getitem eqv k) :=
  Preserves.bind Preserves.get fun _ => Preserves.lift _

theorem keeps_dictDelitem {P : Ctx κ κ' → Prop} (k : κ) : Preserves (fun s : SD κ ν (Ctx κ κ') => P s.list) (dictDelitem eqv k) :=
  Preserves.bind Preserves.get fun _ => Preserves.ite (keeps_onDict _) (Preserves.raise _)

theorem keeps_dictPop {P : Ctx κ κ' → Prop} (k : κ) : Preserves (fun s : SD κ ν (Ctx κ κ') => P s.list) (dictPop eqv k) :=
  Preserves.bind Preserves.get fun _ => Preserves.bind (Preserves.lift _) fun _ =>
    Preserves.bind (keeps_onDict _) fun _ => Preserves.pure _

theorem keeps_dictUpdate {P : Ctx κ κ' → Prop} (arg : DictArg κ ν) :
    Preserves (fun s : SD κ ν (Ctx κ κ') => P s.list) (dictUpdate eqv arg) :=
  Preserves.bind (keeps_onDict _) fun _ => by split <;> first | exact Preserves.pure _ | exact Preserves.raise _

theorem keeps_itemsOf {L : ListAPI (Ctx κ κ') κ} {P : Ctx κ κ' → Prop} (f : SD κ ν (Ctx κ κ') → Except PyErr (SD κ ν (Ctx κ κ'))) :
    Preserves (fun s : SD κ ν (Ctx κ κ') => P s.list) (itemsOf eqv L f) := fun s h => by unfold itemsOf; split <;> exact h

theorem leads_out {β : Type} {P Q : SD κ ν (Ctx κ κ') → Prop} {m : Py (SD κ ν (Ctx κ κ')) β} (f : β → DOut κ ν)
    (h : Leads P Q m) : Leads P Q (out f m) := Leads.then_ h fun _ => Preserves.pure _

section
variable (hH : HeapSim H V) (hL : HeapLive H)
include hH hL

theorem setitem_added (k : κ) (v : ν) : Preserves (fun s : SD κ ν (Ctx κ κ') => Added c0 s.list) (setitem eqv H.list k v) := by
  unfold setitem
  refine Preserves.bind Preserves.get fun s => ?_
  have hd := keeps_onDict (P := Added c0) (ν := ν) fun d => PyDict.set eqv d k v
  by_cases h : contains eqv k s = true
  · simp only [h, if_true]
    exact hd
  · simp only [h]
    exact Preserves.bind (keeps_onList (Heap.add_added hH hL k)) fun _ => hd

theorem step_any (op : SDOp κ ν) {s : SD κ ν (Ctx κ κ')} (ho : Own s.list) : Any s.list (step eqv H.list op s).2.list := by
  have hc := Calm.refl ho
  have one : ∀ {β : Type} (f : β → DOut κ ν) {m : Py (SD κ ν (Ctx κ κ')) β}, Any s.list (m s).2.list → Any s.list (out f m s).2.list :=
    fun f m h => leads_out (P := fun x => x = s) (Q := fun x => Any s.list x.list) f (fun x hx => hx ▸ h) s rfl
  have key : ∀ {β : Type} (f : β → DOut κ ν) {m : Py (SD κ ν (Ctx κ κ')) β},
      Leads (fun x : SD κ ν (Ctx κ κ') => Calm s.list x.list) (fun x => Any s.list x.list) m → Any s.list (out f m s).2.list :=
    fun f m h => leads_out f h s hc
  have rd : ∀ {β : Type} (f : β → DOut κ ν) {m : Py (SD κ ν (Ctx κ κ')) β},
      Preserves (fun x : SD κ ν (Ctx κ κ') => Calm s.list x.list) m → Any s.list (out f m s).2.list :=
    fun f m h => key f (Leads.mono h.leads fun _ h => h.any)
  have lst : ∀ {β : Type} (m : Py (St κ κ') β), Preserves (fun x : SD κ ν (Ctx κ κ') => Calm s.list x.list) (onList (reading m)) :=
    fun m => keeps_onList (calm_reading m)
  have weak : ∀ x : SD κ ν (Ctx κ κ'), Calm s.list x.list → Any s.list x.list := fun _ h => h.any
  cases op with
  | setitem k v =>
    exact one _ (setitem_added (eqv := eqv) hH hL k v s (Added.refl ho)).any
  | delitem k => exact key _ (Leads.bind (keeps_dictDelitem k).leads weak fun _ => leads_onList (any_remove hH hL k))
  | clear => exact rd _ (Preserves.bind (keeps_onDict (P := Calm s.list) _) fun _ => keeps_onList (calm_clear hH hL))
  | pop k default =>
    refine key _ (Leads.get fun x => Leads.ite ?_ ?_)
    · exact Leads.then_ (leads_onList (any_remove hH hL k)) fun _ => keeps_dictPop (P := Any s.list) k
    · cases default with
      | none => exact fun x h => weak x h
      | some v => exact fun x h => weak x h
  | popitem i =>
    refine key _ (Leads.get fun x => Leads.ite (fun x h => weak x h) ?_)
    exact Leads.then_ (leads_onList (any_pop hH hL i)) fun k =>
      Preserves.bind (keeps_dictPop (P := Any s.list) k) fun _ => Preserves.pure _
  | peekitem i =>
    exact rd _ (Preserves.bind (lst _) fun k => Preserves.bind (keeps_getitem (P := Calm s.list) k) fun _ => Preserves.pure _)
  | setdefault k v =>
    refine key _ (Leads.get fun x => Leads.ite ?_ ?_)
    · exact Leads.mono (keeps_getitem (P := Calm s.list) k).leads weak
    · exact Leads.bind (keeps_onDict _).leads weak fun _ => Leads.then_ (leads_onList (any_add hH hL k)) fun _ => Preserves.pure _
  | update arg =>
    refine one _ ?_
    unfold update
    rw [Py.get_bind]
    split
    · exact Leads.bind (keeps_dictUpdate _).leads weak (fun _ => Leads.get fun _ => leads_onList (any_update hH hL _)) s hc
    · cases hp : pairsOf eqv arg with
      | error e => exact hc.any
      | ok pairs =>
        rw [Py.lift_ok_bind]
        split
        · exact Leads.bind (keeps_dictUpdate _).leads weak (fun _ => Leads.bind (keeps_onList (calm_clear hH hL)).leads weak fun _ =>
            Leads.get fun _ => leads_onList (any_update hH hL _)) s hc
        · exact Added.any (Preserves.forEach (fun p : κ × ν => setitem_added (eqv := eqv) hH hL p.1 p.2) _ s (Added.refl ho))
  | getitem k => exact rd _ (keeps_getitem (P := Calm s.list) k)
  | keysAt i => exact rd _ (lst _)
  | keysSlice sl => exact rd _ (keeps_onList (calm_getSlice hH sl))
  | itemsAt i =>
    exact rd _ (Preserves.bind (lst _) fun k => Preserves.bind (keeps_getitem (P := Calm s.list) k) fun _ => Preserves.pure _)
  | itemsSlice sl =>
    exact rd _ (Preserves.bind (keeps_onList (calm_getSlice hH sl)) fun _ => Preserves.mapEach (fun k =>
      Preserves.bind (keeps_getitem (P := Calm s.list) k) fun _ => Preserves.pure _) _)
  | valuesAt i => exact rd _ (Preserves.bind (lst _) fun k => keeps_getitem (P := Calm s.list) k)
  | valuesSlice sl =>
    exact rd _ (Preserves.bind (keeps_onList (calm_getSlice hH sl)) fun _ => Preserves.mapEach (fun k =>
      keeps_getitem (P := Calm s.list) k) _)
  | viewDelInt i => exact key _ (Leads.then_ (leads_onList (any_pop hH hL i)) fun k => keeps_dictDelitem (P := Any s.list) k)
  | viewDelSlice sl =>
    exact key _ (Leads.bind (keeps_onList (calm_getSlice hH sl)).leads weak fun _ =>
      Leads.then_ (leads_onList (any_delSlice hH hL sl)) fun _ =>
        Preserves.forEach (fun k => keeps_dictDelitem (P := Any s.list) k) _)
  | bisectLeft k => exact rd _ (lst _)
  | bisectRight k => exact rd _ (lst _)
  | index k a b => exact rd _ (lst _)
  | irange lo hi a b r => exact rd _ (lst _)
  | islice a b r => exact rd _ (lst _)
  | reset load => exact key _ (leads_onList (any_reset hH hL load))
  | copy => exact rd _ (keeps_itemsOf (P := Calm s.list) _)
  | or other => exact rd _ (keeps_itemsOf (P := Calm s.list) _)
  | ror other => exact rd _ (keeps_itemsOf (P := Calm s.list) _)
  | _ => exact rd _ fun _ h => h

end
end SD

/-! ## The iterators -/

theorem ListClass.heapSim {α : Type} : (c : ListClass α) → ∃ V, HeapSim c.heapAPI V
  | .plain E => ⟨_, Heap.SL.heapSim E⟩
  | .keyed K => ⟨_, Heap.SKL.heapSim K⟩

theorem ListClass.heapLive {α : Type} : (c : ListClass α) → HeapLive c.heapAPI
  | .plain E => Heap.SL.heapLive E
  | .keyed K => Heap.SKL.heapLive K

theorem ListClass.openRef_facts {α : Type} (c : ListClass α) (k : IterKind α) (s : c.Ref) : (c.openRef k s).2.mem = s.mem ∧
    (c.openRef k s).2.self.lists = s.self.lists ∧ (c.openRef k s).2.self.keys = s.self.keys := by
  cases c with
  | plain E => exact (Heap.SL.liveSys_lawful E).opens k s
  | keyed K => exact (Heap.SKL.liveSys_lawful K).opens (.kind k) s

theorem ListClass.openRef_holds {α : Type} (c : ListClass α) (k : IterKind α) (s : c.Ref) (h : HCursor)
    (e : (c.openRef k s).1 = .ok h) : (∀ a ∈ h.addrs, a ∈ s.self.lists) ∧ (k = .iter ∨ k = .reversed → h.Plain) := by
  cases c with
  | plain E => exact (Heap.SL.liveSys_lawful E).holds k s h e
  | keyed K =>
    obtain ⟨h1, h2⟩ := (Heap.SKL.liveSys_lawful K).holds (.kind k) s h e
    exact ⟨h1, fun hk => h2 (by rcases hk with rfl | rfl <;> simp)⟩

theorem SS.liveSys_lawful {α τ : Type} (S : SetOps τ α) (c : ListClass α) :
    (SS.liveSys S c).Lawful (fun k => k = .iter ∨ k = .reversed) where
  call op s ho := by
    obtain ⟨V, hH⟩ := c.heapSim
    obtain ⟨h1, h2⟩ := SS.step_any (S := S) hH c.heapLive op ho
    exact ⟨h1, h2⟩
  opens k s := c.openRef_facts k s.list
  holds k s h e := c.openRef_holds k s.list h e

/-- The kinds of iterators of a dict that do not raise an IndexError. -/
def DIterKind.whole {κ : Type} (k : DIterKind κ) : Prop :=
  k = .keys .iter ∨ k = .keys .reversed ∨ k = .values ∨ k = .items

theorem SD.liveSys_lawful {κ ν : Type} (eqv : κ → κ → Bool) (c : ListClass κ) :
    (SD.liveSys (ν := ν) eqv c).Lawful DIterKind.whole where
  call op s ho := by
    obtain ⟨V, hH⟩ := c.heapSim
    obtain ⟨h1, h2⟩ := SD.step_any (eqv := eqv) hH c.heapLive op ho
    exact ⟨h1, h2⟩
  opens k s := c.openRef_facts _ s.list
  holds k s h e := by
    obtain ⟨h1, h2⟩ := c.openRef_holds _ s.list h e
    refine ⟨h1, fun hk => h2 ?_⟩
    rcases hk with rfl | rfl | rfl | rfl <;> simp

/-! ## What is promised -/

namespace Heap
variable {α κ : Type} {c0 c : Ctx α κ}

/-- The same list objects with the same values. -/
structure Kept (c0 c : Ctx α κ) : Prop where
  cells : Untouched c0 c
  lists : c.self.lists = c0.self.lists
  own : Own c

theorem Kept.refl (h : Own c) : Kept c c := ⟨Untouched.refl c, rfl, h⟩

theorem Kept.view (ho : Own c0) (h : Kept c0 c) : c.view.lists = c0.view.lists := by
  show c.self.lists.map c.cell = c0.self.lists.map c0.cell
  rw [h.lists]
  exact List.map_congr_left fun a ha => h.cells.2 a (ho.bound a ha)

theorem kept_reading {β : Type} (m : Py (St α κ) β) : Preserves (Kept c0) (reading m) := fun _ h =>
  ⟨h.cells.reading m, h.lists, LiveSys.Own.congr h.own rfl rfl rfl⟩

theorem kept_getSlice {H : HeapAPI α κ} {V : Verif.Methods α κ} (hH : HeapSim H V) (sl : PySlice) :
    Preserves (Kept c0) (H.list.getSlice sl) := fun c h => by
  have h1 := Core.getSlice_untouched H.M.ilog2 sl h.own.rel (Untouched.refl c)
  have h2 : Untouched c (H.list.getSlice sl c).2 := Ends.bind h1 fun _ _ => h1
  have e : (H.list.getSlice sl c).2.self.lists = c.self.lists :=
    Preserves.bind (Core.keeps_getSlice H.M.ilog2 sl _) (fun _ => keeps_read _ _) c rfl
  exact ⟨h.cells.trans h2, e.trans h.lists, (getSlice_list_out hH sl h.own.rel).1.own⟩

end Heap

theorem ListClass.heap_iter_fresh {α : Type} (c : ListClass α) : c.heap.iter Ctx.fresh = [] := by cases c <;> rfl

namespace SS
variable {α τ : Type} {S : SetOps τ α} {c : ListClass α}

theorem query_kept (op : SSOp α) (hq : op.isQuery = true) {s : SS τ c.Ref} (ho : Own s.list) :
    Kept s.list (step S c.heap op s).2.list := by
  obtain ⟨V, hH⟩ := c.heapSim
  have hc := Kept.refl ho
  have rd : ∀ {β : Type} (f : β → Verif.Out α) {m : Py (SS τ c.Ref) β},
      Preserves (fun x : SS τ c.Ref => Kept s.list x.list) m → Kept s.list (Spec.out f m s).2.list :=
    fun f m h => by rw [Spec.out_snd]; exact h s hc
  have lst : ∀ {β : Type} (m : Py (St α c.Key) β), Preserves (fun x : SS τ c.Ref => Kept s.list x.list) (onList (reading m)) :=
    fun m => keeps_onList (kept_reading m)
  cases op with
  | getInt i => exact rd _ (lst _)
  | getSlice sl => exact rd _ (keeps_onList (kept_getSlice hH sl))
  | bisectLeft v => exact rd _ (lst _)
  | bisectRight v => exact rd _ (lst _)
  | index v a b => exact rd _ (lst _)
  | irange lo hi a b r => exact rd _ (lst _)
  | islice a b r => exact rd _ (lst _)
  | copy => exact rd _ (keeps_valuesOf (P := Kept s.list) _)
  | union xss => exact rd _ (keeps_valuesOf (P := Kept s.list) _)
  | intersection xss => exact rd _ (keeps_valuesOf (P := Kept s.list) _)
  | difference xss => exact rd _ (keeps_valuesOf (P := Kept s.list) _)
  | symmetricDifference xs => exact rd _ (keeps_valuesOf (P := Kept s.list) _)
  | add | discard | remove | pop | delInt | delSlice | clear | update | differenceUpdate | intersectionUpdate
  | symmetricDifferenceUpdate | reset => cases hq
  | _ => exact hc

theorem liveSys_conforms [DecidableEq α] {O : Spec.Order α} {eqv : α → α → Bool} {I : c.Ref → Prop}
    (h : Good S c.heap O eqv I) (ht : Total O eqv) (hown : ∀ s, I s → Own s) (hop : Opens c O I) :
    (SS.liveSys S c).Conforms (SetSpec.iterSpec O) (Inv S c.heap I) (iter c.heap) SSOp.Valid where
  call op s hv hi := step_refines h ht op hv s hi
  quiet op s hv hi hq := by
    have hm : ∀ v, S.mem v s.set = decide (v ∈ iter c.heap s) := fun v => by rw [hi.mem h, ht.any]; rfl
    have ho := hown _ hi.list
    suffices hs : Kept s.list (step S c.heap op s).2.list from ⟨hs.lists, hs.view ho⟩
    cases op with
    | add v =>
      have hq : decide (v ∈ iter c.heap s) = true := hq
      simp only [step, Spec.out_snd, add, Py.get_bind, hm, hq, if_true]; exact Kept.refl ho
    | discard v =>
      have hq : decide (v ∉ iter c.heap s) = true := hq
      rw [decide_not, Bool.not_eq_true'] at hq
      simp only [step, Spec.out_snd, discard, Py.get_bind, hm, hq, Bool.false_eq_true, if_false]; exact Kept.refl ho
    | _ =>
      refine query_kept _ ?_ ho
      exact hq
  opens k s hi := by
    obtain ⟨cu, l', e, h1, h2, h3, h4, h5⟩ := hop s.list k hi.list
    refine ⟨cu, { s with list := l' }, ?_, h1, h2, h3, h4, h5, ?_⟩
    · show (((c.openRef k) s.list).1, { s with list := ((c.openRef k) s.list).2 }) = _
      rw [e]
    · rw [show c.heap.iter l' = _ from h4]; exact hi.perm
  view _ _ _ _ := rfl
  found _ _ _ v _ := ⟨v, rfl⟩
  stays _ _ _ _ _ _ _ b hb := ⟨b, hb⟩

theorem liveStart_inv {O : Spec.Order α} {eqv : α → α → Bool} {I : c.Ref → Prop} (h : Good S c.heap O eqv I)
    (hI : I Ctx.fresh) : Inv S c.heap I (liveStart S c) :=
  ⟨hI, by
    rw [show S.toList (liveStart S c).set = [] from h.set.empty,
      show c.heap.iter (liveStart S c).list = [] from c.heap_iter_fresh]⟩

end SS

namespace DictSpec
variable {κ ν : Type} {eqv : κ → κ → Bool} {O : Spec.Order κ}

theorem out_snd {τ β : Type} (f : β → DOut κ ν) (m : Py τ β) (t : τ) : (out f m t).2 = (m t).2 := by
  unfold out
  rw [Py.bind_apply]
  split <;> rename_i hx <;> rw [hx] <;> rfl

theorem query_kept (op : SDOp κ ν) (hq : op.isQuery = true) (d : List (κ × ν)) : (step eqv O op d).2 = d := by
  cases op <;> first | exact out_snd .. | cases hq

end DictSpec

namespace SD
variable {κ ν : Type} {eqv : κ → κ → Bool} {c : ListClass κ}

theorem query_kept (op : SDOp κ ν) (hq : op.isQuery = true) {s : SD κ ν c.Ref} (ho : Own s.list) :
    Kept s.list (step eqv c.heap op s).2.list := by
  obtain ⟨V, hH⟩ := c.heapSim
  have hc := Kept.refl ho
  have rd : ∀ {β : Type} (f : β → DOut κ ν) {m : Py (SD κ ν c.Ref) β},
      Preserves (fun x : SD κ ν c.Ref => Kept s.list x.list) m → Kept s.list (out f m s).2.list :=
    fun f m h => leads_out f h.leads s hc
  have lst : ∀ {β : Type} (m : Py (St κ c.Key) β), Preserves (fun x : SD κ ν c.Ref => Kept s.list x.list) (onList (reading m)) :=
    fun m => keeps_onList (kept_reading m)
  cases op with
  | peekitem i =>
    exact rd _ (Preserves.bind (lst _) fun k => Preserves.bind (keeps_getitem (P := Kept s.list) k) fun _ => Preserves.pure _)
  | getitem k => exact rd _ (keeps_getitem (P := Kept s.list) k)
  | keysAt i => exact rd _ (lst _)
  | keysSlice sl => exact rd _ (keeps_onList (kept_getSlice hH sl))
  | itemsAt i =>
    exact rd _ (Preserves.bind (lst _) fun k => Preserves.bind (keeps_getitem (P := Kept s.list) k) fun _ => Preserves.pure _)
  | itemsSlice sl =>
    exact rd _ (Preserves.bind (keeps_onList (kept_getSlice hH sl)) fun _ => Preserves.mapEach (fun k =>
      Preserves.bind (keeps_getitem (P := Kept s.list) k) fun _ => Preserves.pure _) _)
  | valuesAt i => exact rd _ (Preserves.bind (lst _) fun k => keeps_getitem (P := Kept s.list) k)
  | valuesSlice sl =>
    exact rd _ (Preserves.bind (keeps_onList (kept_getSlice hH sl)) fun _ => Preserves.mapEach (fun k =>
      keeps_getitem (P := Kept s.list) k) _)
  | bisectLeft k => exact rd _ (lst _)
  | bisectRight k => exact rd _ (lst _)
  | index k a b => exact rd _ (lst _)
  | irange lo hi a b r => exact rd _ (lst _)
  | islice a b r => exact rd _ (lst _)
  | copy => exact rd _ (keeps_itemsOf (P := Kept s.list) _)
  | or other => exact rd _ (keeps_itemsOf (P := Kept s.list) _)
  | ror other => exact rd _ (keeps_itemsOf (P := Kept s.list) _)
  | setitem | delitem | clear | pop | popitem | setdefault | update | viewDelInt | viewDelSlice | reset => cases hq
  | _ => exact rd _ fun _ h => h

theorem view_ok {O : Spec.Order κ} {d : List (κ × ν)} (k : DIterKind κ) (v : κ) :
    (∃ b, (DictSpec.iterSpec eqv O).view k v d = .ok b) ↔ (∃ k', k = .keys k') ∨ PyDict.has eqv d v = true := by
  cases k with
  | keys k => exact ⟨fun _ => .inl ⟨k, rfl⟩, fun _ => ⟨_, rfl⟩⟩
  | values | items =>
    rw [PyDict.has_eq_lookup]
    simp only [DictSpec.iterSpec, PyDict.getitem]
    cases PyDict.lookup eqv d v <;> simp [Except.map]

theorem liveSys_conforms {O : Spec.Order κ} {I : c.Ref → Prop} (h : Good c.heap O eqv I) (hown : ∀ s, I s → Own s)
    (hop : Opens c O I) :
    (SD.liveSys (ν := ν) eqv c).Conforms (DictSpec.iterSpec eqv O) (Inv c.heap O eqv I) SD.dict SDOp.Valid where
  call op s hv hi := step_refines h op hv s hi
  quiet op s hv hi hq := by
    have ho := hown _ hi.list
    suffices hs : Kept s.list (step eqv c.heap op s).2.list from ⟨hs.lists, hs.view ho⟩
    cases op with
    | setitem k v =>
      have hq : contains eqv k s = true := hq
      have e : setitem eqv c.heap k v s = (.ok (), { s with dict := PyDict.set eqv s.dict k v }) := by
        simp only [setitem, Py.get_bind, hq, if_true]; rfl
      simp only [step, SD.out, Py.bind_apply, e]; exact Kept.refl ho
    | setdefault k v =>
      have hq : contains eqv k s = true := hq
      have := leads_out (P := fun x : SD κ ν c.Ref => Kept s.list x.list) .val (keeps_getitem (P := Kept s.list) (eqv := eqv) k).leads s
        (Kept.refl ho)
      simp only [step, setdefault, SD.out, hq, if_true, Py.bind_apply, Py.get] at this ⊢
      exact this
    | _ =>
      refine query_kept _ ?_ ho
      exact hq
  opens k s hi := by
    have key : ∀ k', ∃ cu s', onList (c.openRef k') s = (.ok cu, s') ∧
        (∃ d, HCursor.resolve s.list.self.lists d = .ok cu ∧
          Cursor.Yields s.list.view.lists d (Spec.iterValues O k' (DictSpec.sortedKeys O s.dict))) ∧
        s'.list.self.lists = s.list.self.lists ∧ s'.list.view.lists = s.list.view.lists ∧ s'.dict = s.dict ∧
        Inv c.heap O eqv I s' := fun k' => by
      obtain ⟨cu, l', e, h1, h2, h3, h4, h5⟩ := hop s.list k' hi.list
      rw [hi.iter] at h1 h4
      refine ⟨cu, { s with list := l' }, ?_, h1, h2, h3, rfl, h5, hi.keyed, h4⟩
      show (((c.openRef k') s.list).1, { s with list := ((c.openRef k') s.list).2 }) = _
      rw [e]
    cases k with
    | keys k => exact key k
    | values => exact key .iter
    | items => exact key .iter
  view k key s _ := by
    cases k with
    | keys k => rfl
    | values => simp only [SD.liveSys, DictSpec.iterSpec]; cases PyDict.getitem eqv s.dict key <;> rfl
    | items => simp only [SD.liveSys, DictSpec.iterSpec]; cases PyDict.getitem eqv s.dict key <;> rfl
  found k s hi v hv := by
    refine (view_ok k v).2 ?_
    cases k with
    | keys k => exact .inl ⟨k, rfl⟩
    | values | items =>
      refine .inr ?_
      obtain ⟨w, hw⟩ := DictSpec.sortedKeys_lookup h.order h.equiv s.dict hv
      rw [PyDict.has_eq_lookup, hw]; rfl
  stays op s hv hi hq k v b hb := by
    rcases (view_ok (O := O) k v).1 ⟨b, hb⟩ with hk | hk
    · exact (view_ok k v).2 (.inl hk)
    · refine (view_ok k v).2 (.inr ?_)
      show PyDict.has eqv (DictSpec.step eqv O op s.dict).2 v = true
      cases op with
      | setitem k' w => exact PyDict.has_set_of_has h.equiv hk k' w
      | setdefault k' w =>
        simp only [DictSpec.step, DictSpec.out_snd, DictSpec.setdefault]
        split
        · exact hk
        · exact PyDict.has_set_of_has h.equiv hk k' w
      | _ =>
        rw [DictSpec.query_kept]
        · exact hk
        · exact hq

theorem liveStart_inv {O : Spec.Order κ} {I : c.Ref → Prop} (hI : I Ctx.fresh) :
    Inv (ν := ν) c.heap O eqv I (liveStart c) := ⟨hI, PyDict.Keyed.nil, c.heap_iter_fresh⟩

end SD
end Verif
