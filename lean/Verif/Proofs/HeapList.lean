import Verif.Model.IterHeapSets
import Verif.Proofs.IterQuiet
/-!
# A sorted list of list objects behind the interface of sets and dicts
-/

namespace Verif
namespace Heap
variable {α κ : Type}

/-- A call on list objects refines what the call on values refines. -/
theorem refines {β : Type} {I : St α κ → Prop} {m : Run α κ β} {mV : Py (St α κ) β} {f : Py (List α) β} {it : St α κ → List α}
    (h : ∀ c, Own c → Out c (m c) (mV c.view) Eq') (hr : Refines I it mV f) :
    Refines (fun c : Ctx α κ => Own c ∧ I c.view) (fun c => it c.view) m f := fun c hc => by
  obtain ⟨h1, h2, h3⟩ := (h c hc.1).same
  obtain ⟨h4, h5, h6⟩ := hr c.view hc.2
  exact ⟨h1.trans h4, (congrArg it h2.symm).trans h5, h3, (congrArg I h2).mp h6⟩

theorem Quiet.of_out {β : Type} {m : Py (St α κ) β} {f : β → Verif.Out α} (h : Quiet (Spec.out f m)) : Quiet m := fun s0 s hs => by
  have := h s0 s hs
  rwa [Spec.out_snd] at this

section
variable {H : HeapAPI α κ} {V : Verif.Methods α κ} (hH : HeapSim H V)
include hH

theorem getSlice_list_out (sl : PySlice) {c0 c : Ctx α κ} {s : St α κ} (hr : Rel c0 c s) :
    Out c0 (H.list.getSlice sl c) (H.value.getSlice sl s) Eq' := by
  show Out c0 ((do read (← Core.getSlice H.M.ilog2 sl) : Run α κ (List α)) c) _ _
  rw [hH.getSlice, hH.methods.ilog2, bind_pure' (Verif.Core.getSlice V.ilog2 sl)]
  refine Out.bind hr (Core.getSlice_out _ sl hr.here) fun c1 s1 b l h1 _ hb => ?_
  exact Out.ok h1 hb.2

theorem new_list (xs : List α) {s : St α κ} (h : H.value.new (some xs) = .ok s) :
    ∃ c, H.list.new (some xs) = .ok c ∧ Own c ∧ c.view = s := by
  show ∃ c, H.new (some xs) = .ok c ∧ _
  unfold HeapAPI.new
  rcases build_out hH (m := { vals := [], keys := [] }) (src := .values xs) (xs := xs) rfl with
    ⟨c', s', e1, e2, h1⟩ | ⟨e, c', s', e1, e2, h1⟩
  · rw [e2] at h
    cases h
    have e1 : H.M.update (.values xs) Ctx.fresh = (.ok (), c') := e1
    dsimp only
    rw [e1]
    exact ⟨c', rfl, h1.own, h1.view.symm⟩
  · rw [e2] at h; cases h

theorem list_lawful {O : Spec.Order α} {I : St α κ → Prop} (hL : H.value.Lawful O I)
    (h0 : H.value.new none = .ok St.empty) (hq : ∀ m, H.value.keyCall m → Quiet m) :
    H.list.Lawful O (fun c => Own c ∧ I c.view) := by
  have build : ∀ (xs l : List α), (∃ s, H.value.new (some xs) = .ok s ∧ I s ∧ H.value.iter s = l) →
      ∃ c, H.new (some xs) = .ok c ∧ (Own c ∧ I c.view) ∧ H.value.iter c.view = l := by
    rintro xs l ⟨s, e, h1, h2⟩
    obtain ⟨c, e', h3, rfl⟩ := new_list hH xs e
    exact ⟨c, e', ⟨h3, h1⟩, h2⟩
  have rd : ∀ {β : Type} (op : Op α) (f : β → Verif.Out α) {m : Py (St α κ) β} {g : Py (List α) β}, op.isQuery = true →
      H.value.step op = Spec.out f m → Refines I H.value.iter m g →
      Refines (fun c : Ctx α κ => Own c ∧ I c.view) (fun c => H.value.iter c.view) (reading m) g := by
    intro β op f m g hop e hr
    exact refines (fun c hc => reading_out (Quiet.of_out (e ▸ hH.quiet op hop)) hc.rel) hr
  exact {
    order := hL.order
    sorted := fun c hc => hL.sorted c.view hc.2
    new := fun xs => by
      obtain ⟨s, e, h1, h2⟩ := hL.new xs
      cases xs with
      | none =>
        rw [h0] at e
        cases e
        exact ⟨Ctx.fresh, rfl, ⟨(empty_rel _).own, h1⟩, h2⟩
      | some xs => exact build xs _ ⟨s, e, h1, h2⟩
    add := fun v => refines (fun c hc => hH.add v hc.rel) (hL.add v)
    update := fun xs => refines (fun c hc => by rw [hH.update]; exact hH.methods.update hc.rel rfl) (hL.update xs)
    clear := refines (fun c hc => by rw [hH.clear]; exact hH.methods.clear hc.rel) hL.clear
    contains := fun v => rd (.contains v) _ rfl rfl (hL.contains v)
    discard := fun v => refines (fun c hc => hH.discard v hc.rel) (hL.discard v)
    remove := fun v => refines (fun c hc => hH.remove v hc.rel) (hL.remove v)
    getInt := fun i => rd (.getInt i) _ rfl rfl (hL.getInt i)
    getSlice := fun sl => refines (fun c hc => getSlice_list_out hH sl hc.rel) (hL.getSlice sl)
    delInt := fun i => refines (fun c hc => by rw [hH.delInt]; exact Core.delInt_out hH.methods i hc.rel) (hL.delInt i)
    delSlice := fun sl => refines (fun c hc => by rw [hH.delSlice]; exact Core.delSlice_out hH.methods sl hc.rel) (hL.delSlice sl)
    pop := fun i => refines (fun c hc => by rw [hH.pop]; exact Core.pop_out hH.methods i hc.rel) (hL.pop i)
    bisectLeft := fun v => rd (.bisectLeft v) _ rfl rfl (hL.bisectLeft v)
    bisectRight := fun v => rd (.bisectRight v) _ rfl rfl (hL.bisectRight v)
    count := fun v => rd (.count v) _ rfl rfl (hL.count v)
    index := fun v a b => rd (.index v a b) _ rfl rfl (hL.index v a b)
    irange := fun lo hi a b r => rd (.irange lo hi a b r) _ rfl rfl (hL.irange lo hi a b r)
    islice := fun a b r => rd (.islice a b r) _ rfl rfl (hL.islice a b r)
    reversed := fun c hc => ⟨(hL.reversed c.view hc.2).1, (hL.reversed c.view hc.2).2.1, hc⟩
    len := fun c hc => ⟨(hL.len c.view hc.2).1, (hL.len c.view hc.2).2.1, hc⟩
    compare := fun op other c hc => ⟨(hL.compare op other c.view hc.2).1, (hL.compare op other c.view hc.2).2.1, hc⟩
    iadd := fun xs => refines (fun c hc => by rw [hH.iadd]; exact hH.methods.update hc.rel rfl) (hL.iadd xs)
    imul := fun n => refines (fun c hc => by rw [hH.imul]; exact Core.imul_out hH.methods n hc.rel) (hL.imul n)
    reset := fun load hl => refines (fun c hc => by rw [hH.reset]; exact Core.reset_out hH.methods load hc.rel) (hL.reset load hl)
    copy := fun c hc => by
      obtain ⟨s, e, h1, h2⟩ := hL.copy c.view hc.2
      rw [hH.copy] at e
      exact build _ _ ⟨s, by rw [hH.iter]; exact e, h1, h2⟩
    concat := fun xs c hc => by
      obtain ⟨s, e, h1, h2⟩ := hL.concat xs c.view hc.2
      rw [hH.concat] at e
      exact build _ _ ⟨s, by rw [hH.iter]; exact e, h1, h2⟩
    mul := fun n c hc => by
      obtain ⟨s, e, h1, h2⟩ := hL.mul n c.view hc.2
      rw [hH.mul] at e
      exact build _ _ ⟨s, by rw [hH.iter]; exact e, h1, h2⟩
    reduceArgs := fun c hc => hL.reduceArgs c.view hc.2
    unsupported := fun u => refines (fun c hc => reading_out (by rw [hH.unsupported]; exact fun _ _ h => h) hc.rel) (hL.unsupported u)
    keyCall := fun m hm => by
      obtain ⟨m', h1, rfl⟩ := hm
      obtain ⟨f, h2, h3⟩ := hL.keyCall m' h1
      exact ⟨f, refines (fun c hc => reading_out (hq m' h1) hc.rel) h2, h3⟩ }

end

theorem SL.list_lawful {E : Env α} {lt : α → α → Bool} (hE : E.Lawful lt) :
    (SL.heapAPI E).list.Lawful (Spec.Order.ofValues lt) (fun c => Own c ∧ Inv id lt false c.view) :=
  Heap.list_lawful (SL.heapSim E) (SL.api_lawful hE) rfl fun _ h => h.elim

theorem SKL.list_lawful {K : KEnv α κ} {key : α → κ} {klt : κ → κ → Bool} {veq : α → α → Bool} (hK : K.Lawful key klt veq) :
    (SKL.heapAPI K).list.Lawful (Spec.Order.ofKey key klt veq K.vcmp) (fun c => Own c ∧ Inv key klt true c.view) :=
  Heap.list_lawful (SKL.heapSim K) (SKL.api_lawful hK) rfl fun m h => by
    rcases h with ⟨k, rfl⟩ | ⟨k, rfl⟩ | ⟨lo, hi, a, b, r, rfl⟩
    · exact Quiet.out _ (Verif.SKL.bisect_key_left_quiet K k)
    · exact Quiet.out _ (Verif.SKL.bisect_key_right_quiet K k)
    · exact Quiet.out _ (Verif.SKL.irange_key_quiet K lo hi a b r)

/-- An iterator of a list of the class. -/
def Opens (c : ListClass α) (O : Spec.Order α) (I : c.Ref → Prop) : Prop :=
  ∀ (s : c.Ref) (k : IterKind α), I s → ∃ h s', c.openRef k s = (.ok h, s') ∧
    (∃ d, HCursor.resolve s.self.lists d = .ok h ∧ Cursor.Yields s.view.lists d (Spec.iterValues O k (c.heap.iter s))) ∧
    s'.self.lists = s.self.lists ∧ s'.view.lists = s.view.lists ∧ c.heap.iter s' = c.heap.iter s ∧ I s'

theorem _root_.Verif.ListClass.Orders.heap {c : ListClass α} {lt eqv : α → α → Bool} (h : c.Orders lt eqv) :
    ∃ (O : Spec.Order α) (I : c.Ref → Prop), c.heap.Lawful O I ∧ O.lt = lt ∧ (∀ a b, O.same a b = eqv a b) ∧
      I Ctx.fresh ∧ (∀ s, I s → Own s) ∧ Opens c O I := by
  cases h with
  | plain hE he =>
    refine ⟨_, _, SL.list_lawful hE, rfl, fun a b => (he a b).symm, SL.start_inv hE, fun s h => h.1, fun s k hi => ?_⟩
    obtain ⟨h, s', e, h1, h2, h3, h4⟩ := (SL.liveSys_conforms hE).opens k s hi
    exact ⟨h, s', e, h1, h2, h3, congrArg List.flatten h3, h4⟩
  | keyed hK he =>
    refine ⟨_, _, SKL.list_lawful hK, rfl, fun a b => ?_, SKL.start_inv hK, fun s h => h.1, fun s k hi => ?_⟩
    · show (_ && eqv a b) = eqv a b
      cases hv : eqv a b
      · exact Bool.and_false _
      · exact (Bool.and_true _).trans (he a b hv)
    · obtain ⟨h, s', e, h1, h2, h3, h4⟩ := (SKL.liveSys_conforms hK).opens (.kind k) s hi
      exact ⟨h, s', e, h1, h2, h3, congrArg List.flatten h3, h4⟩

end Heap
end Verif
