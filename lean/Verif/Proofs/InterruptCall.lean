import Verif.Proofs.InterruptCore
/-!
# Interrupted calls: every call
-/

namespace Verif
variable {α κ β γ δ : Type}

/-- The program writes nothing. -/
def Stays {σ : Type} (m : Py σ β) : Prop := ∀ s, (m s).2 = s

namespace Stays
variable {σ : Type}

theorem pure (b : β) : Stays (Pure.pure b : Py σ β) := fun _ => rfl
theorem raise (e : PyErr) : Stays (Py.raise e : Py σ β) := fun _ => rfl
theorem lift (x : Except PyErr β) : Stays (Py.lift x : Py σ β) := fun _ => rfl
theorem get : Stays (Py.get : Py σ σ) := fun _ => rfl

theorem bind {m : Py σ β} {f : β → Py σ γ} (h1 : Stays m) (h2 : ∀ b, Stays (f b)) : Stays (m >>= f) := by
  intro s
  have := h1 s
  rw [Py.bind_apply]
  rcases hm : m s with ⟨_ | b, s'⟩
  · rw [hm] at this; exact this
  · rw [hm] at this; exact (h2 b s').trans this

theorem ite {c : Prop} [Decidable c] {m m' : Py σ β} (h1 : Stays m) (h2 : Stays m') : Stays (if c then m else m') := by
  split <;> assumption

theorem out {m : Py σ β} (h : Stays m) (f : β → Out α) : Stays (Spec.out f m) := fun s => by rw [Spec.out_snd, h s]

end Stays

/-- Decompose a do-block. -/
macro "stays" : tactic => `(tactic| repeat' (with_reducible first
  | refine Stays.bind ?_ fun _ => ?_
  | refine Stays.ite ?_ ?_
  | exact Stays.pure _
  | exact Stays.raise _
  | exact Stays.lift _
  | exact Stays.get
  | solve_by_elim only [*]
  | split
  | dsimp only))

theorem SL.contains_stays (E : Env α) (v : α) : Stays (SL.contains E v) := by unfold SL.contains; stays
theorem SL.irange_stays (E : Env α) (lo hi : Option α) (a b r : Bool) : Stays (SL.irange E lo hi a b r) := by
  unfold SL.irange SL.irangeWith; stays

theorem SKL.find_stays (K : KEnv α κ) (v : α) : Stays (SKL.find K v) := by unfold SKL.find; stays
theorem SKL.contains_stays (K : KEnv α κ) (v : α) : Stays (SKL.contains K v) := by
  have := SKL.find_stays K
  unfold SKL.contains; stays
theorem SKL.irange_key_stays (K : KEnv α κ) (lo hi : Option κ) (a b r : Bool) : Stays (SKL.irange_key K lo hi a b r) := by
  unfold SKL.irange_key SKL.irange_keyWith; stays
theorem SKL.irange_stays (K : KEnv α κ) (lo hi : Option α) (a b r : Bool) : Stays (SKL.irange K lo hi a b r) := by
  have := SKL.irange_key_stays K
  unfold SKL.irange SKL.irangeWith; stays
theorem SKL.count_stays (K : KEnv α κ) (v : α) : Stays (SKL.count K v) := by unfold SKL.count; stays

theorem valuesOf_stays {L : ListAPI (St α κ) α} (f : St α κ → Except PyErr (St α κ)) : Stays (L.valuesOf f) := by
  intro s; unfold ListAPI.valuesOf; split <;> rfl

namespace Interrupt

/-! ## SortedList -/

namespace SL
variable {E : Env α} {s : St α α}
open Verif.SL (W)

theorem cutM (hE : E.Sane) : CutM (methods E) (Verif.SL.methods E) id false where
  log := rfl
  hlog := hE.ilog2
  load := Verif.SL.methods_load E
  clear := clear_tr
  cleared := fun {s} => ⟨_, rfl, rfl, fun load hl => (Inv.of_empty (k := id) (lt := noOrder) (keyed := false) hl rfl rfl rfl rfl (by simp)).whole⟩
  update := fun h => update_cut hE h _
  delete := fun h hat => ⟨delete_cut h hat, Verif.SL.delete_whole h hat⟩

theorem discard_cut (hE : E.Sane) (h : W s) (v : α) :
    CutTo (s.load * 2) (Core.iter s) (discard E v) (Verif.SL.discard E v) s :=
  CutTo.get_bind (CutTo.ite (fun _ => CutTo.pure _) fun _ => CutTo.lift_bind fun _ _ => CutTo.ite (fun _ => CutTo.pure _) fun _ =>
    CutTo.lift_bind fun _ hl => CutTo.lift_bind fun _ _ => CutTo.lift_bind fun _ hx => CutTo.lift_bind fun _ _ =>
    CutTo.ite (fun _ => (cutM hE).delete_at h (Reindexed.refl s) h hl hx) fun _ => CutTo.pure _)

theorem remove_cut (hE : E.Sane) (h : W s) (v : α) :
    CutTo (s.load * 2) (Core.iter s) (remove E v) (Verif.SL.remove E v) s :=
  CutTo.get_bind (CutTo.ite (fun _ => CutTo.raise _) fun _ => CutTo.lift_bind fun _ _ => CutTo.ite (fun _ => CutTo.raise _) fun _ =>
    CutTo.lift_bind fun _ hl => CutTo.lift_bind fun _ _ => CutTo.lift_bind fun _ hx => CutTo.lift_bind fun _ _ =>
    CutTo.ite (fun _ => (cutM hE).delete_at h (Reindexed.refl s) h hl hx) fun _ => CutTo.raise _)

/-- Queries, and calls of methods that do not exist, on any object. -/
theorem query_tr {P : St α α → Prop} (hP : NoIndex P) {op : Op α} (hq : op.isQuery = true ∨ ∃ u, op = .unsupported u) :
    Tr P (step E op) ((Verif.SL.api E).step op) s := by
  cases op with
  | add | update | clear | discard | remove | delInt | delSlice | pop | iadd | imul | reset =>
    rcases hq with hq | ⟨_, hq⟩ <;> cases hq
  | contains v => exact Tr.of_still ((Verif.SL.contains_stays E v).out _ s)
  | getInt i => exact (getInt_tr hP i).out _
  | getSlice sl => exact (getSlice_tr hP sl).out _
  | bisectLeft v => exact (bisect_left_tr hP v).out _
  | bisectRight v => exact (bisect_right_tr hP v).out _
  | count v => exact (count_tr hP v).out _
  | index v a b => exact (index_tr hP v a b).out _
  | irange lo hi a b r => exact Tr.of_still ((Verif.SL.irange_stays E lo hi a b r).out _ s)
  | islice a b r => exact (islice_tr hP a b r).out _
  | iter => exact Tr.of_still rfl
  | reversed => exact Tr.of_still rfl
  | len => exact Tr.of_still rfl
  | compare op other =>
    exact Tr.of_still (Stays.out (m := ListAPI.read (Core.compare E.cmp op other)) (fun _ => rfl) _ s)
  | copy => exact Tr.of_still ((valuesOf_stays _).out _ s)
  | concat xs => exact Tr.of_still ((valuesOf_stays _).out _ s)
  | mul n => exact Tr.of_still ((valuesOf_stays _).out _ s)
  | unsupported u => exact Tr.of_still rfl

/-- A CutTo for a method is one for the call. -/
theorem out_cut {T : List α → List α → Prop} {l0 : List α} {mt : IPy (St α κ) β} {m : Py (St α κ) β} {s : St α κ} (f : β → Out α)
    (h : Tr (On fun l => l = l0 ∨ T (Core.iter (m s).2) l) mt m s) :
    Tr (On fun l => l = l0 ∨ T (Core.iter (Spec.out f m s).2) l) (Spec.out f mt) (Spec.out f m) s := by
  rw [Spec.out_snd]
  exact h.out f

theorem step_tr (hE : E.Sane) (h : W s) (op : Op α) (hv : op.Valid) :
    Tr (On fun l => op.Aftermath s.load (Core.iter s) (Core.iter ((Verif.SL.api E).step op s).2) l) (step E op) ((Verif.SL.api E).step op) s := by
  have hM := cutM hE
  cases op with
  | add v => exact out_cut _ (add_cut E h v)
  | update xs => exact (update_cut hE h xs).out _
  | clear => exact (clear_tr (R := fun l => l = Core.iter s ∨ l = []) (.inr rfl)).out _
  | discard v => exact out_cut _ (discard_cut hE h v)
  | remove v => exact out_cut _ (remove_cut hE h v)
  | delInt i => exact out_cut _ (hM.delInt h i)
  | delSlice sl => exact (hM.delSlice h sl).out _
  | pop i => exact out_cut _ (hM.pop h i)
  | iadd xs => exact (update_cut hE h xs).out _
  | imul n => exact (hM.imul h n).out _
  | reset load => exact (hM.reset hv).out _
  | unsupported u => exact query_tr (On.noIndex _) (.inr ⟨u, rfl⟩)
  | _ => exact query_tr (On.noIndex _) (.inl rfl)

end SL

/-! ## SortedKeyList -/

namespace SKL
variable {K : KEnv α κ} {s : St α κ}
open Verif.SKL (W)

theorem cutM (hK : K.Sane) : CutM (methods K) (Verif.SKL.methods K) (fun _ : α => ()) true where
  log := rfl
  hlog := hK.ilog2
  load := Verif.SKL.methods_load K
  clear := clear_tr
  cleared := fun {s} => ⟨_, rfl, rfl, fun load hl =>
    (⟨{ len := 0, load := load, lists := [], keys := [], maxes := [], index := [], offset := s.offset }, ⟨rfl, rfl, rfl, rfl, rfl, rfl, rfl⟩,
      Inv.of_empty (k := fun _ => ()) (lt := noOrder) (keyed := true) hl rfl rfl rfl rfl (fun _ => rfl)⟩)⟩
  update := fun h => update_cut hK h _
  delete := fun h hat => ⟨delete_cut h hat, Verif.SKL.delete_whole h hat⟩

theorem find_cut {l0 : List α} {N : Nat} {ft : Option (Nat × Nat) → IPy (St α κ) β} {f : Option (Nat × Nat) → Py (St α κ) β} (v : α)
    (h1 : CutTo N l0 (ft none) (f none) s)
    (h2 : ∀ p i l x, getItem s.lists p = .ok l → getItem l i = .ok x → CutTo N l0 (ft (some (p, i))) (f (some (p, i))) s) :
    CutTo N l0 (IPy.still (Verif.SKL.find K v) >>= ft) (Verif.SKL.find K v >>= f) s := by
  refine CutTo.query_bind (fun P _ => Tr.of_still (Verif.SKL.find_stays K v s)) fun q s1 e => ?_
  obtain ⟨r, e', hr⟩ := Verif.SKL.find_snd K v s
  rw [e'] at e
  obtain ⟨rfl, rfl⟩ := Prod.mk.inj e
  rcases q with _ | ⟨p, i⟩
  · exact h1
  · obtain ⟨l, x, g1, g2, -⟩ := hr _ rfl
    exact h2 p i l x g1 g2

theorem discard_cut (hK : K.Sane) (h : W s) (v : α) :
    CutTo (s.load * 2) (Core.iter s) (discard K v) (Verif.SKL.discard K v) s :=
  find_cut v (CutTo.pure _) fun _ _ _ _ hl hx => (cutM hK).delete_at h (Reindexed.refl s) h hl hx

theorem remove_cut (hK : K.Sane) (h : W s) (v : α) :
    CutTo (s.load * 2) (Core.iter s) (remove K v) (Verif.SKL.remove K v) s :=
  find_cut v (CutTo.raise _) fun _ _ _ _ hl hx => (cutM hK).delete_at h (Reindexed.refl s) h hl hx

theorem query_tr {P : St α κ → Prop} (hP : NoIndex P) {op : Op α} (hq : op.isQuery = true ∨ ∃ u, op = .unsupported u) :
    Tr P (step K op) ((Verif.SKL.api K).step op) s := by
  cases op with
  | add | update | clear | discard | remove | delInt | delSlice | pop | iadd | imul | reset =>
    rcases hq with hq | ⟨_, hq⟩ <;> cases hq
  | contains v => exact Tr.of_still ((Verif.SKL.contains_stays K v).out _ s)
  | getInt i => exact (getInt_tr hP i).out _
  | getSlice sl => exact (getSlice_tr hP sl).out _
  | bisectLeft v => exact (bisect_left_tr hP v).out _
  | bisectRight v => exact (bisect_right_tr hP v).out _
  | count v => exact Tr.of_still ((Stays.bind (Verif.SKL.count_stays K v) fun n => Stays.pure (n : Int)).out _ s)
  | index v a b => exact (index_tr hP v a b).out _
  | irange lo hi a b r => exact Tr.of_still ((Verif.SKL.irange_stays K lo hi a b r).out _ s)
  | islice a b r => exact (islice_tr hP a b r).out _
  | iter => exact Tr.of_still rfl
  | reversed => exact Tr.of_still rfl
  | len => exact Tr.of_still rfl
  | compare op other =>
    exact Tr.of_still (Stays.out (m := ListAPI.read (Core.compare K.vcmp op other)) (fun _ => rfl) _ s)
  | copy => exact Tr.of_still ((valuesOf_stays _).out _ s)
  | concat xs => exact Tr.of_still ((valuesOf_stays _).out _ s)
  | mul n => exact Tr.of_still ((valuesOf_stays _).out _ s)
  | unsupported u => exact Tr.of_still rfl

theorem kquery_tr {P : St α κ → Prop} (hP : NoIndex P) {op : KOp α κ} (hq : op.isQuery = true ∨ ∃ u, op = .op (.unsupported u)) :
    Tr P (kstep K op) (Verif.SKL.kstep K op) s := by
  cases op with
  | op o => exact query_tr hP (hq.imp id fun ⟨u, h⟩ => ⟨u, KOp.op.inj h⟩)
  | bisectKeyLeft k => exact (bisect_key_left_tr hP k).out _
  | bisectKeyRight k => exact (bisect_key_right_tr hP k).out _
  | irangeKey lo hi a b r => exact Tr.of_still ((Verif.SKL.irange_key_stays K lo hi a b r).out _ s)

theorem step_tr (hK : K.Sane) (h : W s) (op : Op α) (hv : op.Valid) :
    Tr (On fun l => op.Aftermath s.load (Core.iter s) (Core.iter ((Verif.SKL.api K).step op s).2) l) (step K op) ((Verif.SKL.api K).step op) s := by
  have hM := cutM hK
  cases op with
  | add v => exact SL.out_cut _ (add_cut K h v)
  | update xs => exact (update_cut hK h xs).out _
  | clear => exact (clear_tr (R := fun l => l = Core.iter s ∨ l = []) (.inr rfl)).out _
  | discard v => exact SL.out_cut _ (discard_cut hK h v)
  | remove v => exact SL.out_cut _ (remove_cut hK h v)
  | delInt i => exact SL.out_cut _ (hM.delInt h i)
  | delSlice sl => exact (hM.delSlice h sl).out _
  | pop i => exact SL.out_cut _ (hM.pop h i)
  | iadd xs => exact (update_cut hK h xs).out _
  | imul n => exact (hM.imul h n).out _
  | reset load => exact (hM.reset hv).out _
  | unsupported u => exact query_tr (On.noIndex _) (.inr ⟨u, rfl⟩)
  | _ => exact query_tr (On.noIndex _) (.inl rfl)

end SKL
end Interrupt
end Verif
