import Verif.Proofs.ReentrantSL
/-!
# Calls that compare while they change the list

`update`, `+=`, `*=`, the deletion of slices and `_reset` sort after they have begun to change the list.  Client code that is right
whatever it is told is right then, too.
-/

namespace Verif
namespace Reent
variable {W α κ β γ : Type}

/-- Started from `p`, `m` gives the same result and the same contents as `f`, and `I` and `J` hold afterwards. -/
def Alike (I : St α κ → Prop) (J : W → Prop) (m : RPy W (St α κ) β) (f : Py (St α κ) β) (p : St α κ × W) : Prop :=
  (m p).1 = (f p.1).1 ∧ Core.iter (m p).2.1 = Core.iter (f p.1).2 ∧ I (m p).2.1 ∧ J (m p).2.2

/-- As `Refines`, with the world of the client. -/
abbrev RRefines (I : St α κ → Prop) (J : W → Prop) (m : RPy W (St α κ) β) (g : Py (List α) β) : Prop :=
  Refines (fun p : St α κ × W => I p.1 ∧ J p.2) (fun p => Core.iter p.1) m g

theorem reindexed_iter {s t : St α κ} (h : Reindexed s t) : Core.iter t = Core.iter s := by
  show t.lists.flatten = s.lists.flatten
  rw [h.lists]

theorem free_get_bind {k : St α κ → RPy W (St α κ) β} {p : St α κ × W} : (free Py.get >>= k) p = k p.1 p := rfl

theorem free_bind_ok {f : Py (St α κ) β} {k : β → RPy W (St α κ) γ} {p : St α κ × W} {b : β} {s' : St α κ} (h : f p.1 = (.ok b, s')) :
    (free f >>= k) p = k b (s', p.2) := Py.bind_ok (by rw [free, h])

section
variable {I : St α κ → Prop} {J : W → Prop} {p : St α κ × W}

theorem Alike.free {f : Py (St α κ) β} (h : I (f p.1).2) (hJ : J p.2) : Alike I J (free f) f p := ⟨rfl, rfl, h, hJ⟩

theorem Alike.free_bind {f : Py (St α κ) β} {k : β → RPy W (St α κ) γ} {g : β → Py (St α κ) γ} (hf : I (f p.1).2) (hJ : J p.2)
    (h : ∀ b s', f p.1 = (.ok b, s') → Alike I J (k b) (g b) (s', p.2)) : Alike I J (Reent.free f >>= k) (f >>= g) p := by
  rcases e : f p.1 with ⟨r, s'⟩
  rw [e] at hf
  have e' : Reent.free f p = (r, s', p.2) := by rw [Reent.free, e]
  unfold Alike
  rw [Py.bind_apply, Py.bind_apply, e, e']
  cases r with
  | error e => exact ⟨rfl, rfl, hf, hJ⟩
  | ok b => exact h b s' e

theorem Alike.refines {m : RPy W (St α κ) β} {f : Py (St α κ) β} {g : Py (List α) β} (h : ∀ p, I p.1 → J p.2 → Alike I J m f p)
    (hf : Refines I Core.iter f g) : RRefines I J m g := fun p hp => by
  obtain ⟨h1, h2, h3⟩ := h p hp.1 hp.2
  obtain ⟨g1, g2, -⟩ := hf p.1 hp.1
  exact ⟨h1.trans g1, h2.trans g2, h3⟩

theorem Alike.of_refines {m : RPy W (St α κ) β} {f : Py (St α κ) β} {g : Py (List α) β} (h : RRefines I J m g)
    (hf : Refines I Core.iter f g) (hp : I p.1) (hJ : J p.2) : Alike I J m f p := by
  obtain ⟨h1, h2, h3⟩ := h p ⟨hp, hJ⟩
  obtain ⟨g1, g2, -⟩ := hf p.1 hp
  exact ⟨h1.trans g1.symm, h2.trans g2.symm, h3⟩

/-- A query. -/
theorem Sim.call {m : RPy W (St α κ) β} {f : Py (St α κ) β} {g : Py (List α) β} (h : Sim I J p.1 m f) (hf : Refines I Core.iter f g)
    (hp : I p.1) (hw : J p.2) :
    (m p).1 = (g (Core.iter p.1)).1 ∧ Core.iter (m p).2.1 = (g (Core.iter p.1)).2 ∧ I (m p).2.1 ∧ J (m p).2.2 := by
  obtain ⟨e, h1, h2, -⟩ := h p p.1 ⟨.refl _, hp, hw⟩ (.refl _) hp
  obtain ⟨g1, g2, -⟩ := hf p.1 hp
  exact ⟨e.trans g1, (reindexed_iter h1.re).trans ((reindexed_iter h2).symm.trans g2), h1.inv, h1.world⟩

/-- A call that changes the list. -/
theorem Ends.call {m : RPy W (St α κ) β} {f : Py (St α κ) β} {g : Py (List α) β} (h : Ends I J p.1 m f) (hf : Refines I Core.iter f g)
    (hp : I p.1) (hw : J p.2) :
    (m p).1 = (g (Core.iter p.1)).1 ∧ Core.iter (m p).2.1 = (g (Core.iter p.1)).2 ∧ I (m p).2.1 ∧ J (m p).2.2 := by
  obtain ⟨p', h1, e⟩ := h p ⟨.refl _, hp, hw⟩
  obtain ⟨g1, g2, g3⟩ := hf p'.1 h1.inv
  rw [reindexed_iter h1.re] at g1 g2
  rw [e]
  exact ⟨g1, g2, g3, h1.world⟩

end

/-! ## Methods shared by both classes -/

section
variable {key : α → κ} {klt : κ → κ → Bool} {keyed : Bool} {M : Methods α κ} {O : Spec.Order α} {upd : List α → RPy W (St α κ) Unit}
  {J : W → Prop}
  (hM : MethodsOK M O key klt keyed)
  (hu : ∀ xs p, Inv key klt keyed p.1 → J p.2 → Alike (Inv key klt keyed) J (upd xs) (M.update xs) p)
include hM

theorem cleared {s s' : St α κ} {b : Unit} (hs : 1 ≤ s.load) (e : M.clear s = (.ok b, s')) : Inv key klt keyed s' := by
  obtain ⟨t, e', h1, h2, h3, h4, h5, h6⟩ := hM.clear s
  rw [e] at e'
  cases e'
  exact Inv.of_empty (h5 ▸ hs) h1 h2 h3 h4 h6

theorem clear_inv {s : St α κ} (hs : 1 ≤ s.load) : Inv key klt keyed (M.clear s).2 := by
  obtain ⟨t, e', h1, h2, h3, h4, h5, h6⟩ := hM.clear s
  rw [e']
  exact Inv.of_empty (h5 ▸ hs) h1 h2 h3 h4 h6

include hu

theorem reset_alike {load : Nat} (hl : 1 ≤ load) {p : St α κ × W} (hp : Inv key klt keyed p.1) (hJ : J p.2) :
    Alike (Inv key klt keyed) J (reset M.clear upd load) (Core.reset M load) p := by
  refine Alike.free_bind hp hJ fun s s' e => ?_
  cases e
  refine Alike.free_bind (clear_inv hM hp.load_pos) hJ fun b s' e => ?_
  obtain ⟨t, e', h1, h2, h3, h4, h5, h6⟩ := hM.clear p.1
  have e'' := e.symm.trans e'
  cases e''
  have hi : Inv key klt keyed { s' with load := load } := Inv.of_empty hl h1 h2 h3 h4 h6
  refine Alike.free_bind hi hJ fun b s'' e => ?_
  cases e
  exact hu _ _ hi hJ

theorem imul_alike (num : Int) {p : St α κ × W} (hp : Inv key klt keyed p.1) (hJ : J p.2) :
    Alike (Inv key klt keyed) J (imul M.clear upd num) (Core.imul M num) p := by
  refine Alike.free_bind hp hJ fun s s' e => ?_
  cases e
  exact Alike.free_bind (clear_inv hM hp.load_pos) hJ fun b s' e => hu _ _ (cleared hM hp.load_pos e) hJ

theorem delSlice_alike {M' : Methods α κ} (h1 : M'.clear = M.clear) (h2 : M'.delete = M.delete) (h3 : M'.ilog2 = M.ilog2) (sl : PySlice)
    {p : St α κ × W} (hp : Inv key klt keyed p.1) (hJ : J p.2) :
    Alike (Inv key klt keyed) J (delSlice M' upd sl) (Core.delSlice M sl) p := by
  have hd : Core.delInt M' = Core.delInt M := by funext i; simp only [Core.delInt, h2, h3]
  have hs : ∀ a b {s : St α κ}, Inv key klt keyed s → Inv key klt keyed (Core.getSliceStep1 M.ilog2 a b s).2 := fun a b s hi => by
    obtain ⟨s', e, -, h⟩ := hi.getSliceStep1_ok hM.log a b
    rw [e]; exact h
  have hs' : ∀ {a b} {s : St α κ} {r s'}, Inv key klt keyed s → Core.getSliceStep1 M.ilog2 a b s = (r, s') → Inv key klt keyed s' :=
    fun {a b} s r s' hi e => by have := hs a b hi; rw [e] at this; exact this
  have hc : ∀ (values : List α) {p : St α κ × W}, Inv key klt keyed p.1 → J p.2 →
      Alike (Inv key klt keyed) J (do free M.clear; upd values) (do M.clear; M.update values) p := fun values p hp hJ =>
    Alike.free_bind (clear_inv hM hp.load_pos) hJ fun b s' e => hu _ _ (cleared hM hp.load_pos e) hJ
  unfold delSlice Core.delSlice
  rw [h1, h3, hd]
  refine Alike.free_bind hp hJ fun s s' e => ?_
  cases e
  refine Alike.free_bind hp hJ fun b s' e => ?_
  obtain rfl : p.1 = s' := congrArg Prod.snd e
  obtain ⟨start, stop, step⟩ := b
  dsimp only
  split
  · exact Alike.free (clear_inv hM hp.load_pos) hJ
  · split
    · refine Alike.free_bind (hs _ _ hp) hJ fun values s1 e1 => ?_
      have i1 := hs' hp e1
      by_cases hst : stop < p.1.len
      · simp only [if_pos hst]
        refine Alike.free_bind (hs _ _ i1) hJ fun tail s2 e2 => ?_
        exact hc _ (hs' i1 e2) hJ
      · simp only [if_neg hst]
        exact hc _ i1 hJ
    · exact Alike.free ((Refines.forEach _ fun i _ => hM.delInt_refines i) p.1 hp).2.2 hJ

end

namespace SL
variable {E : Env α} {lt : α → α → Bool} {C : SL.Clients α} {D : Nat}

/-- One call that does not compare after it has begun to change the list. -/
theorem call_ok (hE : E.Lawful lt) (hC : C.Honest (Spec.Order.ofValues lt) E.cmp D) (op : Op α) (hb : op.bulk = false) (hv : op.Valid)
    (p : St α α × Seen (Query α) (Out α)) (hp : Inv id lt false p.1) :
    (step (C.env E D 0) op p).1 = (Spec.step (Spec.Order.ofValues lt) op (Core.iter p.1)).1 ∧
    Core.iter (step (C.env E D 0) op p).2.1 = (Spec.step (Spec.Order.ofValues lt) op (Core.iter p.1)).2 ∧
    Inv id lt false (step (C.env E D 0) op p).2.1 ∧
    Answered (answers lt (Core.iter p.1)) p.2.answers (step (C.env E D 0) op p).2.2 := by
  have h := env_sim hE hC hp p.2.answers D 0 rfl
  have hw : Answered (answers lt (Core.iter p.1)) p.2.answers p.2 := ⟨[], rfl, nofun⟩
  have hr := (SL.api_lawful hE).step op hv
  cases hq : op.isQuery
  · exact (step_ends h op hq hb).call hr hp hw
  · exact (step_sim h hE op hq).call hr hp hw

/-- Comparisons that are right, and change the positional index at most, in whatever state the list is; they keep `J` true. -/
structure Patient (E' : REnv W α) (E : Env α) (lt : α → α → Bool) (J : W → Prop) : Prop where
  always : ∀ s0, EnvSim (fun _ => True) J s0 E' E
  good : ∀ s0, Inv id lt false s0 → EnvSim (Inv id lt false) J s0 E' E

theorem Steadfast.patient (hE : E.Lawful lt) (hC : C.Steadfast E.cmp D) : Patient (C.env E D 0) E lt (fun _ => True) where
  always s0 := env_always hE hC s0 D 0 rfl
  good s0 h0 := by
    have h := fun old => env_sim hE (Steadfast.honest hC _) h0 old D 0 rfl
    refine ⟨fun op a b p t hp => ?_, fun xs p t hp => ?_, (h []).ilog2⟩
    · intro h1 h2
      obtain ⟨e, k, r⟩ := (h p.2.answers).cmp op a b p t ⟨hp.re, hp.inv, [], rfl, nofun⟩ h1 h2
      exact ⟨e, ⟨k.re, k.inv, trivial⟩, r⟩
    · intro h1 h2
      obtain ⟨e, k, r⟩ := (h p.2.answers).sorted xs p t ⟨hp.re, hp.inv, [], rfl, nofun⟩ h1 h2
      exact ⟨e, ⟨k.re, k.inv, trivial⟩, r⟩

variable {E' : REnv W α} {J : W → Prop}

theorem sorted_ok (hC : Patient E' E lt J) (xs : List α) (p : St α α × W) (hJ : J p.2) :
    (E'.sorted xs p).1 = E.sorted xs ∧ Reindexed p.1 (E'.sorted xs p).2.1 ∧ J (E'.sorted xs p).2.2 ∧
      (Inv id lt false p.1 → Inv id lt false (E'.sorted xs p).2.1) := by
  obtain ⟨e, h, -, -⟩ := (hC.always p.1).sorted xs p p.1 ⟨.refl _, trivial, hJ⟩ (.refl _) trivial
  exact ⟨e, h.re, h.world, fun hi => ((hC.good p.1 hi).sorted xs p p.1 ⟨.refl _, hi, hJ⟩ (.refl _) hi).2.1.inv⟩

theorem add_rrefines (hE : E.Lawful lt) (hC : Patient E' E lt J) (v : α) :
    RRefines (Inv id lt false) J (add E' v) (Spec.add (Spec.Order.ofValues lt) v) := fun p hp =>
  (add_ends (hC.good p.1 hp.1) v).call (SL.add_refines hE v) hp.1 hp.2

theorem update_alike (hE : E.Lawful lt) (hC : Patient E' E lt J) (xs : List α) (p : St α α × W)
    (hp : Inv id lt false p.1) (hJ : J p.2) : Alike (Inv id lt false) J (update E' xs) (Verif.SL.update E xs) p := by
  suffices h : ∃ p1 : St α α × W, Core.iter p1.1 = Core.iter p.1 ∧ Inv id lt false p1.1 ∧
      Alike (Inv id lt false) J (fun _ => update E' xs p) (Verif.SL.update E xs) p1 by
    obtain ⟨p1, e, hi, h1, h2, h3⟩ := h
    obtain ⟨a1, a2, -⟩ := SL.update_refines hE xs p.1 hp
    obtain ⟨b1, b2, -⟩ := SL.update_refines hE xs p1.1 hi
    rw [e] at b1 b2
    exact ⟨h1.trans (b1.trans a1.symm), h2.trans (b2.trans a2.symm), h3⟩
  obtain ⟨e, hr, hj, hi⟩ := sorted_ok hC xs p hJ
  have hi := hi hp
  rcases hs : E'.sorted xs p with ⟨r, p1⟩
  rw [hs] at e hr hj hi
  simp only at e hr hj hi
  obtain ⟨values, hv, -⟩ := hE.sorted xs
  rw [hv] at e
  subst e
  refine ⟨p1, reindexed_iter hr, hi, ?_⟩
  have hI := (SL.update_refines hE xs p1.1 hi).2.2
  have done : ∀ {w}, J w → update E' xs p = ((Verif.SL.update E xs p1.1).1, (Verif.SL.update E xs p1.1).2, w) →
      Alike (Inv id lt false) J (fun _ => update E' xs p) (Verif.SL.update E xs) p1 := fun hw h => by
    unfold Alike
    dsimp only
    rw [h]
    exact ⟨rfl, rfl, hI, hw⟩
  have e1 : update E' xs p = _ := Py.bind_ok hs
  rw [free_get_bind] at e1
  have e2 : Verif.SL.update E xs p1.1 = _ := Py.bind_ok (m := Py.lift (E.sorted xs)) (by rw [hv]; rfl)
  rw [Py.get_bind] at e2
  by_cases hm : p1.1.maxes ≠ []
  · rw [if_pos hm] at e1 e2
    by_cases hl : values.length * 4 ≥ p1.1.len
    · rw [if_pos hl] at e1 e2
      obtain ⟨q, hq⟩ : ∃ q : St α α, q = { p1.1 with lists := p1.1.lists ++ [values] } := ⟨_, rfl⟩
      obtain ⟨e3, hr2, hj2, -⟩ := sorted_ok hC (Core.iter q) (q, p1.2) hj
      obtain ⟨values2, hv2, -⟩ := hE.sorted (Core.iter q)
      rcases hs2 : E'.sorted (Core.iter q) (q, p1.2) with ⟨r2, p2⟩
      rw [hs2, hv2] at e3
      rw [hs2] at hr2 hj2
      simp only at e3 hr2 hj2
      subst e3
      rw [free_bind_ok (s' := q) (by rw [hq]; rfl), free_get_bind, Py.bind_ok hs2] at e1
      rw [Py.modify_bind, Py.get_bind, ← hq, hv2, Py.lift_ok_bind] at e2
      obtain ⟨i, o, hr2⟩ := hr2
      have e4 : Verif.SL.clear p2.1 = (.ok (), (Verif.SL.clear q).2) := by rw [hr2]; rfl
      rw [free_bind_ok e4] at e1
      have e5 : Verif.SL.clear q = (.ok (), (Verif.SL.clear q).2) := rfl
      rw [Py.bind_ok e5] at e2
      exact done hj2 (e1.trans (by rw [e2]; rfl))
    · rw [if_neg hl] at e1 e2
      have := Alike.of_refines (p := p1) (Refines.forEach values fun x _ => add_rrefines hE hC x)
        (Refines.forEach values fun x _ => SL.add_refines hE x) hi hj
      unfold Alike at this ⊢
      dsimp only
      rw [e1, e2]
      exact this
  · rw [if_neg hm] at e1 e2
    exact done hj (e1.trans (by rw [e2]; rfl))

section
variable (hE : E.Lawful lt) (hC : Patient E' E lt J)
include hE hC

theorem update_rrefines (xs : List α) : RRefines (Inv id lt false) J (update E' xs) (Spec.update (Spec.Order.ofValues lt) xs) :=
  Alike.refines (J := J) (update_alike hE hC xs) (SL.update_refines hE xs)

theorem imul_rrefines (n : Int) : RRefines (Inv id lt false) J (imul Verif.SL.clear (update E') n) (Spec.imul (Spec.Order.ofValues lt) n) :=
  Alike.refines (J := J) (fun _ hp hJ => imul_alike (J := J) (SL.methods_ok hE) (update_alike hE hC) n hp hJ) ((SL.api_lawful hE).imul n)

theorem reset_rrefines (load : Nat) (hl : 1 ≤ load) :
    RRefines (Inv id lt false) J (reset Verif.SL.clear (update E') load) (Spec.reset load) :=
  Alike.refines (J := J) (fun _ hp hJ => reset_alike (J := J) (SL.methods_ok hE) (update_alike hE hC) hl hp hJ) ((SL.api_lawful hE).reset load hl)

theorem delSlice_rrefines (sl : PySlice) :
    RRefines (Inv id lt false) J (delSlice (methods E') (update E') sl) (Spec.delSlice sl) :=
  Alike.refines (J := J) (fun p hp hJ => delSlice_alike (J := J) (SL.methods_ok hE) (update_alike hE hC) (M' := methods E') rfl rfl
    (hC.always p.1).ilog2 sl hp hJ) ((SL.api_lawful hE).delSlice sl)

end

/-- One call, by client code that is right whatever it is told. -/
theorem step_rrefines (hE : E.Lawful lt) (hC : C.Steadfast E.cmp D) (op : Op α) (hv : op.Valid) :
    Refines (fun p : St α α × Seen (Query α) (Out α) => Inv id lt false p.1) (fun p => Core.iter p.1) (step (C.env E D 0) op) (Spec.step (Spec.Order.ofValues lt) op) := by
  have hp := Steadfast.patient hE hC
  cases hb : op.bulk with
  | false =>
    intro p hp
    obtain ⟨h1, h2, h3, -⟩ := call_ok hE (Steadfast.honest hC _) op hb hv p hp
    exact ⟨h1, h2, h3⟩
  | true =>
    suffices h : RRefines (Inv id lt false) (fun _ => True) (step (C.env E D 0) op) (Spec.step (Spec.Order.ofValues lt) op) from fun p hp => by
      obtain ⟨h1, h2, h3⟩ := h p ⟨hp, trivial⟩
      exact ⟨h1, h2, h3.1⟩
    cases op with
    | update xs => exact (update_rrefines hE hp xs).out _
    | iadd xs => exact (update_rrefines hE hp xs).out _
    | imul n => exact (imul_rrefines hE hp n).out _
    | reset load => exact (reset_rrefines hE hp load hv).out _
    | delSlice sl => exact (delSlice_rrefines hE hp sl).out _
    | _ => cases hb

end SL
end Reent
end Verif
