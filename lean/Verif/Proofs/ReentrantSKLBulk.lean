import Verif.Proofs.ReentrantSKL
/-!
# Calls on a SortedKeyList that call the client's code while they change the list
-/

namespace Verif
namespace Reent
variable {W α κ β γ : Type}

/-- `m` and `f`, started from objects that differ in the positional index only, give the same result, and leave such objects behind; `m` keeps
`J` true. -/
def Near (J : W → Prop) (m : RPy W (St α κ) β) (f : Py (St α κ) β) : Prop :=
  ∀ p t, Reindexed t p.1 → J p.2 → (m p).1 = (f t).1 ∧ Reindexed (f t).2 (m p).2.1 ∧ J (m p).2.2

namespace Near
variable {J : W → Prop}

theorem pure (b : β) : Near J (Pure.pure b : RPy W (St α κ) β) (Pure.pure b) := fun _ _ h hJ => ⟨rfl, h, hJ⟩

theorem lift (x : Except PyErr β) : Near (α := α) (κ := κ) J (free (Py.lift x)) (Py.lift x) := fun _ _ h hJ => ⟨rfl, h, hJ⟩

theorem bind {m : RPy W (St α κ) β} {f : Py (St α κ) β} {k : β → RPy W (St α κ) γ} {g : β → Py (St α κ) γ}
    (h : Near J m f) (hk : ∀ b, Near J (k b) (g b)) : Near J (m >>= k) (f >>= g) := by
  intro p t hp hJ
  obtain ⟨e, h1, h2⟩ := h p t hp hJ
  rw [Py.bind_apply, Py.bind_apply]
  rcases hm : m p with ⟨r, p'⟩
  rcases hf : f t with ⟨r', t'⟩
  rw [hm, hf] at e h1
  rw [hm] at h2
  simp only at e h1 h2
  subst e
  cases r with
  | error e => exact ⟨rfl, h1, h2⟩
  | ok b => exact hk b p' t' h1 h2

theorem get_bind {k : St α κ → RPy W (St α κ) β} {g : St α κ → Py (St α κ) β}
    (hk : ∀ s i o, k { s with index := i, offset := o } = k s) (h : ∀ s, Near J (k s) (g s)) : Near J (free Py.get >>= k) (Py.get >>= g) := by
  intro p t hp hJ
  have := h t p t hp hJ
  obtain ⟨i, o, e⟩ := hp
  show ((k p.1 p).1 = (g t t).1 ∧ Reindexed (g t t).2 (k p.1 p).2.1 ∧ J (k p.1 p).2.2)
  rw [show k p.1 = k t by rw [e]; exact hk t i o]
  exact this

theorem modify {g : St α κ → St α κ} (hg : ∀ s i o, ∃ i' o', g { s with index := i, offset := o } = { g s with index := i', offset := o' }) :
    Near J (free (Py.modify g)) (Py.modify g) := by
  rintro p t ⟨i, o, e⟩ hJ
  refine ⟨rfl, ?_, hJ⟩
  obtain ⟨i', o', h⟩ := hg t i o
  exact ⟨i', o', by show g p.1 = _; rw [e]; exact h⟩

theorem forEach {δ : Type} {m : δ → RPy W (St α κ) Unit} {f : δ → Py (St α κ) Unit} (h : ∀ x, Near J (m x) (f x)) (xs : List δ) :
    Near J (Py.forEach m xs) (Py.forEach f xs) := by
  induction xs with
  | nil => exact pure ()
  | cons x xs ih => exact bind (h x) fun _ => ih

/-- Client code that is right whatever it is told. -/
theorem of_sim {m : RPy W (St α κ) β} {x : Except PyErr β} (h : ∀ s0, Sim (fun _ => True) J s0 m (Py.lift x)) :
    Near J m (Py.lift x) := fun p t hp hJ => by
  obtain ⟨e, h1, -, -⟩ := h p.1 p p.1 ⟨.refl _, trivial, hJ⟩ (.refl _) trivial
  exact ⟨e, hp.trans h1.re, h1.world⟩

end Near

/-- If the call succeeds, `P` holds afterwards. -/
def Leaves (P : St α κ → Prop) (m : RPy W (St α κ) β) : Prop := ∀ p b p', m p = (.ok b, p') → P p'.1

theorem Leaves.bind {P : St α κ → Prop} {m : RPy W (St α κ) β} {k : β → RPy W (St α κ) γ} (h : ∀ b, Leaves P (k b)) : Leaves P (m >>= k) := by
  intro p c p' e
  rw [Py.bind_apply] at e
  rcases hm : m p with ⟨_ | b, q⟩
  · rw [hm] at e; cases e
  · rw [hm] at e; exact h b q c p' e

theorem Inv.unindexed {key : α → κ} {klt : κ → κ → Bool} {keyed : Bool} {s t : St α κ} (h : Inv key klt keyed s) (hr : Reindexed s t)
    (ht : t.index = []) : Inv key klt keyed t := by
  obtain ⟨i, o, rfl⟩ := hr
  exact { h with index_ok := fun hne => absurd ht hne }

namespace SKL
variable {key : α → κ} {klt : κ → κ → Bool} {veq : α → α → Bool} {K : KEnv α κ} {C : SKL.Clients α κ} {D : Nat}

/-- One call that does not call the client's code after it has begun to change the list. -/
theorem call_ok (hK : K.Lawful key klt veq) (hC : C.Honest key klt (Spec.Order.ofKey key klt veq K.vcmp) K.key K.kcmp K.vcmp D)
    (op : KOp α κ) (hb : op.bulk = false) (hv : op.Valid) (p : St α κ × Seen (KQuery α κ) (Out α)) (hp : Inv key klt true p.1) :
    (kstep (C.env K D 0) op p).1 = (Spec.kstep key klt (Spec.Order.ofKey key klt veq K.vcmp) op (Core.iter p.1)).1 ∧
    Core.iter (kstep (C.env K D 0) op p).2.1 = (Spec.kstep key klt (Spec.Order.ofKey key klt veq K.vcmp) op (Core.iter p.1)).2 ∧
    Inv key klt true (kstep (C.env K D 0) op p).2.1 ∧
    Answered (answers key klt (Spec.Order.ofKey key klt veq K.vcmp) (Core.iter p.1)) p.2.answers (kstep (C.env K D 0) op p).2.2 := by
  have h := env_sim hK hC hp p.2.answers D 0 rfl
  have hw : Answered (answers key klt (Spec.Order.ofKey key klt veq K.vcmp) (Core.iter p.1)) p.2.answers p.2 := ⟨[], rfl, nofun⟩
  have hr := SKL.kstep_refines hK op hv
  cases hq : op.isQuery
  · cases op with
    | op o => exact (step_ends h o hq hb).call hr hp hw
    | _ => cases hq
  · exact (kstep_sim h hK op hq).call hr hp hw

/-- Client's code that is right, and changes the positional index at most, in whatever state the list is; it keeps `J` true. -/
structure Patient (K' : RKEnv W α κ) (K : KEnv α κ) (key : α → κ) (klt : κ → κ → Bool) (J : W → Prop) : Prop where
  always : ∀ s0, EnvSim (fun _ => True) J s0 K' K
  good : ∀ s0, Inv key klt true s0 → EnvSim (Inv key klt true) J s0 K' K

theorem Steadfast.patient (hK : K.Lawful key klt veq) (hC : C.Steadfast K.key K.kcmp K.vcmp D) :
    Patient (C.env K D 0) K key klt (fun _ => True) where
  always s0 := env_always hK hC s0 D 0 rfl
  good s0 h0 := by
    have h := fun old => env_sim hK (Steadfast.honest hC _ _ _) h0 old D 0 rfl
    refine ⟨fun a p t hp h1 h2 => ?_, fun op a b p t hp h1 h2 => ?_, fun op a b p t hp h1 h2 => ?_, fun xs p t hp h1 h2 => ?_, (h []).ilog2⟩
    · obtain ⟨e, k, r⟩ := (h p.2.answers).of_key a p t ⟨hp.re, hp.inv, [], rfl, nofun⟩ h1 h2
      exact ⟨e, ⟨k.re, k.inv, trivial⟩, r⟩
    · obtain ⟨e, k, r⟩ := (h p.2.answers).of_kcmp op a b p t ⟨hp.re, hp.inv, [], rfl, nofun⟩ h1 h2
      exact ⟨e, ⟨k.re, k.inv, trivial⟩, r⟩
    · obtain ⟨e, k, r⟩ := (h p.2.answers).of_vcmp op a b p t ⟨hp.re, hp.inv, [], rfl, nofun⟩ h1 h2
      exact ⟨e, ⟨k.re, k.inv, trivial⟩, r⟩
    · obtain ⟨e, k, r⟩ := (h p.2.answers).sorted xs p t ⟨hp.re, hp.inv, [], rfl, nofun⟩ h1 h2
      exact ⟨e, ⟨k.re, k.inv, trivial⟩, r⟩

section
variable {K' : RKEnv W α κ} {J : W → Prop} (hK : K.Lawful key klt veq) (hC : Patient K' K key klt J)

include hK hC in
theorem add_rrefines (v : α) : RRefines (Inv key klt true) J (add K' v) (Spec.add (Spec.Order.ofKey key klt veq K.vcmp) v) := fun p hp =>
  (add_ends (hC.good p.1 hp.1) v).call (SKL.add_refines (cmp := K.vcmp) hK v) hp.1 hp.2

include hC

theorem key_near (a : α) : Near J (K'.key a) (Py.lift (K.key a)) := .of_sim fun s0 => (hC.always s0).of_key a

theorem keys_near (l : List α) : Near J (Py.mapEach K'.key l) (Py.lift (mapE K.key l)) :=
  .of_sim fun s0 => mapE_sim (hC.always s0).of_key l

theorem sorted_near (xs : List α) : Near J (K'.sortedByKey xs) (Py.lift (K.sortedByKey xs)) :=
  .of_sim fun s0 => (hC.always s0).sorted xs

theorem fill_near (values : List α) : Near J (fill K' values) (Verif.SKL.fill K values) := by
  unfold fill Verif.SKL.fill
  refine .get_bind (fun _ _ _ => rfl) fun s => .bind (.lift _) fun subs => .bind (.modify fun _ i o => ⟨i, o, rfl⟩) fun _ =>
    .get_bind (fun _ _ _ => rfl) fun s => .bind (.forEach (fun l => .bind (keys_near hC l) fun ks => .modify fun _ i o => ⟨i, o, rfl⟩) _)
      fun _ => .get_bind (fun _ _ _ => rfl) fun s => .bind (.lift _) fun ms => .bind (.modify fun _ i o => ⟨i, o, rfl⟩) fun _ =>
        .bind (.modify fun _ i o => ⟨i, o, rfl⟩) fun _ => .modify fun _ i o => ⟨[], o, rfl⟩

omit hC in
theorem fill_leaves (K' : RKEnv W α κ) (values : List α) : Leaves (fun s => s.index = []) (fill K' values) := by
  unfold fill
  refine .bind fun _ => .bind fun _ => .bind fun _ => .bind fun _ => .bind fun _ => .bind fun _ => .bind fun _ => .bind fun _ => .bind fun _ => ?_
  intro p b p' e
  cases e
  rfl

include hK

theorem update_alike (xs : List α) (p : St α κ × W) (hp : Inv key klt true p.1) (hJ : J p.2) :
    Alike (Inv key klt true) J (update K' xs) (Verif.SKL.update K xs) p := by
  have ur := fun s hs => SKL.update_refines (cmp := K.vcmp) hK xs s hs
  suffices h : ∃ p1 : St α κ × W, Core.iter p1.1 = Core.iter p.1 ∧ Inv key klt true p1.1 ∧
      Alike (Inv key klt true) J (fun _ => update K' xs p) (Verif.SKL.update K xs) p1 by
    obtain ⟨p1, e, hi, h1, h2, h3⟩ := h
    obtain ⟨a1, a2, -⟩ := ur p.1 hp
    obtain ⟨b1, b2, -⟩ := ur p1.1 hi
    rw [e] at b1 b2
    exact ⟨h1.trans (b1.trans a1.symm), h2.trans (b2.trans a2.symm), h3⟩
  obtain ⟨e, h1, -, -⟩ := (hC.good p.1 hp).sorted xs p p.1 ⟨.refl _, hp, hJ⟩ (.refl _) hp
  obtain ⟨hr, hi, hj⟩ := h1
  rcases hs : K'.sortedByKey xs p with ⟨r, p1⟩
  rw [hs] at e hr hi hj
  simp only [Py.lift_apply] at e hr hi hj
  obtain ⟨values, hv, -⟩ := hK.sorted xs
  rw [hv] at e
  subst e
  refine ⟨p1, reindexed_iter hr, hi, ?_⟩
  obtain ⟨u1, -, hI⟩ := ur p1.1 hi
  have done : ∀ {m : RPy W (St α κ) Unit} {f : Py (St α κ) Unit}, update K' xs p = m p1 → Verif.SKL.update K xs p1.1 = f p1.1 →
      Near J m f → Leaves (fun s => s.index = []) m →
      Alike (Inv key klt true) J (fun _ => update K' xs p) (Verif.SKL.update K xs) p1 := by
    intro m f em ef hn hl
    obtain ⟨n1, n2, n3⟩ := hn p1 p1.1 (.refl _) hj
    rw [ef] at u1 hI
    unfold Alike
    dsimp only
    rw [em, ef]
    refine ⟨n1, reindexed_iter n2, Inv.unindexed hI n2 (hl p1 () _ (Prod.ext (n1.trans u1) rfl)), n3⟩
  have e1 : update K' xs p = _ := Py.bind_ok hs
  rw [free_get_bind] at e1
  have e2 : Verif.SKL.update K xs p1.1 = _ := Py.bind_ok (m := Py.lift (K.sortedByKey xs)) (by rw [hv]; rfl)
  rw [Py.get_bind] at e2
  by_cases hm : p1.1.maxes ≠ []
  · rw [if_pos hm] at e1 e2
    by_cases hl : values.length * 4 ≥ p1.1.len
    · rw [if_pos hl] at e1 e2
      refine done e1 e2 ?_ ?_
      · exact .bind (.modify fun _ i o => ⟨i, o, rfl⟩) fun _ => .get_bind (fun _ _ _ => rfl) fun _ => .bind (sorted_near hC _) fun _ =>
          .bind (.modify fun _ i o => ⟨[], o, rfl⟩) fun _ => fill_near hC _
      · exact .bind fun _ => .bind fun _ => .bind fun _ => .bind fun _ => fill_leaves K' _
    · rw [if_neg hl] at e1 e2
      have := Alike.of_refines (p := p1) (Refines.forEach values fun x _ => add_rrefines hK hC x)
        (Refines.forEach values fun x _ => SKL.add_refines hK x) hi hj
      unfold Alike at this ⊢
      dsimp only
      rw [e1, e2]
      exact this
  · rw [if_neg hm] at e1 e2
    exact done e1 e2 (fill_near hC _) (fill_leaves K' _)

theorem update_rrefines (xs : List α) : RRefines (Inv key klt true) J (update K' xs) (Spec.update (Spec.Order.ofKey key klt veq K.vcmp) xs) :=
  Alike.refines (J := J) (update_alike hK hC xs) (SKL.update_refines hK xs)

theorem imul_rrefines (n : Int) :
    RRefines (Inv key klt true) J (imul Verif.SKL.clear (update K') n) (Spec.imul (Spec.Order.ofKey key klt veq K.vcmp) n) :=
  Alike.refines (J := J) (fun _ hp hJ => imul_alike (J := J) (SKL.methods_ok (cmp := K.vcmp) hK) (update_alike hK hC) n hp hJ) ((SKL.api_lawful hK).imul n)

theorem reset_rrefines (load : Nat) (hl : 1 ≤ load) :
    RRefines (Inv key klt true) J (reset Verif.SKL.clear (update K') load) (Spec.reset load) :=
  Alike.refines (J := J) (fun _ hp hJ => reset_alike (J := J) (SKL.methods_ok (cmp := K.vcmp) hK) (update_alike hK hC) hl hp hJ)
    ((SKL.api_lawful hK).reset load hl)

theorem delSlice_rrefines (sl : PySlice) :
    RRefines (Inv key klt true) J (delSlice (methods K') (update K') sl) (Spec.delSlice sl) :=
  Alike.refines (J := J) (fun p hp hJ => delSlice_alike (J := J) (SKL.methods_ok (cmp := K.vcmp) hK) (update_alike hK hC) (M' := methods K') rfl rfl
    (hC.always p.1).ilog2 sl hp hJ) ((SKL.api_lawful hK).delSlice sl)

end

/-- One call, by client code that is right whatever it is told. -/
theorem kstep_rrefines (hK : K.Lawful key klt veq) (hC : C.Steadfast K.key K.kcmp K.vcmp D) (op : KOp α κ) (hv : op.Valid) :
    Refines (fun p : St α κ × Seen (KQuery α κ) (Out α) => Inv key klt true p.1) (fun p => Core.iter p.1) (kstep (C.env K D 0) op) (Spec.kstep key klt (Spec.Order.ofKey key klt veq K.vcmp) op) := by
  have hp := Steadfast.patient hK hC
  cases hb : op.bulk with
  | false =>
    intro p hp
    obtain ⟨h1, h2, h3, -⟩ := call_ok hK (Steadfast.honest hC _ _ _) op hb hv p hp
    exact ⟨h1, h2, h3⟩
  | true =>
    suffices h : RRefines (Inv key klt true) (fun _ => True) (kstep (C.env K D 0) op) (Spec.kstep key klt (Spec.Order.ofKey key klt veq K.vcmp) op) from fun p hp => by
      obtain ⟨h1, h2, h3⟩ := h p ⟨hp, trivial⟩
      exact ⟨h1, h2, h3.1⟩
    cases op with
    | op o =>
      cases o with
      | update xs => exact (update_rrefines hK hp xs).out _
      | iadd xs => exact (update_rrefines hK hp xs).out _
      | imul n => exact (imul_rrefines hK hp n).out _
      | reset load => exact (reset_rrefines hK hp load hv).out _
      | delSlice sl => exact (delSlice_rrefines hK hp sl).out _
      | _ => cases hb
    | _ => cases hb

end SKL
end Reent
end Verif
