import Verif.Proofs.InterruptKey
import Verif.Proofs.Load
/-!
# Interrupted calls: the methods that both classes share
-/

namespace Verif
variable {α κ κ' β γ δ : Type} {k0 : α → κ'} {keyed : Bool}

/-- A query leaves an object that differs at most in the positional index. -/
theorem Tr.snd {s : St α κ} {mt : IPy (St α κ) β} {m : Py (St α κ) β} (h : Tr (Reindexed s) mt m s) : Reindexed s (m s).2 := by
  obtain ⟨d, -, -, ⟨i, o, h1⟩, -, ⟨i', o', h2⟩, -⟩ := h (Reindexed.refl s) []
  rw [h1] at h2
  refine ⟨(m s).2.index, (m s).2.offset, ?_⟩
  cases s
  revert h2
  cases (m _).2
  intro h2
  simp only [St.mk.injEq] at h2 ⊢
  simp [h2]

theorem Interrupt.pos_snd {ilog2 : Nat → Nat} (i : Int) (s : St α κ) : Reindexed s (Core.pos ilog2 i s).2 :=
  (Interrupt.pos_tr (noIndex_reindexed s) i).snd

theorem Whole.pos (hlog : ∀ n, 1 ≤ n → n < 2 ^ (ilog2 n + 1)) {s s1 : St α κ} (h : Whole k0 keyed s) {i : Int} {p x : Nat}
    (e : Core.pos ilog2 i s = (.ok (p, x), s1)) : (∃ n v, At s.lists p x n v) ∧ Reindexed s s1 ∧ Whole k0 keyed s1 := by
  obtain ⟨t, hl, hi⟩ := h
  obtain ⟨h1, h2⟩ := Core.pos_sim ilog2 i s t hl
  cases hn : Spec.position t.lists.flatten.length i with
  | none =>
    rw [e, hi.pos_none hn] at h1; cases h1
  | some n =>
    obtain ⟨p', x', v, t', e', hat, hr, hi'⟩ := hi.pos_some hlog hn
    rw [e, e'] at h1 h2
    cases h1
    refine ⟨⟨n, v, hl.lists ▸ hat⟩, ?_, ⟨t', h2, hi'⟩⟩
    have r := Interrupt.pos_snd (ilog2 := ilog2) i s
    rwa [e] at r

theorem Whole.getSliceStep1 (hlog : ∀ n, 1 ≤ n → n < 2 ^ (ilog2 n + 1)) {s s1 : St α κ} (h : Whole k0 keyed s) {a b : Option Int}
    {vs : List α} (e : Core.getSliceStep1 ilog2 a b s = (.ok vs, s1)) :
    (Spec.getSlice { start := a, stop := b } (Core.iter s)).1 = .ok vs ∧ Core.iter s1 = Core.iter s ∧ Whole k0 keyed s1 := by
  obtain ⟨t, hl, hi⟩ := h
  obtain ⟨h1, h2⟩ := Core.getSliceStep1_sim ilog2 a b s t hl
  obtain ⟨t', e', hr, hi'⟩ := hi.getSliceStep1_ok hlog a b
  rw [e, e'] at h1 h2
  rw [hl.iter]
  refine ⟨h1.symm, ?_, ⟨t', h2, hi'⟩⟩
  rw [h2.iter, Core.iter, hr.lists]; rfl

/-- An interrupted call of `m` leaves the values that were there, or, up to one run of them, those that are there if it is not
interrupted. -/
def CutTo (N : Nat) (l0 : List α) (mt : IPy (St α κ) β) (m : Py (St α κ) β) (s : St α κ) : Prop :=
  Tr (On fun l => l = l0 ∨ Torn N (Core.iter (m s).2) l) mt m s

namespace CutTo
variable {N : Nat} {l0 : List α} {s : St α κ}

theorem pure (b : β) : CutTo N l0 (Pure.pure b : IPy (St α κ) β) (Pure.pure b : Py (St α κ) β) s := Tr.pure b

theorem raise (e : PyErr) : CutTo N l0 (IPy.raise e : IPy (St α κ) β) (Py.raise e) s := Tr.raise e

theorem get_bind {ft : St α κ → IPy (St α κ) γ} {f : St α κ → Py (St α κ) γ} (h : CutTo N l0 (ft s) (f s) s) :
    CutTo N l0 (IPy.get >>= ft) (Py.get >>= f) s := h

theorem lift_bind {x : Except PyErr β} {ft : β → IPy (St α κ) γ} {f : β → Py (St α κ) γ}
    (h : ∀ b, x = .ok b → CutTo N l0 (ft b) (f b) s) : CutTo N l0 (IPy.lift x >>= ft) (Py.lift x >>= f) s := by
  refine Tr.lift_bind fun b e => ?_
  subst e
  exact h b rfl

theorem ite {c : Prop} [Decidable c] {mt mt' : IPy (St α κ) β} {m m' : Py (St α κ) β} (h1 : c → CutTo N l0 mt m s)
    (h2 : ¬ c → CutTo N l0 mt' m' s) : CutTo N l0 (if c then mt else mt') (if c then m else m') s := by
  by_cases hc : c
  · rw [if_pos hc, if_pos hc]; exact h1 hc
  · rw [if_neg hc, if_neg hc]; exact h2 hc

/-- After a query. -/
theorem query_bind {mt : IPy (St α κ) β} {m : Py (St α κ) β} {ft : β → IPy (St α κ) γ} {f : β → Py (St α κ) γ}
    (h1 : ∀ P, NoIndex P → Tr P mt m s) (h2 : ∀ b s1, m s = (.ok b, s1) → CutTo N l0 (ft b) (f b) s1) :
    CutTo N l0 (mt >>= ft) (m >>= f) s := by
  refine Tr.bind (h1 _ (On.noIndex _)) fun b s1 e _ => ?_
  rw [Py.bind_ok e]
  exact h2 b s1 e

/-- Before a result is returned. -/
theorem then_pure {mt : IPy (St α κ) β} {m : Py (St α κ) β} (h : CutTo N l0 mt m s) (g : β → γ) :
    CutTo N l0 (mt >>= fun b => Pure.pure (g b)) (m >>= fun b => Pure.pure (g b)) s := by
  have : Core.iter ((m >>= fun b => Pure.pure (g b)) s).2 = Core.iter (m s).2 := by
    rcases e : m s with ⟨r, s1⟩
    cases r with
    | ok b => rw [Py.bind_ok e]; rfl
    | error er => rw [Py.bind_error e]
  unfold CutTo
  rw [this]
  exact Tr.bind h fun _ _ _ _ => Tr.pure _

end CutTo

/-- What the shared code needs to know about `clear`, `update` and `_delete`. -/
structure CutM (M : IMethods α κ) (M1 : Methods α κ) (k0 : α → κ') (keyed : Bool) : Prop where
  log : M.ilog2 = M1.ilog2
  hlog : ∀ n, 1 ≤ n → n < 2 ^ (M1.ilog2 n + 1)
  load : Core.MethodsLoad M1
  clear : ∀ {R : List α → Prop} {s}, R [] → Tr (On R) M.clear M1.clear s
  cleared : ∀ {s}, ∃ s', M1.clear s = (.ok (), s') ∧ s'.lists = [] ∧ ∀ load, 1 ≤ load → Whole k0 keyed { s' with load := load }
  update : ∀ {s xs}, Whole k0 keyed s → Tr (On (PartOf (Core.iter s ++ xs))) (M.update xs) (M1.update xs) s
  delete : ∀ {s p i n v}, Whole k0 keyed s → At s.lists p i n v →
    CutTo (s.load * 2) (Core.iter s) (M.delete p i) (M1.delete p i) s ∧
    ∃ s', M1.delete p i s = (.ok (), s') ∧ Whole k0 keyed s' ∧ Core.iter s' = (Core.iter s).eraseIdx n

namespace CutM
variable {M : IMethods α κ} {M1 : Methods α κ} {s : St α κ}

theorem delete_at (h : CutM M M1 k0 keyed) (hs : Whole k0 keyed s) {s1 : St α κ} (hr : Reindexed s s1) (hs1 : Whole k0 keyed s1) {p i : Nat}
    {l : List α} {x : α} (h1 : getItem s.lists p = .ok l) (h2 : getItem l i = .ok x) :
    CutTo (s.load * 2) (Core.iter s) (M.delete p i) (M1.delete p i) s1 := by
  obtain ⟨n, hat⟩ := At.of_getItem h1 h2
  have e1 : Core.iter s = Core.iter s1 := by rw [Core.iter, ← hr.lists]; rfl
  have e2 : s.load = s1.load := by obtain ⟨i, o, rfl⟩ := hr; rfl
  rw [e1, e2]
  exact (h.delete hs1 (hr.lists ▸ hat)).1

theorem delInt (h : CutM M M1 k0 keyed) (hs : Whole k0 keyed s) (i : Int) :
    CutTo (s.load * 2) (Core.iter s) (Interrupt.delInt M i) (Core.delInt M1 i) s := by
  unfold Interrupt.delInt Core.delInt
  rw [h.log]
  refine CutTo.query_bind (fun P hP => Interrupt.pos_tr hP i) fun ⟨p, x⟩ s1 e => ?_
  obtain ⟨⟨n, v, hat⟩, hr, hs1⟩ := hs.pos h.hlog e
  obtain ⟨l, h1, h2⟩ := hat.getItem
  exact h.delete_at hs hr hs1 h1 h2

theorem delInt_next (h : CutM M M1 k0 keyed) (hs : Whole k0 keyed s) {i : Int} {s' : St α κ} (e : Core.delInt M1 i s = (.ok (), s')) :
    Whole k0 keyed s' ∧ s'.load = s.load ∧ PartOf (Core.iter s) (Core.iter s') := by
  have hload := Core.delInt_load h.load i s
  rw [e] at hload
  unfold Core.delInt at e
  rcases ep : Core.pos M1.ilog2 i s with ⟨r, s1⟩
  cases r with
  | error er => rw [Py.bind_error ep] at e; cases e
  | ok px =>
    obtain ⟨p, x⟩ := px
    rw [Py.bind_ok ep] at e
    obtain ⟨⟨n, v, hat⟩, hr, hs1⟩ := hs.pos h.hlog ep
    obtain ⟨-, s2, e2, h1, h2⟩ := h.delete hs1 (hr.lists ▸ hat)
    have e : M1.delete p x s1 = (.ok (), s') := e
    rw [e2] at e; cases e
    refine ⟨h1, hload, ?_⟩
    rw [h2, show Core.iter s = Core.iter s1 by rw [Core.iter, ← hr.lists]; rfl]
    exact PartOf.eraseIdx _ _

theorem pop (h : CutM M M1 k0 keyed) (hs : Whole k0 keyed s) (i : Int) :
    CutTo (s.load * 2) (Core.iter s) (Interrupt.pop M i) (Core.pop M1 i) s := by
  unfold Interrupt.pop Core.pop
  rw [h.log]
  have rr := Reindexed.refl s
  refine CutTo.get_bind (CutTo.ite (fun _ => CutTo.raise _) fun _ => CutTo.ite (fun _ => ?_) fun _ => CutTo.ite (fun _ => ?_) fun _ => ?_)
  · exact CutTo.lift_bind fun l hl => CutTo.lift_bind fun v hv => (h.delete_at hs rr hs hl hv).then_pure _
  · exact CutTo.lift_bind fun l hl => CutTo.lift_bind fun v hv => (h.delete_at hs rr hs hl hv).then_pure _
  · refine CutTo.lift_bind fun l hl => CutTo.ite (fun _ => ?_) fun _ => CutTo.lift_bind fun l' _ => CutTo.ite (fun _ => ?_) fun _ => ?_
    · exact CutTo.lift_bind fun v hv => (h.delete_at hs rr hs hl hv).then_pure _
    · exact CutTo.lift_bind fun l hl => CutTo.lift_bind fun v hv => (h.delete_at hs rr hs hl hv).then_pure _
    · refine CutTo.query_bind (fun P hP => Interrupt.pos_tr hP i) fun ⟨p, x⟩ s1 e => ?_
      obtain ⟨-, hr, hs1⟩ := hs.pos h.hlog e
      exact CutTo.lift_bind fun l hl => CutTo.lift_bind fun v hv => (h.delete_at hs hr hs1 hl hv).then_pure _

/-- Clear the object, then put values back. -/
theorem refill (h : CutM M M1 k0 keyed) (hload : 1 ≤ s.load) {R : List α → Prop} {vs : List α} (hR : ∀ l, PartOf vs l → R l) :
    Tr (On R) (do M.clear; M.update vs) (do M1.clear; M1.update vs) s := by
  refine Tr.bind (h.clear (hR _ (PartOf.nil _))) fun _ s1 e _ => ?_
  obtain ⟨s', e', hl, hw⟩ := h.cleared (s := s)
  obtain ⟨-, rfl⟩ := Prod.mk.inj (e.symm.trans e')
  have hl' := h.load.clear s
  rw [e'] at hl'
  have hi : Core.iter s1 = [] := by rw [Core.iter, hl]; rfl
  have hw := hw s1.load (by rw [hl']; exact hload)
  have := h.update (xs := vs) hw
  rw [show Core.iter { s1 with load := s1.load } = [] from hi] at this
  exact this.weaken (by show PartOf _ (Core.iter s1); rw [hi]; exact PartOf.nil _) fun x hx => hR _ hx

theorem imul (h : CutM M M1 k0 keyed) (hs : Whole k0 keyed s) (n : Int) :
    Tr (On fun l => l = Core.iter s ∨ PartOf (repeatList (Core.iter s) n) l) (Interrupt.imul M n) (Core.imul M1 n) s :=
  Tr.get_bind (h.refill hs.load_pos fun _ hl => .inr hl)

theorem reset (h : CutM M M1 k0 keyed) {load : Nat} (hload : 1 ≤ load) :
    Tr (On (PartOf (Core.iter s))) (Interrupt.reset M load) (Core.reset M1 load) s := by
  refine Tr.get_bind (Tr.bind (h.clear (PartOf.nil _)) fun _ s1 e _ => ?_)
  obtain ⟨s', e', hl, hw⟩ := h.cleared (s := s)
  obtain ⟨-, rfl⟩ := Prod.mk.inj (e.symm.trans e')
  have hi : Core.iter s1 = [] := by rw [Core.iter, hl]; rfl
  refine Tr.write_bind (fun h => h) ?_
  have := h.update (xs := Core.iter s) (hw load hload)
  rw [show Core.iter { s1 with load := load } = [] from hi] at this
  exact this

theorem delSlice (h : CutM M M1 k0 keyed) (hs : Whole k0 keyed s) (sl : PySlice) :
    Tr (On fun l => ∃ F, PartOf (Core.iter s) F ∧ Torn (s.load * 2) F l) (Interrupt.delSlice M sl) (Core.delSlice M1 sl) s := by
  have hlen : s.len = (Core.iter s).length := hs.len_eq
  refine Tr.get_bind (Tr.lift_bind fun ⟨a, b, c⟩ hi => Tr.ite (fun _ => ?_) fun _ => Tr.ite (fun h2 => ?_) fun _ => ?_)
  · exact h.clear ⟨[], PartOf.nil _, Torn.refl _ _⟩
  · rw [h.log]
    obtain ⟨rfl, hab, -⟩ := h2
    rw [hlen] at hi ⊢
    have hb := (indices_bounds hi).1 (by omega)
    have ind1 : PySlice.indices { start := none, stop := some a } (Core.iter s).length = .ok (0, a, 1) := by
      simp only [PySlice.indices, Option.getD_none, adjustIndex]
      rw [if_neg (by omega), if_neg (by omega), if_neg (by omega), if_neg (by omega), if_neg (by omega)]
      congr 3
      omega
    have ind2 : b < ((Core.iter s).length : Int) → PySlice.indices { start := some b, stop := none } (Core.iter s).length =
        .ok (b, ((Core.iter s).length : Int), 1) := by
      intro _
      simp only [PySlice.indices, Option.getD_none, adjustIndex]
      rw [if_neg (by omega), if_neg (by omega), if_neg (by omega), if_neg (by omega)]
      congr 2
      omega
    refine Tr.bind (Interrupt.getSliceStep1_tr (On.noIndex _) _ _) fun vs s1 e1 _ => ?_
    obtain ⟨v1, i1, w1⟩ := hs.getSliceStep1 h.hlog e1
    rw [spec_getSlice_step1 ind1] at v1
    have v1 : ((Core.iter s).take a.toNat).drop (0 : Int).toNat = vs := Except.ok.inj v1
    simp at v1
    refine Tr.ite (fun hbl => ?_) fun _ => ?_
    · refine Tr.bind (Interrupt.getSliceStep1_tr (On.noIndex _) _ _) fun tail s2 e2 _ => ?_
      obtain ⟨v2, i2, w2⟩ := w1.getSliceStep1 h.hlog e2
      rw [i1, spec_getSlice_step1 (ind2 hbl)] at v2
      have v2 := Except.ok.inj v2
      refine Tr.bind (Tr.pure _) fun vs' s3 e3 _ => ?_
      cases e3
      refine h.refill w2.load_pos fun l hl => ⟨l, PartOf.trans ?_ hl, Torn.refl _ _⟩
      have v2 : (Core.iter s).drop b.toNat = tail := by
        rw [← v2, List.take_of_length_le (i := ((Core.iter s).length : Int).toNat) (by simp)]
      rw [← v1, ← v2]
      refine ⟨((Core.iter s).take b.toNat).drop a.toNat, ?_⟩
      have e4 : Core.iter s = (Core.iter s).take a.toNat ++ (((Core.iter s).take b.toNat).drop a.toNat ++ (Core.iter s).drop b.toNat) := by
        rw [← List.append_assoc]
        have : (Core.iter s).take a.toNat = ((Core.iter s).take b.toNat).take a.toNat := by
          rw [List.take_take]; congr 1; omega
        rw [this, List.take_append_drop, List.take_append_drop]
      rw [List.append_assoc]
      exact (List.perm_append_comm.append_left _).trans (List.Perm.of_eq e4.symm)
    · refine Tr.bind (Tr.pure _) fun vs' s3 e3 _ => ?_
      cases e3
      refine h.refill w1.load_pos fun l hl => ⟨l, PartOf.trans ?_ hl, Torn.refl _ _⟩
      rw [← v1]
      exact ⟨_, by rw [List.take_append_drop]⟩
  · refine Tr.forEach (I := fun s1 => Whole k0 keyed s1 ∧ PartOf (Core.iter s) (Core.iter s1) ∧ s1.load = s.load) (fun i s1 hs1 => ?_) ?_ _
      ⟨hs, PartOf.refl _, rfl⟩
    · obtain ⟨w1, w2, w3⟩ := hs1
      refine (h.delInt w1 i).weaken (.inl rfl) fun x hx => ?_
      rw [w3] at hx
      rcases hx with hx | hx
      · exact ⟨_, w2, by rw [hx]; exact Torn.refl _ _⟩
      · refine ⟨_, w2.trans ?_, hx⟩
        rcases e : Core.delInt M1 i s1 with ⟨r, s2⟩
        cases r with
        | ok _ => exact (h.delInt_next w1 e).2.2
        | error er =>
          unfold Core.delInt at e
          rcases ep : Core.pos M1.ilog2 i s1 with ⟨r, s3⟩
          cases r with
          | error er =>
            rw [Py.bind_error ep] at e; cases e
            have r := Interrupt.pos_snd (ilog2 := M1.ilog2) i s1
            rw [ep] at r
            obtain ⟨i', o', r⟩ := r
            rw [r]
            exact PartOf.refl _
          | ok px =>
            obtain ⟨p, x⟩ := px
            rw [Py.bind_ok ep] at e
            obtain ⟨⟨n, v, hat⟩, hr, hs1⟩ := w1.pos h.hlog ep
            obtain ⟨-, s2, e2, h1, h2⟩ := h.delete hs1 (hr.lists ▸ hat)
            have e : M1.delete p x s3 = _ := e
            rw [e2] at e; cases e
    · rintro i s1 ⟨w1, w2, w3⟩ s2 e
      obtain ⟨u1, u2, u3⟩ := h.delInt_next w1 e
      exact ⟨u1, w2.trans u3, u2.trans w3⟩

end CutM
end Verif
