import Verif.Proofs.InterruptSets
import Verif.Proofs.SortedSet
/-!
# Interrupted calls on sorted sets, call by call
-/

namespace Verif
variable {α τ σ β γ : Type}

theorem PartOf.mem {l xs : List α} (h : PartOf xs l) {v : α} (hv : v ∈ l) : v ∈ xs := by
  obtain ⟨rest, hp⟩ := h
  exact hp.mem_iff.1 (List.mem_append_left _ hv)

theorem PartOf.foldl_addNew (eqv : α → α → Bool) (l xs : List α) : PartOf (xs.foldl (addNew eqv) l) l := by
  induction xs generalizing l with
  | nil => exact .refl _
  | cons x xs ih =>
    refine (ih (addNew eqv l x)).trans ?_
    unfold addNew
    split
    · exact .refl _
    · exact .of_prefix

theorem PartOf.filter (p : α → Bool) (l : List α) : PartOf l (l.filter p) :=
  ⟨l.filter fun a => !p a, List.filter_append_perm p l⟩

namespace Interrupt.SS
open Verif.SS (Good Alike iter)
variable {S : SetOps τ α} {IL : IListAPI σ α} {L : ListAPI σ α} {O : Spec.Order α} {eqv : α → α → Bool} {I : σ → Prop}
  {load : σ → Nat} {like : σ → σ → Prop} {s : SS τ σ} {P : SS τ σ → Prop}

theorem alike_refl (hr : ∀ l, like l l) (s : SS τ σ) : Alike like s s := ⟨rfl, hr _⟩

theorem onSet_bind (hr : ∀ l, like l l) {g : τ → τ} {ft : Unit → IPy (SS τ σ) γ} {f : Unit → Py (SS τ σ) γ} (hP : P s → P { s with set := g s.set })
    (h : Trace (Alike like) P (ft ()) (f ()) { s with set := g s.set }) : Trace (Alike like) P (onSet g >>= ft) (Verif.SS.onSet g >>= f) s :=
  Trace.write_bind (alike_refl hr) hP h

theorem ssList2 {Q : σ → Prop} {mt : IPy σ β} {m : Py σ β} {t : τ} {l : σ} (h : Trace like Q mt m l) (hs : Q l) (hP : ∀ l', Q l' → P { set := t, list := l' }) :
    Trace (Alike like) P (onList mt) (Verif.SS.onList m) { set := t, list := l } := h.ssList (s := { set := t, list := l }) hs hP

theorem setRemove_trace (hr : ∀ l, like l l) {v : α} (hP : ∀ t, S.remove v s.set = .ok t → P { s with set := t }) :
    Trace (Alike like) P (setRemove S v) (Verif.SS.setRemove S v) s := fun hs hh => by
  unfold setRemove Verif.SS.setRemove
  rw [IPy.get_bind]
  cases e : S.remove v s.set with
  | ok t => exact ⟨[{ s with set := t }], rfl, fun x hx => by rw [List.mem_singleton.1 hx]; exact hP t e, hP t e, rfl, alike_refl hr _, fun _ _ => rfl⟩
  | error x => exact ⟨[], (List.append_nil _).symm, by simp, hs, rfl, alike_refl hr _, fun _ _ => rfl⟩

theorem setRemove_ok {v : α} {u : Unit} {s1 : SS τ σ} (e : Verif.SS.setRemove S v s = (.ok u, s1)) :
    ∃ t, S.remove v s.set = .ok t ∧ s1 = { s with set := t } := by
  unfold Verif.SS.setRemove at e
  cases h : S.remove v s.set with
  | ok t => rw [h] at e; cases e; exact ⟨t, rfl, rfl⟩
  | error x => rw [h] at e; cases e

/-- A query of the list. -/
theorem onList_like {mt : IPy σ β} {m : Py σ β} (hr : ∀ l, like l l) (h : Trace like (like s.list) mt m s.list) (hP : ∀ l, like s.list l → P { s with list := l }) :
    Trace (Alike like) P (onList mt) (Verif.SS.onList m) s := h.ssList (hr _) hP

theorem onList_ok {mt : IPy σ β} {m : Py σ β} (hr : ∀ l, like l l) (h : Trace like (like s.list) mt m s.list) {b : β} {s1 : SS τ σ}
    (e : Verif.SS.onList m s = (.ok b, s1)) : s1.set = s.set ∧ like s.list s1.list ∧ (m s.list) = (.ok b, s1.list) := by
  obtain ⟨d, -, -, e3, -, -, e6⟩ := h (hr _) []
  unfold Verif.SS.onList at e
  rcases hm : m s.list with ⟨r, l⟩
  rw [hm] at e
  cases e
  refine ⟨rfl, ?_, rfl⟩
  have := e6 b (by rw [hm])
  rw [this, hm] at e3
  exact e3

variable (h : Good S L O eqv I) (hc : IL.Cuts L I load like) (ha : IL.Asks L like)
include h hc

/-- What an interrupted call leaves behind. -/
def Left (S : SetOps τ α) (L : ListAPI σ α) (load : σ → Nat) (op : SSOp α) (s s1 x : SS τ σ) : Prop :=
  op.Aftermath (load s.list) (iter L s) (iter L s1) (iter L x) ∧ op.Progress S.mem s.set s1.set x.set (iter L s) (iter L s1) (iter L x)

theorem add_trace (hs : Verif.SS.Inv S L I s) (v : α) :
    Trace (Alike like) (Left S L load (.add v) s (Verif.SS.add S L v s).2) (add S IL v) (Verif.SS.add S L v) s := by
  refine Trace.get_bind ?_
  by_cases hv : S.mem v s.set
  · rw [if_pos hv, if_pos hv]; exact Trace.pure (alike_refl hc.refl) ()
  rw [if_neg hv, if_neg hv]
  have e : (Verif.SS.add S L v s).2 = { set := S.add v s.set, list := (L.add v s.list).2 } := by
    unfold Verif.SS.add
    rw [Py.get_bind, if_neg hv]; rfl
  rw [e]
  refine onSet_bind hc.refl (fun _ => ⟨.inl rfl, .inr rfl⟩) ?_
  exact ssList2 (hc.add hs.list v) (.inl rfl) fun l hl => ⟨hl, .inr rfl⟩

omit h in
theorem remove_tail {t : τ} (hs : I s.list) (v : α) (hP : P { s with set := t }) (hQ : ∀ l, L.iter l = L.iter s.list ∨ Torn (load s.list * 2) (L.iter (L.remove v s.list).2) (L.iter l) →
    P { set := t, list := l }) : Trace (Alike like) P (onList (IL.remove v)) (Verif.SS.onList (L.remove v)) { s with set := t } :=
  ssList2 (hc.remove (s := s.list) hs v) (.inl rfl) hQ

theorem remove_trace (hs : Verif.SS.Inv S L I s) (v : α) :
    Trace (Alike like) (Left S L load (.remove v) s (Verif.SS.remove S L v s).2) (remove S IL v) (Verif.SS.remove S L v) s := by
  have e : ∀ t, S.remove v s.set = .ok t → (Verif.SS.remove S L v s).2 = { set := t, list := (L.remove v s.list).2 } := fun t ht => by
    unfold Verif.SS.remove
    rw [Py.bind_ok (s' := { s with set := t }) (a := ()) (by unfold Verif.SS.setRemove; rw [ht])]
    rfl
  refine Trace.bind (setRemove_trace hc.refl fun t ht => ⟨.inl rfl, .inr (by rw [e t ht])⟩) fun u s1 e1 _ => ?_
  obtain ⟨t, ht, rfl⟩ := setRemove_ok e1
  rw [e t ht]
  exact remove_tail hc hs.list v ⟨.inl rfl, .inr rfl⟩ fun l hl => ⟨hl, .inr rfl⟩

theorem discard_trace (hs : Verif.SS.Inv S L I s) (v : α) :
    Trace (Alike like) (Left S L load (.discard v) s (Verif.SS.discard S L v s).2) (discard S IL v) (Verif.SS.discard S L v) s := by
  refine Trace.get_bind ?_
  by_cases hv : S.mem v s.set
  · rw [if_pos hv, if_pos hv]
    have e : Verif.SS.discard S L v s = Verif.SS.remove S L v s := by
      unfold Verif.SS.discard
      rw [Py.get_bind, if_pos hv]; rfl
    rw [e]
    exact remove_trace h hc hs v
  · rw [if_neg hv, if_neg hv]; exact Trace.pure (alike_refl hc.refl) ()

theorem pop_trace (hs : Verif.SS.Inv S L I s) (i : Int) :
    Trace (Alike like) (Left S L load (.pop i) s (Verif.SS.pop S L i s).2) (pop S IL i) (Verif.SS.pop S L i) s := by
  have e : (Verif.SS.pop S L i s).2.list = (L.pop i s.list).2 := by
    unfold Verif.SS.pop
    rcases hq : L.pop i s.list with ⟨r, l⟩
    have hq' : Verif.SS.onList (L.pop i) s = (r, { s with list := l }) := by unfold Verif.SS.onList; rw [hq]
    cases r with
    | error x => rw [Py.bind_error hq']
    | ok b =>
      rw [Py.bind_ok hq']
      rcases hr : Verif.SS.setRemove S b ({ s with list := l } : SS τ σ) with ⟨r, s1⟩
      cases r with
      | error x =>
        rw [Py.bind_error hr]
        unfold Verif.SS.setRemove at hr
        split at hr <;> cases hr
        rfl
      | ok u => rw [Py.bind_ok hr]; obtain ⟨t, -, rfl⟩ := setRemove_ok hr; rfl
  have e' : iter L (Verif.SS.pop S L i s).2 = L.iter (L.pop i s.list).2 := by unfold iter; rw [e]
  refine Trace.bind ((hc.pop hs.list i).ssList (.inl rfl) fun l hl => ⟨?_, .inl rfl⟩) fun b s1 e1 hs1 => ?_
  · show _ ∨ _; rw [e']; exact hl
  have e2 : s1 = { s with list := (L.pop i s.list).2 } := by
    exact (congrArg Prod.snd e1).symm
  refine Trace.bind (setRemove_trace hc.refl fun t ht => ?_) fun _ s2 e3 _ => Trace.pure (alike_refl hc.refl) b
  have e3 : (Verif.SS.pop S L i s).2.set = t := by
    unfold Verif.SS.pop
    rw [Py.bind_ok e1, Py.bind_ok (s' := { s1 with set := t }) (a := ()) (by unfold Verif.SS.setRemove; rw [ht])]
    rfl
  refine ⟨?_, .inr ⟨e3.symm, ?_⟩⟩
  · refine .inr ?_
    rw [e', e2]; exact Torn.refl _ _
  · rw [e', e2]; rfl

theorem clear_trace (s : SS τ σ) :
    Trace (Alike like) (Left S L load .clear s (Verif.SS.clear S L s).2) (clear S IL) (Verif.SS.clear S L) s := by
  have e : (Verif.SS.clear S L s).2 = { set := S.empty, list := (L.clear s.list).2 } := rfl
  rw [e]
  refine onSet_bind hc.refl (fun _ => ⟨.inl rfl, .inr rfl⟩) ?_
  exact ssList2 (hc.clear s.list) (.inl rfl) fun l hl => ⟨hl, .inr rfl⟩

include ha in
theorem delInt_trace (hs : Verif.SS.Inv S L I s) (i : Int) :
    Trace (Alike like) (Left S L load (.delInt i) s (Verif.SS.delInt S L i s).2) (delInt S IL i) (Verif.SS.delInt S L i) s := by
  refine Trace.bind (onList_like hc.refl (ha.getInt s.list i) fun l hl => ⟨.inl (hc.iter hl), .inl ⟨rfl, hc.iter hl⟩⟩) fun b s1 e1 hs1 => ?_
  obtain ⟨g1, g2, g3⟩ := onList_ok hc.refl (ha.getInt s.list i) e1
  have hi : I s1.list := by
    obtain ⟨l', e, -, h2⟩ := (h.list.getInt i).eq_of hs.list rfl
    rw [g3] at e; have e : s1.list = l' := congrArg Prod.snd e; rw [e]; exact h2
  have e : ∀ t, S.remove b s1.set = .ok t → (Verif.SS.delInt S L i s).2 = { set := t, list := (L.delInt i s1.list).2 } := fun t ht => by
    unfold Verif.SS.delInt
    rw [Py.bind_ok e1, Py.bind_ok (s' := { s1 with set := t }) (a := ()) (by unfold Verif.SS.setRemove; rw [ht])]
    rfl
  refine Trace.bind (setRemove_trace hc.refl fun t ht => ⟨.inl (hc.iter g2), .inr (by rw [e t ht])⟩) fun u s2 e2 _ => ?_
  obtain ⟨t, ht, rfl⟩ := setRemove_ok e2
  rw [e t ht]
  refine ssList2 (hc.delInt (s := s1.list) hi i) (.inl rfl) fun l hl => ⟨?_, .inr rfl⟩
  rw [hc.iter g2, hc.load_like g2] at hl
  exact hl

include ha in
theorem delSlice_trace (hs : Verif.SS.Inv S L I s) (sl : PySlice) :
    Trace (Alike like) (Left S L load (.delSlice sl) s (Verif.SS.delSlice S L sl s).2) (delSlice S IL sl) (Verif.SS.delSlice S L sl) s := by
  refine Trace.bind (onList_like hc.refl (ha.getSlice s.list sl) fun l hl => ⟨⟨L.iter l, by rw [hc.iter hl]; exact .refl _, .refl _ _⟩, .inl ⟨rfl, hc.iter hl⟩⟩) fun b s1 e1 hs1 => ?_
  obtain ⟨g1, g2, g3⟩ := onList_ok hc.refl (ha.getSlice s.list sl) e1
  have hi : I s1.list := by
    obtain ⟨l', e, -, h2⟩ := (h.list.getSlice sl).eq_of hs.list rfl
    rw [g3] at e; have e : s1.list = l' := congrArg Prod.snd e; rw [e]; exact h2
  have e : (Verif.SS.delSlice S L sl s).2 = { set := S.differenceUpdate b s1.set, list := (L.delSlice sl s1.list).2 } := by
    unfold Verif.SS.delSlice
    rw [Py.bind_ok e1]
    rfl
  rw [e]
  refine onSet_bind hc.refl (fun _ => ⟨⟨L.iter s1.list, by rw [hc.iter g2]; exact .refl _, .refl _ _⟩, .inr rfl⟩) ?_
  refine ssList2 (hc.delSlice (s := s1.list) hi sl) ⟨_, .refl _, .refl _ _⟩ fun l hl => ⟨?_, .inr rfl⟩
  rw [hc.iter g2, hc.load_like g2] at hl
  exact hl

theorem rebuild_trace (hs : I s.list) (P : SS τ σ → Prop)
    (hP : ∀ l, L.iter l = L.iter s.list ∨ PartOf (S.toList s.set) (L.iter l) → P { s with list := l }) :
    Trace (Alike like) P (rebuild S IL) (Verif.SS.rebuild S L) s := by
  obtain ⟨l1, e, g1, g2⟩ := Verif.SS.onList_run h.list.clear hs rfl
  refine Trace.bind ((hc.clear s.list).ssList (.inl rfl) fun l hl => hP l (hl.imp id fun hl => by rw [hl]; exact .nil _)) fun b s1 e1 _ => ?_
  rw [e] at e1
  cases e1
  refine Trace.get_bind ?_
  refine ssList2 (hc.update (s := l1) g2 (S.toList s.set)) .of_prefix fun l hl => hP l (.inr ?_)
  rw [g1] at hl; exact hl

theorem intersectionUpdate_trace (hs : Verif.SS.Inv S L I s) (xss : List (List α)) :
    Trace (Alike like) (Left S L load (.intersectionUpdate xss) s (Verif.SS.intersectionUpdate S L xss s).2) (intersectionUpdate S IL xss) (Verif.SS.intersectionUpdate S L xss) s := by
  obtain ⟨s1, e, g1, g2⟩ := Verif.SS.rebuild_ok h (s := { s with set := S.intersectionUpdate xss s.set }) hs.list
  have e : (Verif.SS.intersectionUpdate S L xss s).2 = s1 := congrArg Prod.snd e
  rw [e]
  refine onSet_bind hc.refl (fun _ => ⟨.inl rfl, .inr g2.symm⟩) ?_
  refine rebuild_trace h hc (s := { s with set := S.intersectionUpdate xss s.set }) hs.list _ fun l hl => ⟨?_, .inr g2.symm⟩
  exact hl.imp id fun hl => .trans (.of_perm (by rw [← g2]; exact g1.perm)) hl

theorem symmetricDifferenceUpdate_trace (hs : Verif.SS.Inv S L I s) (xs : List α) :
    Trace (Alike like) (Left S L load (.symmetricDifferenceUpdate xs) s (Verif.SS.symmetricDifferenceUpdate S L xs s).2) (symmetricDifferenceUpdate S IL xs) (Verif.SS.symmetricDifferenceUpdate S L xs) s := by
  obtain ⟨s1, e, g1, g2⟩ := Verif.SS.rebuild_ok h (s := { s with set := S.symmetricDifferenceUpdate xs s.set }) hs.list
  have e : (Verif.SS.symmetricDifferenceUpdate S L xs s).2 = s1 := congrArg Prod.snd e
  rw [e]
  refine onSet_bind hc.refl (fun _ => ⟨.inl rfl, .inr g2.symm⟩) ?_
  refine rebuild_trace h hc (s := { s with set := S.symmetricDifferenceUpdate xs s.set }) hs.list _ fun l hl => ⟨?_, .inr g2.symm⟩
  exact hl.imp id fun hl => .trans (.of_perm (by rw [← g2]; exact g1.perm)) hl

omit hc in
theorem mem_iter (hs : Verif.SS.Inv S L I s) {v : α} (hv : v ∈ L.iter s.list) : S.mem v s.set = true := by
  rw [Verif.SS.Inv.mem h hs]; exact any_self h.equiv hv

theorem forEach_add_trace (vs : List α) : ∀ {s : SS τ σ}, Verif.SS.Inv S L I s →
    Trace (Alike like) (fun x => PartOf (iter L (Py.forEach (Verif.SS.add S L) vs s).2) (iter L x) ∧
      (∀ v, S.mem v s.set = true → S.mem v x.set = true) ∧ (∀ v, S.mem v x.set = true → S.mem v (Py.forEach (Verif.SS.add S L) vs s).2.set = true) ∧
      ∀ v ∈ iter L x, S.mem v x.set = true) (IPy.forEach (add S IL) vs) (Py.forEach (Verif.SS.add S L) vs) s := by
  induction vs with
  | nil => intro s hs; exact Trace.pure (alike_refl hc.refl) ()
  | cons v vs ih =>
    intro s hs
    obtain ⟨s1, e1, h1, h2⟩ := Verif.SS.add_ok h hs v
    obtain ⟨s2, e2, h3, h4⟩ := Verif.SS.forEach_add_ok h vs h1
    have e0 : Py.forEach (Verif.SS.add S L) (v :: vs) s = (.ok (), s2) := (Py.bind_ok e1).trans e2
    have e : (Py.forEach (Verif.SS.add S L) (v :: vs) s).2 = s2 := congrArg Prod.snd e0
    have m1 : ∀ w, S.mem w s.set = true → S.mem w s1.set = true := fun w hw => by
      have h2' : L.iter s1.list = _ := h2
      rw [Verif.SS.Inv.mem h h1, h2']
      rw [Verif.SS.Inv.mem h hs] at hw
      split
      · exact hw
      · rw [any_perm (Spec.insert_perm _ _), List.any_append]
        show ((L.iter s.list).any _ || _) = true
        rw [hw]; rfl
    have m2 : ∀ w, S.mem w s1.set = true → S.mem w s2.set = true := fun w hw => by
      have h4' : (L.iter s2.list).Perm _ := h4
      rw [Verif.SS.Inv.mem h h3, any_perm h4', any_foldl_addNew h.equiv]
      rw [Verif.SS.Inv.mem h h1] at hw
      show ((L.iter s1.list).any _ || _) = true
      rw [hw]; rfl
    have p2 : PartOf (iter L s2) (iter L s1) := .trans (.of_perm h4.symm) (.foldl_addNew eqv _ vs)
    have p1 : PartOf (iter L s1) (iter L s) := by
      rw [h2]
      split
      · exact .refl _
      · exact .trans (.of_perm (Spec.insert_perm _ _).symm) .of_prefix
    rw [e]
    refine Trace.bind ((add_trace h hc hs v).weaken ⟨.inl rfl, .inl ⟨rfl, rfl⟩⟩ fun x hx => ?_) fun _ s1' e1' _ => ?_
    · rw [e1] at hx
      obtain ⟨hx1, hx2⟩ := hx
      have q1 : PartOf (iter L s1) (iter L x) := by
        rcases hx1 with hx1 | hx1
        · rw [hx1]; exact p1
        · exact hx1.within
      refine ⟨p2.trans q1, ?_, ?_, ?_⟩
      · rcases hx2 with ⟨hx2, -⟩ | hx2
        · rw [hx2]; exact fun _ hw => hw
        · rw [hx2]; exact m1
      · rcases hx2 with ⟨hx2, -⟩ | hx2
        · rw [hx2]; exact fun w hw => m2 w (m1 w hw)
        · rw [hx2]; exact m2
      · intro w hw
        rcases hx2 with ⟨hx2, hl⟩ | hx2
        · rw [hx2]; rw [hl] at hw; exact mem_iter h hs hw
        · rw [hx2]; exact mem_iter h h1 (q1.mem hw)
    · rw [e1] at e1'
      cases e1'
      have := ih h1
      rw [e2] at this
      exact this.weaken ⟨p2, fun _ hw => hw, m2, fun w hw => mem_iter h h1 hw⟩ fun x ⟨a, b, c, d⟩ => ⟨a, fun w hw => b w (m1 w hw), c, d⟩

theorem forEach_discard_trace (vs : List α) : ∀ {s : SS τ σ}, Verif.SS.Inv S L I s →
    Trace (Alike like) (fun x => (∃ F, PartOf (iter L s) F ∧ Torn (load s.list * 2) F (iter L x)) ∧
      (∀ v, S.mem v (Py.forEach (Verif.SS.discard S L) vs s).2.set = true → S.mem v x.set = true) ∧ ∀ v, S.mem v x.set = true → S.mem v s.set = true)
      (IPy.forEach (discard S IL) vs) (Py.forEach (Verif.SS.discard S L) vs) s := by
  induction vs with
  | nil => intro s hs; exact Trace.pure (alike_refl hc.refl) ()
  | cons v vs ih =>
    intro s hs
    obtain ⟨s1, e1, h1, h2⟩ := Verif.SS.discard_ok h hs v
    obtain ⟨s2, e2, h3, h4⟩ := Verif.SS.forEach_discard_ok h vs h1
    have e0 : Py.forEach (Verif.SS.discard S L) (v :: vs) s = (.ok (), s2) := (Py.bind_ok e1).trans e2
    have e : (Py.forEach (Verif.SS.discard S L) (v :: vs) s).2 = s2 := congrArg Prod.snd e0
    have sub : ∀ {l : List α} {p : α → Bool} {w : α}, (l.filter p).any (eqv · w) = true → l.any (eqv · w) = true := fun hw => by
      obtain ⟨y, hy, hyw⟩ := List.any_eq_true.1 hw
      exact List.any_eq_true.2 ⟨y, (List.mem_filter.1 hy).1, hyw⟩
    have m1 : ∀ w, S.mem w s1.set = true → S.mem w s.set = true := fun w hw => by
      have h2' : L.iter s1.list = _ := h2
      rw [Verif.SS.Inv.mem h h1, h2'] at hw
      rw [Verif.SS.Inv.mem h hs]; exact sub hw
    have m2 : ∀ w, S.mem w s2.set = true → S.mem w s1.set = true := fun w hw => by
      have h4' : L.iter s2.list = _ := h4
      rw [Verif.SS.Inv.mem h h3, h4'] at hw
      rw [Verif.SS.Inv.mem h h1]; exact sub hw
    have p1 : PartOf (iter L s) (iter L s1) := by rw [h2]; exact .filter _ _
    have hl : load s1.list = load s.list := by
      have e1' : (Verif.SS.discard S L v s).2 = s1 := congrArg Prod.snd e1
      rw [← e1']
      unfold Verif.SS.discard
      rw [Py.get_bind]
      by_cases hv : S.mem v s.set
      · rw [if_pos hv]
        obtain ⟨t, e, -⟩ := h.set.remove v s.set (by rw [← h.set.mem]; exact hv)
        rw [Py.bind_ok (s' := { s with set := t }) (a := ()) (by unfold Verif.SS.setRemove; rw [e])]
        exact hc.load_remove _ _
      · rw [if_neg hv]; rfl
    rw [e]
    refine Trace.bind ((discard_trace h hc hs v).weaken ⟨.inl rfl, .inl ⟨rfl, rfl⟩⟩ fun x hx => ?_) fun _ s1' e1' _ => ?_
    · rw [e1] at hx
      obtain ⟨hx1, hx2⟩ := hx
      refine ⟨?_, ?_, ?_⟩
      · rcases hx1 with hx1 | hx1
        · exact ⟨_, .refl _, by rw [hx1]; exact .refl _ _⟩
        · exact ⟨_, p1, hx1⟩
      · rcases hx2 with ⟨hx2, -⟩ | hx2
        · rw [hx2]; exact fun w hw => m1 w (m2 w hw)
        · rw [hx2]; exact m2
      · rcases hx2 with ⟨hx2, -⟩ | hx2
        · rw [hx2]; exact fun _ hw => hw
        · rw [hx2]; exact m1
    · rw [e1] at e1'
      cases e1'
      have := ih h1
      rw [e2] at this
      refine this.weaken ⟨⟨_, .refl _, .refl _ _⟩, m2, fun _ hw => hw⟩ fun x ⟨⟨F, a, b⟩, c, d⟩ => ⟨⟨F, p1.trans a, by rw [← hl]; exact b⟩, c, fun w hw => m1 w (d w hw)⟩

theorem update_trace (hs : Verif.SS.Inv S L I s) (xss : List (List α)) :
    Trace (Alike like) (Left S L load (.update xss) s (Verif.SS.update S L xss s).2) (update S IL xss) (Verif.SS.update S L xss) s := by
  obtain ⟨s1, e, h1, h2⟩ := Verif.SS.update_ok h xss hs
  have p1 : PartOf (iter L s1) (iter L s) := .trans (.of_perm h2.symm) (.foldl_addNew eqv _ _)
  have m1 : ∀ w, S.mem w s.set = true → S.mem w s1.set = true := fun w hw => by
    have h2' : (L.iter s1.list).Perm _ := h2
    rw [Verif.SS.Inv.mem h h1, any_perm h2', any_foldl_addNew h.equiv]
    rw [Verif.SS.Inv.mem h hs] at hw
    show ((L.iter s.list).any _ || _) = true
    rw [hw]; rfl
  refine Trace.get_bind ?_
  by_cases hv : 4 * S.len (S.ofList xss.flatten) > S.len s.set
  · simp only [if_pos hv]
    rw [e]
    obtain ⟨s1', e', h1', h2'⟩ := Verif.SS.rebuild_ok h (s := { s with set := S.update (S.toList (S.ofList xss.flatten)) s.set }) hs.list
    have e3 : Verif.SS.update S L xss s = (.ok (), s1') := by
      unfold Verif.SS.update
      rw [Py.get_bind]
      simp only [if_pos hv]
      exact e'
    rw [e] at e3
    cases e3
    refine onSet_bind hc.refl (fun _ => ⟨p1, ?_⟩) ?_
    · show _ ∧ _ ∧ _
      rw [← h2']
      exact ⟨m1, fun _ hw => hw, fun w hw => m1 w (mem_iter h hs hw)⟩
    · refine rebuild_trace h hc (s := { s with set := S.update (S.toList (S.ofList xss.flatten)) s.set }) hs.list _ fun l hl => ?_
      have q : PartOf (iter L s1) (L.iter l) := by
        rcases hl with hl | hl
        · rw [hl]; exact p1
        · exact .trans (.of_perm (by rw [← h2']; exact h1'.perm)) hl
      refine ⟨q, ?_⟩
      show _ ∧ _ ∧ _
      rw [← h2']
      exact ⟨m1, fun _ hw => hw, fun w hw => mem_iter h h1 (q.mem hw)⟩
  · simp only [if_neg hv]
    have e3 : Verif.SS.update S L xss s = Py.forEach (Verif.SS.add S L) (S.toList (S.ofList xss.flatten)) s := by
      unfold Verif.SS.update
      rw [Py.get_bind]
      simp only [if_neg hv]
    rw [e3]
    exact forEach_add_trace h hc _ hs

theorem differenceUpdate_trace (hs : Verif.SS.Inv S L I s) (xss : List (List α)) :
    Trace (Alike like) (Left S L load (.differenceUpdate xss) s (Verif.SS.differenceUpdate S L xss s).2) (differenceUpdate S IL xss) (Verif.SS.differenceUpdate S L xss) s := by
  obtain ⟨s1, e, h1, h2⟩ := Verif.SS.differenceUpdate_ok h xss hs
  have p1 : PartOf (iter L s) (iter L s1) := .trans (.filter _ _) (.of_perm h2)
  have m1 : ∀ w, S.mem w s1.set = true → S.mem w s.set = true := fun w hw => by
    have h2' : (L.iter s1.list).Perm _ := h2
    rw [Verif.SS.Inv.mem h h1, any_perm h2'] at hw
    rw [Verif.SS.Inv.mem h hs]
    obtain ⟨y, hy, hyw⟩ := List.any_eq_true.1 hw
    exact List.any_eq_true.2 ⟨y, (List.mem_filter.1 hy).1, hyw⟩
  refine Trace.get_bind ?_
  by_cases hv : 4 * S.len (S.ofList xss.flatten) > S.len s.set
  · simp only [if_pos hv]
    rw [e]
    obtain ⟨s1', e', h1', h2'⟩ := Verif.SS.rebuild_ok h (s := { s with set := S.differenceUpdate (S.toList (S.ofList xss.flatten)) s.set }) hs.list
    have e3 : Verif.SS.differenceUpdate S L xss s = (.ok (), s1') := by
      unfold Verif.SS.differenceUpdate
      rw [Py.get_bind]
      simp only [if_pos hv]
      exact e'
    rw [e] at e3
    cases e3
    refine onSet_bind hc.refl (fun _ => ⟨⟨_, .refl _, .refl _ _⟩, ?_⟩) ?_
    · show _ ∧ _
      rw [← h2']
      exact ⟨fun _ hw => hw, m1⟩
    · refine rebuild_trace h hc (s := { s with set := S.differenceUpdate (S.toList (S.ofList xss.flatten)) s.set }) hs.list _ fun l hl => ?_
      refine ⟨?_, ?_⟩
      · rcases hl with hl | hl
        · refine ⟨_, .refl _, ?_⟩
          show Torn _ _ (L.iter l)
          rw [hl]; exact .refl _ _
        · exact ⟨L.iter l, p1.trans (.trans (.of_perm (by rw [← h2']; exact h1'.perm)) hl), .refl _ _⟩
      · show _ ∧ _
        rw [← h2']
        exact ⟨fun _ hw => hw, m1⟩
  · simp only [if_neg hv]
    have e3 : Verif.SS.differenceUpdate S L xss s = Py.forEach (Verif.SS.discard S L) (S.toList (S.ofList xss.flatten)) s := by
      unfold Verif.SS.differenceUpdate
      rw [Py.get_bind]
      simp only [if_neg hv]
    rw [e3]
    exact forEach_discard_trace h hc _ hs

include ha in
/-- Every call. -/
theorem step_trace (hs : Verif.SS.Inv S L I s) (op : SSOp α) (hv : op.Valid) :
    Trace (Alike like) (Left S L load op s (Verif.SS.step S L op s).2) (step S IL L op) (Verif.SS.step S L op) s := by
  have o : ∀ {β : Type} {mt : IPy (SS τ σ) β} {m : Py (SS τ σ) β} (f : β → Out α), Trace (Alike like) (Left S L load op s (m s).2) mt m s →
      Trace (Alike like) (Left S L load op s (Spec.out f m s).2) (Spec.out f mt) (Spec.out f m) s := fun f ht => by
    rw [Spec.out_snd]; exact ht.out (alike_refl hc.refl) f
  have q : ∀ {β : Type} {mt : IPy σ β} {m : Py σ β}, Trace like (like s.list) mt m s.list → (∀ x : SS τ σ, x.set = s.set → iter L x = iter L s → Left S L load op s (Verif.SS.onList m s).2 x) →
      Trace (Alike like) (Left S L load op s (Verif.SS.onList m s).2) (onList mt) (Verif.SS.onList m) s := fun ht hq =>
    onList_like hc.refl ht fun l hl => hq _ rfl (hc.iter hl)
  have r : ∀ {β : Type} {m : Py (SS τ σ) β}, (m s).2 = s → Trace (Alike like) (Left S L load op s (m s).2) (IPy.still m) m s := fun hm =>
    Trace.of_still (alike_refl hc.refl) hm
  have vo : ∀ f, (Verif.SS.valuesOf L f s).2 = s := fun f => by unfold Verif.SS.valuesOf; split <;> rfl
  cases op with
  | add v => exact o _ (add_trace h hc hs v)
  | discard v => exact o _ (discard_trace h hc hs v)
  | remove v => exact o _ (remove_trace h hc hs v)
  | pop i => exact o _ (pop_trace h hc hs i)
  | delInt i => exact o _ (delInt_trace h hc ha hs i)
  | delSlice sl => exact o _ (delSlice_trace h hc ha hs sl)
  | clear => exact o _ (clear_trace h hc s)
  | update xss => exact o _ (update_trace h hc hs xss)
  | differenceUpdate xss => exact o _ (differenceUpdate_trace h hc hs xss)
  | intersectionUpdate xss => exact o _ (intersectionUpdate_trace h hc hs xss)
  | symmetricDifferenceUpdate xs => exact o _ (symmetricDifferenceUpdate_trace h hc hs xs)
  | getInt i => exact o _ (q (ha.getInt _ i) fun x hx hl => ⟨hl, hx⟩)
  | getSlice sl => exact o _ (q (ha.getSlice _ sl) fun x hx hl => ⟨hl, hx⟩)
  | bisectLeft v => exact o _ (q (ha.bisectLeft _ v) fun x hx hl => ⟨hl, hx⟩)
  | bisectRight v => exact o _ (q (ha.bisectRight _ v) fun x hx hl => ⟨hl, hx⟩)
  | index v a b => exact o _ (q (ha.index _ v a b) fun x hx hl => ⟨hl, hx⟩)
  | islice a b c => exact o _ (q (ha.islice _ a b c) fun x hx hl => ⟨hl, hx⟩)
  | reset n => exact o _ ((hc.reset hs.list hv).ssList (.refl _) fun l hl => ⟨hl, rfl⟩)
  | irange lo hi a b c => exact r (by rw [Verif.SS.step, Spec.out_snd]; exact congrArg (fun l => ({ s with list := l } : SS τ σ)) (ha.irange s.list lo hi a b c))
  | copy => exact r (by rw [Verif.SS.step, Spec.out_snd, vo])
  | union xss => exact r (by rw [Verif.SS.step, Spec.out_snd, vo])
  | intersection xss => exact r (by rw [Verif.SS.step, Spec.out_snd, vo])
  | difference xss => exact r (by rw [Verif.SS.step, Spec.out_snd, vo])
  | symmetricDifference xs => exact r (by rw [Verif.SS.step, Spec.out_snd, vo])
  | _ => exact r rfl

end Interrupt.SS
end Verif
