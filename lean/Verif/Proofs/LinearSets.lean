import Verif.Proofs.Linear
import Verif.Props.InterruptSets
/-!
# Calls on sorted sets and dicts that take effect in one step
-/

namespace Verif
variable {σ τ α κ ν β γ : Type}

/-! ## Calls on the list that raise -/

/-- A call that raises leaves the list as it is, and has not written to it before. -/
def Unmoved (mt : IPy σ β) (m : Py σ β) (s : σ) : Prop := ∀ e, (m s).1 = .error e → m s = (.error e, s) ∧ mt (s, []) = (.error e, s, [])

/-- The calls of a sorted set or dict on its list that may raise. -/
structure IListAPI.Calm (IL : IListAPI σ α) (L : ListAPI σ α) (I : σ → Prop) : Prop where
  pop : ∀ {s}, I s → ∀ i, Unmoved (IL.pop i) (L.pop i) s
  getInt : ∀ {s}, I s → ∀ i, Unmoved (IL.getInt i) (L.getInt i) s
  getSlice : ∀ {s}, I s → ∀ sl, Unmoved (IL.getSlice sl) (L.getSlice sl) s

section Lists
variable {s : St α κ} {ilog2 : Nat → Nat} {i : Int}

theorem St.not_empty (h : s.len = s.lists.flatten.length) (h0 : s.len ≠ 0) : ∃ first last, getItem s.lists 0 = .ok first ∧ lastItem s.lists = .ok last ∧
    first.length ≤ s.len ∧ last.length ≤ s.len := by
  rcases List.eq_nil_or_concat s.lists with e | ⟨L, last, e⟩
  · rw [e] at h; exact absurd h h0
  · rw [List.concat_eq_append] at e
    rcases L with _ | ⟨first, L⟩
    · refine ⟨last, last, by rw [e]; rfl, by rw [e, lastItem_concat], ?_, ?_⟩ <;> (rw [h, e]; simp)
    · refine ⟨first, last, by rw [e]; rfl, by rw [e, lastItem_concat], ?_, ?_⟩
      · rw [h, e]; simp
      · rw [h, e]; simp; omega

theorem Core.pos_out (h : s.len = s.lists.flatten.length) (h0 : s.len ≠ 0) (hi : (s.len : Int) ≤ i ∨ i < -(s.len : Int)) :
    Core.pos ilog2 i s = (.error .indexError, s) := by
  obtain ⟨first, last, e1, e2, h1, h2⟩ := St.not_empty h h0
  unfold Core.pos
  simp only [Py.get_bind, e2, Py.lift_ok_bind]
  by_cases hn : i < 0
  · rw [if_pos hn, Py.lift_ok_bind, if_neg (by omega), if_pos (by omega)]; rfl
  · rw [if_neg hn, if_pos (by omega)]; rfl

theorem Interrupt.pos_out (h : s.len = s.lists.flatten.length) (h0 : s.len ≠ 0) (hi : (s.len : Int) ≤ i ∨ i < -(s.len : Int)) (hh : List (St α κ)) :
    Interrupt.pos ilog2 i (s, hh) = (.error .indexError, s, hh) := by
  obtain ⟨first, last, e1, e2, h1, h2⟩ := St.not_empty h h0
  unfold Interrupt.pos
  simp only [IPy.get_bind, e2]
  by_cases hn : i < 0
  · rw [if_pos hn, IPy.lift_ok_bind, if_neg (by omega), if_pos (by omega)]; rfl
  · rw [if_neg hn, if_pos (by omega)]; rfl

theorem Core.getInt_out (h : s.len = s.lists.flatten.length) (hi : (s.len : Int) ≤ i ∨ i < -(s.len : Int)) : Core.getInt ilog2 i s = (.error .indexError, s) := by
  unfold Core.getInt
  rw [Py.get_bind]
  by_cases h0 : s.len = 0
  · rw [if_neg (by omega)]; rfl
  · obtain ⟨first, last, e1, e2, h1, h2⟩ := St.not_empty h h0
    rw [if_pos h0, if_neg (by omega), if_neg (by omega), e1, Py.lift_ok_bind, if_neg (by omega), e2, Py.lift_ok_bind, if_neg (by omega)]
    exact Py.bind_error (Core.pos_out h h0 hi)

theorem Interrupt.getInt_out (h : s.len = s.lists.flatten.length) (hi : (s.len : Int) ≤ i ∨ i < -(s.len : Int)) (hh : List (St α κ)) :
    Interrupt.getInt ilog2 i (s, hh) = (.error .indexError, s, hh) := by
  unfold Interrupt.getInt
  rw [IPy.get_bind]
  by_cases h0 : s.len = 0
  · rw [if_neg (by omega)]; rfl
  · obtain ⟨first, last, e1, e2, h1, h2⟩ := St.not_empty h h0
    rw [if_pos h0, if_neg (by omega), if_neg (by omega), e1, IPy.lift_ok_bind, if_neg (by omega), e2, IPy.lift_ok_bind, if_neg (by omega)]
    exact Py.bind_error (Interrupt.pos_out h h0 hi hh)

theorem Core.pop_out {M : Methods α κ} (h : s.len = s.lists.flatten.length) (hi : (s.len : Int) ≤ i ∨ i < -(s.len : Int)) : Core.pop M i s = (.error .indexError, s) := by
  unfold Core.pop
  rw [Py.get_bind]
  by_cases h0 : s.len = 0
  · rw [if_pos h0]; rfl
  · obtain ⟨first, last, e1, e2, h1, h2⟩ := St.not_empty h h0
    rw [if_neg h0, if_neg (by omega), if_neg (by omega), e1, Py.lift_ok_bind, if_neg (by omega), e2, Py.lift_ok_bind, if_neg (by omega)]
    exact Py.bind_error (Core.pos_out h h0 hi)

theorem Interrupt.pop_out {M : IMethods α κ} (h : s.len = s.lists.flatten.length) (hi : (s.len : Int) ≤ i ∨ i < -(s.len : Int)) (hh : List (St α κ)) :
    Interrupt.pop M i (s, hh) = (.error .indexError, s, hh) := by
  unfold Interrupt.pop
  rw [IPy.get_bind]
  by_cases h0 : s.len = 0
  · rw [if_pos h0]; rfl
  · obtain ⟨first, last, e1, e2, h1, h2⟩ := St.not_empty h h0
    rw [if_neg h0, if_neg (by omega), if_neg (by omega), e1, IPy.lift_ok_bind, if_neg (by omega), e2, IPy.lift_ok_bind, if_neg (by omega)]
    exact Py.bind_error (Interrupt.pos_out h h0 hi hh)

theorem Spec.position_error {l : List α} (h : ∀ p v, Spec.position l.length i = some p → l[p]? = some v → False) : (l.length : Int) ≤ i ∨ i < -(l.length : Int) := by
  rcases position_cases l.length i with ⟨n, hn, rfl, hp⟩ | ⟨n, hn, rfl, hp⟩ | ⟨hi, hp⟩
  · exact (h _ _ hp (List.getElem?_eq_getElem hn)).elim
  · have hn' : l.length - 1 - n < l.length := by omega
    exact (h _ _ hp (List.getElem?_eq_getElem hn')).elim
  · exact hi

theorem Spec.pop_out {l : List α} {e : PyErr} (h : (Spec.pop i l).1 = .error e) : (l.length : Int) ≤ i ∨ i < -(l.length : Int) :=
  Spec.position_error fun p v hp hv => by rw [SD.spec_pop_ok hp hv] at h; cases h

theorem Spec.getInt_out {l : List α} {e : PyErr} (h : (Spec.getInt i l).1 = .error e) : (l.length : Int) ≤ i ∨ i < -(l.length : Int) :=
  Spec.position_error fun p v hp hv => by simp only [Spec.getInt, hp, Option.bind_some, hv] at h; cases h

theorem Spec.getSlice_out {l : List α} {sl : PySlice} {e : PyErr} (h : (Spec.getSlice sl l).1 = .error e) : sl.indices l.length = .error e := by
  unfold Spec.getSlice at h
  split at h
  · rename_i e' he
    cases h
    unfold Spec.slicePositions at he
    split at he
    · rename_i e'' he'; cases he; exact he'
    · cases he
  · cases h

end Lists

theorem Interrupt.SL.calm {E : Env α} {lt : α → α → Bool} (hE : E.Lawful lt) : (Interrupt.SL.api E).Calm (Verif.SL.api E) (Inv id lt false) where
  pop := fun {s} hs i e h => by
    rw [((Verif.SL.api_lawful hE).pop i s hs).1] at h
    have hi := Spec.pop_out h
    rw [show ((Verif.SL.api E).iter s).length = s.len from hs.len_eq.symm] at hi
    have e1 := Core.pop_out (M := Verif.SL.methods E) hs.len_eq hi
    have e2 : e = .indexError := by
      rw [← ((Verif.SL.api_lawful hE).pop i s hs).1, show (Verif.SL.api E).pop i s = _ from e1] at h
      exact (Except.error.inj h).symm
    subst e2
    exact ⟨e1, Interrupt.pop_out hs.len_eq hi []⟩
  getInt := fun {s} hs i e h => by
    rw [((Verif.SL.api_lawful hE).getInt i s hs).1] at h
    have hi := Spec.getInt_out h
    rw [show ((Verif.SL.api E).iter s).length = s.len from hs.len_eq.symm] at hi
    have e1 := Core.getInt_out (ilog2 := E.ilog2) hs.len_eq hi
    have e2 : e = .indexError := by
      rw [← ((Verif.SL.api_lawful hE).getInt i s hs).1, show (Verif.SL.api E).getInt i s = _ from e1] at h
      exact (Except.error.inj h).symm
    subst e2
    exact ⟨e1, Interrupt.getInt_out hs.len_eq hi []⟩
  getSlice := fun {s} hs sl e h => by
    rw [((Verif.SL.api_lawful hE).getSlice sl s hs).1] at h
    have hi := Spec.getSlice_out h
    rw [show ((Verif.SL.api E).iter s).length = s.len from hs.len_eq.symm] at hi
    refine ⟨?_, ?_⟩
    · show Core.getSlice E.ilog2 sl s = _
      unfold Core.getSlice
      rw [Py.get_bind, hi]; rfl
    · show Interrupt.getSlice E.ilog2 sl (s, []) = _
      unfold Interrupt.getSlice
      rw [IPy.get_bind, hi]; rfl

theorem Interrupt.SKL.calm {K : KEnv α κ} {key : α → κ} {klt : κ → κ → Bool} {veq : α → α → Bool} (hK : K.Lawful key klt veq) :
    (Interrupt.SKL.api K).Calm (Verif.SKL.api K) (Inv key klt true) where
  pop := fun {s} hs i e h => by
    rw [((Verif.SKL.api_lawful hK).pop i s hs).1] at h
    have hi := Spec.pop_out h
    rw [show ((Verif.SKL.api K).iter s).length = s.len from hs.len_eq.symm] at hi
    have e1 := Core.pop_out (M := Verif.SKL.methods K) hs.len_eq hi
    have e2 : e = .indexError := by
      rw [← ((Verif.SKL.api_lawful hK).pop i s hs).1, show (Verif.SKL.api K).pop i s = _ from e1] at h
      exact (Except.error.inj h).symm
    subst e2
    exact ⟨e1, Interrupt.pop_out hs.len_eq hi []⟩
  getInt := fun {s} hs i e h => by
    rw [((Verif.SKL.api_lawful hK).getInt i s hs).1] at h
    have hi := Spec.getInt_out h
    rw [show ((Verif.SKL.api K).iter s).length = s.len from hs.len_eq.symm] at hi
    have e1 := Core.getInt_out (ilog2 := K.ilog2) hs.len_eq hi
    have e2 : e = .indexError := by
      rw [← ((Verif.SKL.api_lawful hK).getInt i s hs).1, show (Verif.SKL.api K).getInt i s = _ from e1] at h
      exact (Except.error.inj h).symm
    subst e2
    exact ⟨e1, Interrupt.getInt_out hs.len_eq hi []⟩
  getSlice := fun {s} hs sl e h => by
    rw [((Verif.SKL.api_lawful hK).getSlice sl s hs).1] at h
    have hi := Spec.getSlice_out h
    rw [show ((Verif.SKL.api K).iter s).length = s.len from hs.len_eq.symm] at hi
    refine ⟨?_, ?_⟩
    · show Core.getSlice K.ilog2 sl s = _
      unfold Core.getSlice
      rw [Py.get_bind, hi]; rfl
    · show Interrupt.getSlice K.ilog2 sl (s, []) = _
      unfold Interrupt.getSlice
      rw [IPy.get_bind, hi]; rfl

theorem ListClass.Orders.calm {c : ListClass α} {lt eqv : α → α → Bool} (hc : c.Orders lt eqv) :
    ∃ (O : Spec.Order α) (I : c.State → Prop), c.api.Lawful O I ∧ O.lt = lt ∧ (∀ a b, O.same a b = eqv a b) ∧ c.interrupted.Calm c.api I := by
  cases hc with
  | plain hE he => exact ⟨_, _, SL.api_lawful hE, rfl, fun a b => (he a b).symm, Interrupt.SL.calm hE⟩
  | keyed hK heq =>
    refine ⟨_, _, SKL.api_lawful hK, rfl, fun a b => ?_, Interrupt.SKL.calm hK⟩
    show (equiv _ _ _ && _) = _
    rcases Bool.eq_false_or_eq_true (eqv a b) with h | h
    · rw [h, heq a b h]; rfl
    · rw [h]; simp

theorem Spec.out_of_error {f : β → Out α} {m : Py σ β} {s s' : σ} {e : PyErr} (h : m s = (.error e, s')) : Spec.out f m s = (.error e, s') := by
  unfold Spec.out; rw [h]

theorem Unmoved.out {m : Py σ β} {mt : IPy σ β} {s : σ} (h : Unmoved mt m s) (f : β → Out α) :
    Unmoved (Spec.out (σ := σ × List σ) f mt : IPy σ (Out α)) (Spec.out f m) s := fun e he => by
  obtain ⟨h1, h2⟩ := h e (Spec.out_error he)
  exact ⟨Spec.out_of_error h1, Spec.out_of_error h2⟩

theorem Unmoved.still {m : Py σ β} {s : σ} (h : (m s).2 = s) : Unmoved (IPy.still m) m s := fun e he => by
  have : m s = (.error e, s) := Prod.ext he h
  exact ⟨this, by unfold IPy.still; rw [this]⟩

theorem Unmoved.of_ok {m : Py σ β} {mt : IPy σ β} {s : σ} (h : ∀ e, (m s).1 ≠ .error e) : Unmoved mt m s := fun e he => absurd he (h e)

theorem Unmoved.run {m : Py σ β} {mt : IPy σ β} {s : σ} (h : Unmoved mt m s) (hok : ∀ a, (m s).1 = .ok a → (mt.run s).2 = (m s).2) (he : (mt.run s).1 = (m s).1) : mt.run s = m s := by
  rcases e : (m s).1 with er | a
  · obtain ⟨h1, h2⟩ := h er e
    rw [h1]; unfold IPy.run; rw [h2]
  · exact Prod.ext he (hok a e)

/-! ## Sorted sets -/

namespace Interrupt.SS
variable {S : SetOps τ α} {s : SS τ σ} {IL : IListAPI σ α} {L : ListAPI σ α}

theorem onList_keeps (m : IPy σ β) (s : SS τ σ) : (onList m : IPy (SS τ σ) β).Keeps (·.set) s := fun hh =>
  ⟨_, rfl, fun y hy => by obtain ⟨l, -, rfl⟩ := List.mem_map.1 hy; rfl, rfl⟩

theorem get_keeps (s : SS τ σ) : (IPy.get : IPy (SS τ σ) _).Keeps (·.set) s := .still rfl

theorem lift_keeps (x : Except PyErr β) (s : SS τ σ) : (IPy.lift x : IPy (SS τ σ) β).Keeps (·.set) s := .still (by cases x <;> rfl)

theorem pure_keeps (b : β) (s : SS τ σ) : (pure b : IPy (SS τ σ) β).Keeps (·.set) s := fun hh => ⟨[], (List.append_nil hh).symm, (fun _ h => nomatch h), rfl⟩

theorem setRemove_one (v : α) (s : SS τ σ) : (setRemove S v : IPy (SS τ σ) Unit).OneStep (·.set) s :=
  (get_keeps s).bind_one fun _ s' _ => (lift_keeps _ s').bind_one fun _ s'' _ => .write _

theorem rebuild_keeps (s : SS τ σ) : (rebuild S IL).Keeps (·.set) s :=
  (onList_keeps _ s).bind fun _ s' _ => (get_keeps s').bind fun _ s'' _ => onList_keeps _ s''

theorem step_one {op : SSOp α} (h1 : op.oneStep = true) (s : SS τ σ) (hq : op.asksStore = true → (Verif.SS.step S L op s).2 = s) :
    (step S IL L op).OneStep (·.set) s := by
  have look : op.asksStore = true → step S IL L op = IPy.still (Verif.SS.step S L op) → (step S IL L op).OneStep (·.set) s :=
    fun h e => by rw [e]; exact (IPy.Keeps.still (by rw [hq h])).one
  cases op with
  | add v =>
    refine IPy.OneStep.out ((get_keeps s).bind_one fun t s' _ => ?_) _
    exact .ite (pure_keeps _ s').one (.bind (.write _) fun _ s'' => onList_keeps _ s'')
  | discard v =>
    refine IPy.OneStep.out ((get_keeps s).bind_one fun t s' _ => ?_) _
    exact .ite (.bind (setRemove_one v s') fun _ s'' => onList_keeps _ s'') (pure_keeps _ s').one
  | remove v => exact .out (.bind (setRemove_one v s) fun _ s' => onList_keeps _ s') _
  | pop i => exact .out ((onList_keeps _ s).bind_one fun v s' _ => .bind (setRemove_one v s') fun _ s'' => pure_keeps _ s'') _
  | delInt i => exact .out ((onList_keeps _ s).bind_one fun v s' _ => .bind (setRemove_one v s') fun _ s'' => onList_keeps _ s'') _
  | delSlice sl => exact .out ((onList_keeps _ s).bind_one fun v s' _ => .bind (.write _) fun _ s'' => onList_keeps _ s'') _
  | clear => exact .out (.bind (.write _) fun _ s' => onList_keeps _ s') _
  | intersectionUpdate xss => exact .out (.bind (.write _) fun _ s' => rebuild_keeps s') _
  | symmetricDifferenceUpdate xs => exact .out (.bind (.write _) fun _ s' => rebuild_keeps s') _
  | _ => first | exact look rfl rfl | cases h1

end Interrupt.SS

/-- A lookup asks the built-in set only. -/
theorem SS.lookup_set (S : SetOps τ α) (L : ListAPI σ α) {op : SSOp α} (h : op.asksStore = true) {x t : SS τ σ} (e : x.set = t.set) :
    SS.step S L op t = ((SS.step S L op x).1, t) := by
  have key : ∀ f : SS τ σ → Except PyErr (SS τ σ), f x = f t → Spec.out .vals (SS.valuesOf L f) t = ((Spec.out .vals (SS.valuesOf L f) x).1, t) := by
    intro f e
    unfold Spec.out SS.valuesOf
    rw [e]
    rcases f t with er | a <;> rfl
  rcases x with ⟨set, l⟩
  rcases t with ⟨set', l'⟩
  cases e
  cases op with
  | copy => exact key _ rfl
  | intersection xss => exact key _ rfl
  | difference xss => exact key _ rfl
  | symmetricDifference xs => exact key _ rfl
  | _ => first | rfl | cases h

theorem SS.lookup_stays (S : SetOps τ α) (L : ListAPI σ α) {op : SSOp α} (h : op.asksStore = true) (s : SS τ σ) : (SS.step S L op s).2 = s :=
  congrArg Prod.snd (SS.lookup_set S L h (rfl : s.set = s.set))

/-- A call that raises has changed nothing. -/
theorem SS.step_unmoved [DecidableEq α] {S : SetOps τ α} {L : ListAPI σ α} {IL : IListAPI σ α} {O : Spec.Order α} {eqv : α → α → Bool} {I : σ → Prop} {s : SS τ σ}
    (h : SS.Good S L O eqv I) (ht : SS.Total O eqv) (hI : IL.Calm L I) (hs : SS.Inv S L I s) {op : SSOp α} (hv : op.Valid) (h1 : op.oneStep = true) :
    Unmoved (Interrupt.SS.step S IL L op) (SS.step S L op) s := by
  have spec : ∀ e, (SS.step S L op s).1 = .error e → (SetSpec.step O op (SS.iter L s)).1 = .error e :=
    fun e he => by rw [← (SS.step_refines h ht op hv s hs).1]; exact he
  have look : op.asksStore = true → Interrupt.SS.step S IL L op = IPy.still (SS.step S L op) → Unmoved (Interrupt.SS.step S IL L op) (SS.step S L op) s :=
    fun h e => by rw [e]; exact .still (SS.lookup_stays S L h s)
  cases op with
  | add v => exact .of_ok fun e he => nomatch spec e he
  | discard v => exact .of_ok fun e he => nomatch spec e he
  | clear => exact .of_ok fun e he => nomatch spec e he
  | intersectionUpdate xss => exact .of_ok fun e he => nomatch spec e he
  | symmetricDifferenceUpdate xs => exact .of_ok fun e he => nomatch spec e he
  | remove v =>
    intro e he
    have h2 := Spec.out_error (spec e he)
    rcases er : S.remove v s.set with e' | t
    · have e1 : SS.setRemove S v s = (.error e', s) := by unfold SS.setRemove; rw [er]
      have e2 : (Interrupt.SS.setRemove S v : IPy (SS τ σ) Unit) (s, []) = (.error e', s, []) := by
        unfold Interrupt.SS.setRemove
        rw [IPy.get_bind, er]; rfl
      have e3 : SS.step S L (.remove v) s = (.error e', s) := Spec.out_of_error (Py.bind_error e1)
      have : e = e' := by rw [e3] at he; exact (Except.error.inj he).symm
      subst this
      exact ⟨e3, Spec.out_of_error (Py.bind_error e2)⟩
    · exfalso
      unfold SetSpec.remove at h2
      split at h2
      · cases h2
      · rename_i hm
        have : (S.toList s.set).any (eqv · v) = false := by
          rw [any_perm hs.perm, ht.any]; exact decide_eq_false hm
        rw [h.set.remove_absent v s.set this] at er
        cases er
  | pop i =>
    intro e he
    have h2 := Spec.out_error (spec e he)
    obtain ⟨e1, e2⟩ := hI.pop hs.list i e (by rw [(h.list.pop i _ hs.list).1]; exact h2)
    have e3 : SS.onList (L.pop i) s = (.error e, s) := by unfold SS.onList; rw [e1]
    have e4 : Interrupt.SS.onList (IL.pop i) (s, []) = (.error e, s, []) := by unfold Interrupt.SS.onList; rw [e2]; rfl
    exact ⟨Spec.out_of_error (Py.bind_error e3), Spec.out_of_error (Py.bind_error e4)⟩
  | delInt i =>
    intro e he
    have h2 := Spec.out_error (spec e he)
    obtain ⟨e1, e2⟩ := hI.getInt hs.list i e (by
      rw [(h.list.getInt i _ hs.list).1]
      rcases position_cases (SS.iter L s).length i with ⟨n, hn, rfl, hp⟩ | ⟨n, hn, rfl, hp⟩ | ⟨hi, hp⟩
      · unfold Spec.delInt at h2; rw [hp] at h2; cases h2
      · unfold Spec.delInt at h2; rw [hp] at h2; cases h2
      · unfold Spec.delInt at h2; rw [hp] at h2; cases h2
        unfold Spec.getInt
        rw [show (L.iter s.list).length = (SS.iter L s).length from rfl, hp]; rfl)
    have e3 : SS.onList (L.getInt i) s = (.error e, s) := by unfold SS.onList; rw [e1]
    have e4 : Interrupt.SS.onList (IL.getInt i) (s, []) = (.error e, s, []) := by unfold Interrupt.SS.onList; rw [e2]; rfl
    exact ⟨Spec.out_of_error (Py.bind_error e3), Spec.out_of_error (Py.bind_error e4)⟩
  | delSlice sl =>
    intro e he
    have h2 := Spec.out_error (spec e he)
    obtain ⟨e1, e2⟩ := hI.getSlice hs.list sl e (by
      rw [(h.list.getSlice sl _ hs.list).1]
      unfold Spec.delSlice at h2
      unfold Spec.getSlice
      rcases e : Spec.slicePositions sl (L.iter s.list).length with er | ps
      · rw [show (SS.iter L s).length = (L.iter s.list).length from rfl, e] at h2; cases h2; rfl
      · rw [show (SS.iter L s).length = (L.iter s.list).length from rfl, e] at h2; cases h2)
    have e3 : SS.onList (L.getSlice sl) s = (.error e, s) := by unfold SS.onList; rw [e1]
    have e4 : Interrupt.SS.onList (IL.getSlice sl) (s, []) = (.error e, s, []) := by unfold Interrupt.SS.onList; rw [e2]; rfl
    exact ⟨Spec.out_of_error (Py.bind_error e3), Spec.out_of_error (Py.bind_error e4)⟩
  | _ => first | exact look rfl rfl | cases h1

/-! ## Sorted dicts -/

theorem SD.error_of_out {f : β → DOut κ ν} {m : Py σ β} {s : σ} {e : PyErr} (h : (SD.out f m s).1 = .error e) : (m s).1 = .error e := by
  rcases em : m s with ⟨x | x, s'⟩
  · rw [show SD.out f m s = (.error x, s') from Py.bind_error em] at h
    cases h; rfl
  · rw [show SD.out f m s = (.ok (f x), s') from Py.bind_ok em] at h
    cases h

namespace Interrupt.SD
variable {eqv : κ → κ → Bool} {s : SD κ ν σ} {IL : IListAPI σ κ} {L : ListAPI σ κ}

theorem onList_keeps (m : IPy σ β) (s : SD κ ν σ) : (onList m : IPy (SD κ ν σ) β).Keeps (·.dict) s := fun hh =>
  ⟨_, rfl, fun y hy => by obtain ⟨l, -, rfl⟩ := List.mem_map.1 hy; rfl, rfl⟩

theorem get_keeps (s : SD κ ν σ) : (IPy.get : IPy (SD κ ν σ) _).Keeps (·.dict) s := .still rfl

theorem lift_keeps (x : Except PyErr β) (s : SD κ ν σ) : (IPy.lift x : IPy (SD κ ν σ) β).Keeps (·.dict) s := .still (by cases x <;> rfl)

theorem raise_keeps (e : PyErr) (s : SD κ ν σ) : (IPy.raise e : IPy (SD κ ν σ) β).Keeps (·.dict) s := .still rfl

theorem pure_keeps (b : β) (s : SD κ ν σ) : (pure b : IPy (SD κ ν σ) β).Keeps (·.dict) s := fun hh => ⟨[], (List.append_nil hh).symm, (fun _ h => nomatch h), rfl⟩

theorem getitem_keeps (k : κ) (s : SD κ ν σ) : (getitem eqv k : IPy (SD κ ν σ) ν).Keeps (·.dict) s := .still (by
  show (Py.lift (PyDict.getitem eqv s.dict k) s).2.dict = s.dict
  cases PyDict.getitem eqv s.dict k <;> rfl)

theorem dictDelitem_one (k : κ) (s : SD κ ν σ) : (dictDelitem eqv k : IPy (SD κ ν σ) Unit).OneStep (·.dict) s :=
  (get_keeps s).bind_one fun _ s' _ => .ite (.write _) (raise_keeps _ s').one

theorem dictPop_one (k : κ) (s : SD κ ν σ) : (dictPop eqv k : IPy (SD κ ν σ) ν).OneStep (·.dict) s :=
  (get_keeps s).bind_one fun _ s' _ => (lift_keeps _ s').bind_one fun _ s'' _ => .bind (.write _) fun _ s3 => pure_keeps _ s3

theorem one_out {m : IPy (SD κ ν σ) β} (h : m.OneStep (·.dict) s) (f : β → DOut κ ν) : (out f m).OneStep (·.dict) s :=
  .bind h fun _ s' => pure_keeps _ s'

theorem step_one {op : SDOp κ ν} (h1 : op.oneStep = true) (s : SD κ ν σ) (hq : op.asksStore = true → (Verif.SD.step eqv L op s).2 = s) :
    (step eqv IL L op).OneStep (·.dict) s := by
  have look : op.asksStore = true → step eqv IL L op = IPy.still (Verif.SD.step eqv L op) → (step eqv IL L op).OneStep (·.dict) s :=
    fun h e => by rw [e]; exact (IPy.Keeps.still (by rw [hq h])).one
  cases op with
  | setitem k v =>
    refine one_out ((get_keeps s).bind_one fun t s' _ => ?_) _
    exact .ite (.write _) ((onList_keeps _ s').bind_one fun _ s'' _ => .write _)
  | delitem k => exact one_out (.bind (dictDelitem_one k s) fun _ s' => onList_keeps _ s') _
  | clear => exact one_out (.bind (.write _) fun _ s' => onList_keeps _ s') _
  | pop k default =>
    refine one_out ((get_keeps s).bind_one fun t s' _ => .ite ((onList_keeps _ s').bind_one fun _ s'' _ => dictPop_one k s'') ?_) _
    cases default with
    | none => exact (raise_keeps _ s').one
    | some v => exact (pure_keeps _ s').one
  | popitem i =>
    exact one_out ((get_keeps s).bind_one fun t s' _ => .ite (raise_keeps _ s').one
      ((onList_keeps _ s').bind_one fun k s'' _ => .bind (dictPop_one k s'') fun _ s3 => pure_keeps _ s3)) _
  | setdefault k v =>
    exact one_out ((get_keeps s).bind_one fun t s' _ => .ite (getitem_keeps k s').one
      (.bind (.write _) fun _ s'' => (onList_keeps _ s'').bind fun _ s3 _ => pure_keeps _ s3)) _
  | viewDelInt i => exact one_out ((onList_keeps _ s).bind_one fun k s' _ => dictDelitem_one k s') _
  | _ => first | exact look rfl rfl | cases h1

end Interrupt.SD

/-- A lookup asks the built-in dict only. -/
theorem SD.lookup_dict (eqv : κ → κ → Bool) (L : ListAPI σ κ) {op : SDOp κ ν} (h : op.asksStore = true) {x t : SD κ ν σ} (e : x.dict = t.dict) :
    SD.step eqv L op t = ((SD.step eqv L op x).1, t) := by
  rcases x with ⟨d, l⟩
  rcases t with ⟨d', l'⟩
  cases e
  cases op with
  | getitem k =>
    have : ∀ l : σ, SD.step eqv L (.getitem k) (⟨d, l⟩ : SD κ ν σ) = ((PyDict.getitem eqv d k).map .val, ⟨d, l⟩) := fun l => by
      rcases e : PyDict.getitem eqv d k with er | v
      · exact Py.bind_error (show SD.getitem eqv k (⟨d, l⟩ : SD κ ν σ) = (.error er, ⟨d, l⟩) by unfold SD.getitem; rw [Py.get_bind, e]; rfl)
      · exact Py.bind_ok (show SD.getitem eqv k (⟨d, l⟩ : SD κ ν σ) = (.ok v, ⟨d, l⟩) by unfold SD.getitem; rw [Py.get_bind, e]; rfl)
    rw [this, this]
  | _ => first | rfl | cases h

theorem SD.lookup_stays (eqv : κ → κ → Bool) (L : ListAPI σ κ) {op : SDOp κ ν} (h : op.asksStore = true) (s : SD κ ν σ) : (SD.step eqv L op s).2 = s :=
  congrArg Prod.snd (SD.lookup_dict eqv L h (rfl : s.dict = s.dict))

/-- A call that raises has changed nothing. -/
theorem SD.step_unmoved {eqv : κ → κ → Bool} {L : ListAPI σ κ} {IL : IListAPI σ κ} {O : Spec.Order κ} {I : σ → Prop} {s : SD κ ν σ}
    (h : SD.Good L O eqv I) (hI : IL.Calm L I) (hs : SD.Inv L O eqv I s) {op : SDOp κ ν} (hv : op.Valid) (h1 : op.oneStep = true) :
    Unmoved (Interrupt.SD.step eqv IL L op) (SD.step eqv L op) s := by
  have spec : ∀ e, (SD.step eqv L op s).1 = .error e → (DictSpec.step eqv O op s.dict).1 = .error e :=
    fun e he => by rw [← (SD.step_refines h op hv s hs).1]; exact he
  have look : op.asksStore = true → Interrupt.SD.step eqv IL L op = IPy.still (SD.step eqv L op) → Unmoved (Interrupt.SD.step eqv IL L op) (SD.step eqv L op) s :=
    fun h e => by rw [e]; exact .still (SD.lookup_stays eqv L h s)
  have pop : ∀ i, (∃ v, (SD.onList (L.pop i) s).1 = .ok v) ∨
      ∃ e, SD.onList (L.pop i) s = (.error e, s) ∧ Interrupt.SD.onList (IL.pop i) (s, []) = (.error e, s, []) := by
    intro i
    rcases e : (L.pop i s.list).1 with er | v
    · obtain ⟨e1, e2⟩ := hI.pop hs.list i er e
      exact .inr ⟨er, by unfold SD.onList; rw [e1], by unfold Interrupt.SD.onList; rw [e2]; rfl⟩
    · exact .inl ⟨v, e⟩
  cases op with
  | setitem k v => exact .of_ok fun e he => nomatch spec e he
  | clear => exact .of_ok fun e he => nomatch spec e he
  | setdefault k v =>
    refine .of_ok fun e he => ?_
    have h2 : (DictSpec.setdefault eqv k v s.dict).1 = .error e := SD.error_of_out (σ := List (κ × ν)) (spec e he)
    unfold DictSpec.setdefault at h2
    split at h2 <;> cases h2
  | delitem k =>
    intro e he
    have h2 : (DictSpec.delitem eqv k s.dict).1 = .error e := SD.error_of_out (σ := List (κ × ν)) (spec e he)
    unfold DictSpec.delitem at h2
    split at h2
    · cases h2
    · rename_i hk
      cases h2
      have e1 : SD.dictDelitem eqv k s = (.error .keyError, s) := by
        unfold SD.dictDelitem; rw [Py.get_bind, if_neg hk]; rfl
      have e2 : (Interrupt.SD.dictDelitem eqv k : IPy (SD κ ν σ) Unit) (s, []) = (.error .keyError, s, []) := by
        unfold Interrupt.SD.dictDelitem; rw [IPy.get_bind, if_neg hk]; rfl
      exact ⟨Py.bind_error (Py.bind_error e1), Py.bind_error (Py.bind_error e2)⟩
  | pop k default =>
    intro e he
    have h2 : (DictSpec.pop eqv k default s.dict).1 = .error e := SD.error_of_out (σ := List (κ × ν)) (spec e he)
    unfold DictSpec.pop at h2
    split at h2
    · cases h2
    · cases h2
    · rename_i hk
      cases h2
      have hk : ¬ SD.contains eqv k s = true := by
        unfold SD.contains; rw [PyDict.has_eq_lookup, hk]; simp
      have e1 : SD.pop eqv L k none s = (.error .keyError, s) := by
        unfold SD.pop; rw [Py.get_bind, if_neg hk]; rfl
      have e2 : (Interrupt.SD.pop eqv IL k none : IPy (SD κ ν σ) ν) (s, []) = (.error .keyError, s, []) := by
        unfold Interrupt.SD.pop; rw [IPy.get_bind, if_neg hk]; rfl
      exact ⟨Py.bind_error e1, Py.bind_error e2⟩
  | popitem i =>
    intro e he
    by_cases h0 : s.dict.length = 0
    · have e1 : SD.popitem eqv L i s = (.error .keyError, s) := by unfold SD.popitem; rw [Py.get_bind, if_pos h0]; rfl
      have e2 : (Interrupt.SD.popitem eqv IL i : IPy (SD κ ν σ) (κ × ν)) (s, []) = (.error .keyError, s, []) := by
        unfold Interrupt.SD.popitem; rw [IPy.get_bind, if_pos h0]; rfl
      have e3 : SD.step eqv L (.popitem i) s = (.error .keyError, s) := Py.bind_error e1
      have : e = .keyError := by rw [e3] at he; exact (Except.error.inj he).symm
      subst this
      exact ⟨e3, Py.bind_error e2⟩
    · rcases pop i with ⟨v, hv⟩ | ⟨er, e1, e2⟩
      · exfalso
        have h2 : (DictSpec.popitem eqv O i s.dict).1 = .error e := SD.error_of_out (σ := List (κ × ν)) (spec e he)
        unfold DictSpec.popitem at h2
        rw [if_neg h0] at h2
        rcases SD.list_pop h hs i with ⟨k, w, l', -, -, h3, -⟩ | ⟨l', -, -, h3, -⟩
        · rw [h3] at h2; cases h2
        · rw [h3] at hv; cases hv
      · have e3 : SD.popitem eqv L i s = (.error er, s) := by unfold SD.popitem; rw [Py.get_bind, if_neg h0]; exact Py.bind_error e1
        have e4 : (Interrupt.SD.popitem eqv IL i : IPy (SD κ ν σ) (κ × ν)) (s, []) = (.error er, s, []) := by
          unfold Interrupt.SD.popitem; rw [IPy.get_bind, if_neg h0]; exact Py.bind_error e2
        have e5 : SD.step eqv L (.popitem i) s = (.error er, s) := Py.bind_error e3
        have : e = er := by rw [e5] at he; exact (Except.error.inj he).symm
        subst this
        exact ⟨e5, Py.bind_error e4⟩
  | viewDelInt i =>
    intro e he
    rcases pop i with ⟨v, hv⟩ | ⟨er, e1, e2⟩
    · exfalso
      have h2 : (DictSpec.viewDelInt eqv O i s.dict).1 = .error e := SD.error_of_out (σ := List (κ × ν)) (spec e he)
      unfold DictSpec.viewDelInt at h2
      rcases SD.list_pop h hs i with ⟨k, w, l', h3, -⟩ | ⟨l', -, -, h3, -⟩
      · rw [h3] at h2; cases h2
      · rw [h3] at hv; cases hv
    · have e5 : SD.step eqv L (.viewDelInt i) s = (.error er, s) := Py.bind_error (Py.bind_error e1)
      have : e = er := by rw [e5] at he; exact (Except.error.inj he).symm
      subst this
      exact ⟨e5, Py.bind_error (Py.bind_error e2)⟩
  | _ => first | exact look rfl rfl | cases h1

end Verif

/-! ## Pools with one thread that changes the object -/

namespace Verif
variable {σ τ ω β δ : Type}

theorem Prog.bind_ret (m : Prog σ β) : (m.bind fun b => .ret (.ok b)) = m := by
  induction m with
  | ret x => cases x <;> rfl
  | read k ih => exact congrArg Prog.read (funext ih)
  | write f k ih => exact congrArg (Prog.write f) ih

theorem Pool.result_some {p : Pool σ β} {i : Nat} {x : Except PyErr β} (h : p.result i = some x) : p.threads[i]? = some (.ret x) := by
  unfold Pool.result at h
  split at h
  · rename_i y e; cases h; exact e
  · cases h

theorem Pool.linear {part : σ → δ} {step : ω → Py σ β} {mt : ω → IPy σ β} {Good : σ → Prop} {s : σ} (hs : Good s) (cs : List ω)
    (h : ∀ c ∈ cs, ∀ s, Good s → (mt c).run s = step c s ∧ (mt c).OneStep part s ∧ Good (step c s).2)
    (threads : List (List ω)) (hq : ∀ qs ∈ threads, ∀ q ∈ qs, ∀ x t, part x = part t → step q t = ((step q x).1, t)) (schedule : List Nat) :
    let pool := fun n => (Pool.mk s (Prog.calls (fun c => Prog.replay (mt c)) cs :: threads.map (Prog.calls fun q => Prog.look (step q)))).run (schedule.take n)
    ∃ order, Linear step s (cs :: threads) schedule (fun n => (pool n).result) order ∧
      (∀ n i qs, threads[i]? = some qs → min qs.length ((schedule.take n).count (i + 1)) ≤ (callsOf (i + 1) (order n)).length) ∧
      ∀ n, part (pool n).shared = part (runHist step ((order n).map (·.2)) s).2 ∧
        ∀ x, (pool n).result 0 = some x → (pool n).shared = (runHist step ((order n).map (·.2)) s).2 := by
  intro pool
  let rem : Nat → List ω := fun i => (cs :: threads)[i]?.getD []
  have hd : (Pool.mk s (Prog.calls (fun c => Prog.replay (mt c)) cs :: threads.map (Prog.calls fun q => Prog.look (step q)))).Due
      (fun x t => part x = part t) Eq step (fun q s => (step q s).1) s rem fun _ => [] := by
    refine ⟨rfl, fun w ew => ?_, fun i m em => ?_⟩
    · cases ew
      have := Prog.Lin.calls (part := part) cs h s [] hs
      rw [show (Prog.bind (Prog.calls (fun c => Prog.replay (mt c)) cs) fun xs => .ret (.ok ([] ++ xs))) = _ from Prog.bind_ret _] at this
      exact this
    · rw [List.getElem?_cons_succ, List.getElem?_map] at em
      rcases e : threads[i]? with _ | qs
      · rw [e] at em; cases em
      · rw [e] at em
        cases em
        have er : rem (i + 1) = qs := by show (threads[i]?).getD [] = qs; rw [e]; rfl
        rw [er]
        have := Prog.Serves.calls step qs []
        rw [show (Prog.bind (Prog.calls (fun q => Prog.look (step q)) qs) fun xs => .ret (.ok ([] ++ xs))) = _ from Prog.bind_ret _] at this
        exact ⟨this, hq qs (List.mem_of_getElem? e)⟩
  obtain ⟨order, -, k1, k2, k3, k4, k5, k6, k7⟩ := hd.linear schedule
  have er : ∀ i qs, (cs :: threads)[i]? = some qs → rem i = qs := fun i qs e => by show ((cs :: threads)[i]?).getD [] = qs; rw [e]; rfl
  refine ⟨order, ⟨k1, fun n e he => by have := k2 n e he; simpa using this, fun n i qs e => ?_, k4, fun n i qs r e hr => ?_⟩, fun n i qs e => ?_, fun n => ⟨(k7 n).1, fun x hx => (k7 n).2 x (Pool.result_some hx)⟩⟩
  · rw [← er i qs e]; exact k3 n i
  · obtain ⟨m1, m2⟩ := k5 n i r (Pool.result_some hr)
    rw [er i qs e] at m1
    exact ⟨m1, m2⟩
  · have := k6 n (i + 1) (by omega) (by simpa using (List.getElem?_eq_some_iff.1 e).1)
    rw [er (i + 1) qs e] at this
    exact this

theorem Linear.all {step : ω → Py σ β} {s : σ} {calls : List (List ω)} {schedule : List Nat} {answers : Nat → Nat → Option (Except PyErr (List (Except PyErr β)))}
    {order : Nat → List (Nat × ω)} (h : Linear step s calls schedule answers order) (n : Nat) : ∀ c ∈ (order n).map (·.2), ∃ l ∈ calls, c ∈ l := by
  intro c hc
  obtain ⟨e, he, rfl⟩ := List.mem_map.1 hc
  have hl := h.known n e he
  refine ⟨calls[e.1], List.getElem_mem hl, (h.inTurn n e.1 _ (List.getElem?_eq_getElem hl)).subset ?_⟩
  exact List.mem_map.2 ⟨e, List.mem_filter.2 ⟨he, by simp⟩, rfl⟩

/-- The same for the plain object that `step` refines. -/
theorem Linear.congr {step : ω → Py σ β} {spec : ω → Py τ β} {s : σ} {t : τ} {calls : List (List ω)} {schedule : List Nat}
    {answers : Nat → Nat → Option (Except PyErr (List (Except PyErr β)))} {order : Nat → List (Nat × ω)} (h : Linear step s calls schedule answers order)
    (he : ∀ cs : List ω, (∀ c ∈ cs, ∃ l ∈ calls, c ∈ l) → (runHist step cs s).1 = (runHist spec cs t).1) : Linear spec t calls schedule answers order := by
  refine ⟨h.grows, h.known, h.inTurn, h.notEarly, fun n i cs r e hr => ?_⟩
  obtain ⟨h1, h2⟩ := h.finished n i cs r e hr
  refine ⟨h1, ?_⟩
  rw [h2]
  unfold answersTo
  rw [he _ (Linear.all h n)]

end Verif
