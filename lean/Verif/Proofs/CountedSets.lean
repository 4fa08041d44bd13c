import Verif.Costs
import Verif.Proofs.AmortisedHist
import Verif.Proofs.Keeps
/-!
# Metered sorted sets and dicts: every call is at most one metered call of the list (two for `del ss[i]`)
-/

namespace Verif
variable {σ β γ α κ : Type}

/-- From `s` and the reading `k`, the metered program does what the program does, and what it spends satisfies `Q`. -/
def RunsAt (k : Calls) (mc : CPy σ β) (m : Py σ β) (s : σ) (Q : σ → Calls → Prop) : Prop :=
  ∃ d, mc (s, k) = ((m s).1, (m s).2, k + d) ∧ Q (m s).2 d

/-- The metered program spends nothing, and what is spent already still satisfies `Q` afterwards. -/
def Silent (Q : σ → Calls → Prop) (mc : CPy σ β) (m : Py σ β) : Prop :=
  ∀ s, (∀ k, mc (s, k) = ((m s).1, (m s).2, k)) ∧ ∀ d, Q s d → Q (m s).2 d

theorem Silent.bind {Q : σ → Calls → Prop} {mc : CPy σ β} {m : Py σ β} {fc : β → CPy σ γ} {f : β → Py σ γ} (h : Silent Q mc m)
    (h' : ∀ b, Silent Q (fc b) (f b)) : Silent Q (mc >>= fc) (m >>= f) := by
  intro s
  obtain ⟨h1, h2⟩ := h s
  show (∀ k, Py.bind mc fc (s, k) = ((Py.bind m f s).1, (Py.bind m f s).2, k)) ∧ ∀ d, Q s d → Q (Py.bind m f s).2 d
  simp only [Py.bind, h1]
  rcases hm : m s with ⟨er | b, s'⟩ <;> rw [hm] at h2
  · exact ⟨fun _ => rfl, h2⟩
  · exact ⟨fun k => (h' b s').1 k, fun d hq => (h' b s').2 d (h2 d hq)⟩

theorem Calls.add_cancel {k d d' : Calls} (h : k + d = k + d') : d = d' := by
  have e1 := congrArg Calls.cmp h
  have e2 := congrArg Calls.key h
  have e3 := congrArg Calls.node h
  have e4 := congrArg Calls.built h
  have e5 := congrArg Calls.moved h
  have e6 := congrArg Calls.shifted h
  have e7 := congrArg Calls.reshaped h
  have e8 := congrArg Calls.sorted h
  simp only [Calls.add_cmp, Calls.add_key, Calls.add_node, Calls.add_built, Calls.add_moved, Calls.add_shifted,
    Calls.add_reshaped, Calls.add_sorted] at *
  cases d; cases d'
  simp only [Calls.mk.injEq]
  dsimp only at *
  omega

namespace RunsAt
variable {k : Calls} {mc : CPy σ β} {m : Py σ β} {s : σ} {Q Q' : σ → Calls → Prop}

theorem mono (h : RunsAt k mc m s Q) (hQ : ∀ s' d, Q s' d → Q' s' d) : RunsAt k mc m s Q' := by
  obtain ⟨d, e, h⟩ := h
  exact ⟨d, e, hQ _ _ h⟩

theorem both (h : RunsAt k mc m s Q) (h' : RunsAt k mc m s Q') : RunsAt k mc m s fun s' d => Q s' d ∧ Q' s' d := by
  obtain ⟨d, e, h⟩ := h
  obtain ⟨d', e', h'⟩ := h'
  rw [e] at e'
  have : d = d' := Calls.add_cancel (Prod.mk.inj (Prod.mk.inj e').2).2
  subst this
  exact ⟨d, e, h, h'⟩

theorem silent (h : Silent Q mc m) (hQ : Q s 0) : RunsAt k mc m s Q :=
  ⟨0, by rw [(h s).1, Calls.add_zero], (h s).2 _ hQ⟩

theorem bind {fc : β → CPy σ γ} {f : β → Py σ γ} (h : RunsAt k mc m s Q')
    (h1 : ∀ b s' d, m s = (.ok b, s') → Q' s' d → RunsAt (k + d) (fc b) (f b) s' fun s'' d' => Q s'' (d + d'))
    (h2 : ∀ e s' d, m s = (.error e, s') → Q' s' d → Q s' d) : RunsAt k (mc >>= fc) (m >>= f) s Q := by
  obtain ⟨d, e, h⟩ := h
  show ∃ d, Py.bind mc fc (s, k) = ((Py.bind m f s).1, (Py.bind m f s).2, k + d) ∧ Q (Py.bind m f s).2 d
  simp only [Py.bind]
  rw [e]
  rcases hm : m s with ⟨er | b, s'⟩
  · rw [hm] at h
    exact ⟨d, rfl, h2 _ _ _ hm h⟩
  · rw [hm] at h
    obtain ⟨d', e', h'⟩ := h1 _ _ _ hm h
    exact ⟨d + d', by rw [← Calls.add_assoc]; exact e', h'⟩

theorem after {fc : β → CPy σ γ} {f : β → Py σ γ} (h : RunsAt k mc m s Q) (h1 : ∀ b, Silent Q (fc b) (f b)) :
    RunsAt k (mc >>= fc) (m >>= f) s Q :=
  h.bind (fun b s' d _ hq => ⟨0, by rw [(h1 b s').1, Calls.add_zero], by dsimp only; rw [Calls.add_zero]; exact (h1 b s').2 d hq⟩)
    fun _ _ _ _ hq => hq

theorem before {fc : β → CPy σ γ} {f : β → Py σ γ} (h : Silent Q mc m) (h0 : Q s 0)
    (h1 : ∀ b s', m s = (.ok b, s') → RunsAt k (fc b) (f b) s' Q) : RunsAt k (mc >>= fc) (m >>= f) s Q := by
  refine RunsAt.bind (Q' := fun s' d => Q s' 0 ∧ d = 0) ⟨0, by rw [(h s).1, Calls.add_zero], (h s).2 _ h0, rfl⟩ ?_ ?_
  · rintro b s' d hm ⟨hq, rfl⟩
    rw [Calls.add_zero]
    exact (h1 b s' hm).mono fun _ _ h => by rwa [Calls.zero_add]
  · rintro e s' d hm ⟨hq, rfl⟩
    exact hq

theorem of_counts {B : Calls} (h : Counts B mc m s) : RunsAt k mc m s fun _ d => d ≤ B := by
  obtain ⟨d, hd, e⟩ := h k
  exact ⟨d, e, hd⟩

/-- The call itself, from the call whose result is wrapped. -/
theorem of_out {f : β → Out α} (h : RunsAt k (Spec.out f mc) (Spec.out f m) s Q) (hf : ∀ a b, f a = f b → a = b) :
    RunsAt k mc m s Q := by
  obtain ⟨d, e, h⟩ := h
  unfold RunsAt
  unfold Spec.out at e h
  rcases hm : m s with ⟨er | b, s'⟩ <;> rcases hc : mc (s, k) with ⟨er' | b', s''⟩ <;> rw [hm, hc] at e <;> rw [hm] at h <;>
    dsimp only at e h ⊢
  · obtain ⟨e1, e2⟩ := Prod.mk.inj e
    cases e1; subst e2
    exact ⟨d, rfl, h⟩
  · cases (Prod.mk.inj e).1
  · cases (Prod.mk.inj e).1
  · obtain ⟨e1, e2⟩ := Prod.mk.inj e
    cases hf _ _ (Except.ok.inj e1); subst e2
    exact ⟨d, rfl, h⟩

end RunsAt

/-! ## SortedDict -/

/-- The call of the list that a call on a sorted dict makes, if it makes one. -/
def SDOp.listOp {κ ν : Type} : SDOp κ ν → Option (Op κ)
  | .setitem k _ | .setdefault k _ => some (.add k)
  | .delitem k | .pop k _ => some (.remove k)
  | .popitem i | .viewDelInt i => some (.pop i)
  | .peekitem i | .keysAt i | .itemsAt i | .valuesAt i => some (.getInt i)
  | .bisectLeft k => some (.bisectLeft k)
  | .bisectRight k => some (.bisectRight k)
  | .index k a b => some (.index k a b)
  | .irange lo hi a b r => some (.irange lo hi a b r)
  | _ => none

namespace SD
variable {ν : Type} {eqv : κ → κ → Bool} {Lc : ListAPI (σ × Calls) κ} {L : ListAPI σ κ} {s : SD κ ν σ} {k : Calls}
  {Q : σ → Calls → Prop}

theorem metering_bind (m : Py (SD κ ν (σ × Calls)) β) (f : β → Py (SD κ ν (σ × Calls)) γ) :
    metering (m >>= f) = metering m >>= fun b => metering (f b) := by
  funext p
  show metering (Py.bind m f) p = Py.bind (metering m) (fun b => metering (f b)) p
  simp only [metering, Py.bind]
  rcases m _ with ⟨_ | b, s'⟩ <;> rfl

theorem metering_get_bind (f : SD κ ν (σ × Calls) → Py (SD κ ν (σ × Calls)) β) (s : SD κ ν σ) (k : Calls) :
    metering (Py.get >>= f) (s, k) = metering (f { dict := s.dict, list := (s.list, k) }) (s, k) := rfl

theorem runs_get_bind {fc : SD κ ν (σ × Calls) → Py (SD κ ν (σ × Calls)) β} {f : SD κ ν σ → Py (SD κ ν σ) β} {R : SD κ ν σ → Calls → Prop}
    (h : RunsAt k (metering (fc { dict := s.dict, list := (s.list, k) })) (f s) s R) :
    RunsAt k (metering (Py.get >>= fc)) (Py.get >>= f) s R := h

theorem onList_runs {mc : CPy σ β} {m : Py σ β} (h : RunsAt k mc m s.list Q) :
    RunsAt k (metering (onList mc)) (onList m) s fun s' d => Q s'.list d := by
  obtain ⟨d, e, h⟩ := h
  refine ⟨d, ?_, h⟩
  simp only [metering, onList]
  rw [e]

theorem onDict_silent (f : List (κ × ν) → List (κ × ν)) :
    Silent (fun s' d => Q s'.list d) (metering (onDict f)) (onDict (σ := σ) f) := fun _ => ⟨fun _ => rfl, fun _ h => h⟩

theorem pure_silent (b : β) : Silent (fun (s' : SD κ ν σ) d => Q s'.list d) (metering (pure b)) (pure b) :=
  fun _ => ⟨fun _ => rfl, fun _ h => h⟩

theorem raise_silent (e : PyErr) : Silent (fun (s' : SD κ ν σ) d => Q s'.list d) (metering (Py.raise e : Py _ β)) (Py.raise e) :=
  fun _ => ⟨fun _ => rfl, fun _ h => h⟩

theorem getitem_silent (key : κ) :
    Silent (fun s' d => Q s'.list d) (metering (getitem eqv key)) (getitem (ν := ν) (σ := σ) eqv key) :=
  fun _ => ⟨fun _ => rfl, fun _ h => h⟩

theorem dictDelitem_silent (key : κ) :
    Silent (fun s' d => Q s'.list d) (metering (dictDelitem eqv key)) (dictDelitem (ν := ν) (σ := σ) eqv key) := by
  intro s
  simp only [metering, dictDelitem, Py.get_bind]
  by_cases h : PyDict.has eqv s.dict key = true
  · rw [if_pos h]; exact ⟨fun _ => by rw [if_pos h]; rfl, fun _ h => h⟩
  · rw [if_neg h]; exact ⟨fun _ => by rw [if_neg h]; rfl, fun _ h => h⟩

theorem dictPop_silent (key : κ) :
    Silent (fun s' d => Q s'.list d) (metering (dictPop eqv key)) (dictPop (ν := ν) (σ := σ) eqv key) := by
  intro s
  simp only [metering, dictPop, Py.get_bind]
  cases PyDict.getitem eqv s.dict key <;> exact ⟨fun _ => rfl, fun _ h => h⟩

theorem out_runs {mc : Py (SD κ ν (σ × Calls)) β} {m : Py (SD κ ν σ) β} (f : β → DOut κ ν)
    (h : RunsAt k (metering mc) m s fun s' d => Q s'.list d) :
    RunsAt k (metering (out f mc)) (out f m) s fun s' d => Q s'.list d := by
  unfold out
  rw [metering_bind]
  exact h.after fun _ => pure_silent _

theorem read_runs {fc : SD κ ν (σ × Calls) → Except PyErr β} {f : SD κ ν σ → Except PyErr β}
    (e : fc { dict := s.dict, list := (s.list, k) } = f s) (h0 : Q s.list 0) :
    RunsAt k (metering (read fc)) (read f) s fun s' d => Q s'.list d :=
  ⟨0, by simp only [metering, read, e, Calls.add_zero], h0⟩

theorem step_runs (hit : ∀ l k, Lc.iter (l, k) = L.iter l) (hrev : ∀ l k, Lc.reversed (l, k) = L.reversed l) (op : SDOp κ ν)
    (hop : op.metered) (h0 : Q s.list 0) (h : ∀ o, op.listOp = some o → RunsAt k (Lc.step o) (L.step o) s.list Q) :
    RunsAt k (metering (step eqv Lc op)) (step eqv L op) s fun s' d => Q s'.list d := by
  have hadd : ∀ v, op.listOp = some (.add v) → RunsAt k (Lc.add v) (L.add v) s.list Q := fun v e =>
    (h _ e).of_out (f := fun _ => .none) fun _ _ _ => rfl
  have hrem : ∀ v, op.listOp = some (.remove v) → RunsAt k (Lc.remove v) (L.remove v) s.list Q := fun v e =>
    (h _ e).of_out (f := fun _ => .none) fun _ _ _ => rfl
  have hpop : ∀ i, op.listOp = some (.pop i) → RunsAt k (Lc.pop i) (L.pop i) s.list Q := fun v e =>
    (h _ e).of_out (f := .val) fun _ _ e => by cases e; rfl
  have hget : ∀ i, op.listOp = some (.getInt i) → RunsAt k (Lc.getInt i) (L.getInt i) s.list Q := fun v e =>
    (h _ e).of_out (f := .val) fun _ _ e => by cases e; rfl
  have int : ∀ a b : Nat, (Out.int a : Out κ) = .int b → a = b := fun _ _ e => by injection e with e; exact Int.ofNat.inj e
  cases op with
  | setitem key v =>
    refine out_runs _ (runs_get_bind ?_)
    dsimp only
    rw [show contains eqv key ({ dict := s.dict, list := (s.list, k) } : SD κ ν (σ × Calls)) = contains eqv key s from rfl]
    by_cases hc : contains eqv key s = true
    · rw [if_pos hc, if_pos hc]
      exact .silent (onDict_silent _) h0
    · rw [if_neg hc, if_neg hc, metering_bind]
      exact (onList_runs (hadd _ rfl)).after fun _ => onDict_silent _
  | delitem key =>
    refine out_runs _ ?_
    unfold delitem
    rw [metering_bind]
    refine .before (dictDelitem_silent _) h0 fun _ s' e => ?_
    have : s'.list = s.list := by
      have := dictDelitem_keeps (eqv := eqv) (P := fun l => l = s.list) key s rfl
      rw [e] at this; exact this
    exact onList_runs (s := s') (by rw [this]; exact hrem _ rfl)
  | pop key d =>
    refine out_runs _ (runs_get_bind ?_)
    rw [show contains eqv key ({ dict := s.dict, list := (s.list, k) } : SD κ ν (σ × Calls)) = contains eqv key s from rfl]
    by_cases hc : contains eqv key s = true
    · rw [if_pos hc, if_pos hc, metering_bind]
      exact (onList_runs (hrem _ rfl)).after fun _ => dictPop_silent _
    · rw [if_neg hc, if_neg hc]
      cases d with
      | none => exact .silent (raise_silent _) h0
      | some v => exact .silent (pure_silent _) h0
  | popitem i =>
    refine out_runs _ (runs_get_bind ?_)
    dsimp only
    by_cases hc : s.dict.length = 0
    · rw [if_pos hc, if_pos hc]
      exact .silent (raise_silent _) h0
    · rw [if_neg hc, if_neg hc, metering_bind]
      refine (onList_runs (hpop _ rfl)).after fun key => ?_
      rw [metering_bind]
      exact (dictPop_silent _).bind fun _ => pure_silent _
  | setdefault key v =>
    refine out_runs _ (runs_get_bind ?_)
    rw [show contains eqv key ({ dict := s.dict, list := (s.list, k) } : SD κ ν (σ × Calls)) = contains eqv key s from rfl]
    by_cases hc : contains eqv key s = true
    · rw [if_pos hc, if_pos hc]
      exact .silent (getitem_silent _) h0
    · rw [if_neg hc, if_neg hc, metering_bind]
      refine .before (onDict_silent _) h0 fun _ s' e => ?_
      have : s'.list = s.list := by cases e; rfl
      rw [metering_bind]
      exact (onList_runs (s := s') (by rw [this]; exact hadd _ rfl)).after fun _ => pure_silent _
  | peekitem i | itemsAt i =>
    refine out_runs _ ?_
    unfold peekitem
    rw [metering_bind]
    refine (onList_runs (hget _ rfl)).after fun key => ?_
    rw [metering_bind]
    exact (getitem_silent _).bind fun _ => pure_silent _
  | valuesAt i =>
    refine out_runs _ ?_
    unfold valuesAt
    rw [metering_bind]
    exact (onList_runs (hget _ rfl)).after fun key => getitem_silent _
  | keysAt i => exact out_runs _ (onList_runs (hget _ rfl))
  | viewDelInt i =>
    refine out_runs _ ?_
    unfold viewDelInt
    rw [metering_bind]
    exact (onList_runs (hpop _ rfl)).after fun key => dictDelitem_silent _
  | getitem key => exact out_runs _ (.silent (getitem_silent _) h0)
  | get key => exact out_runs _ (read_runs rfl h0)
  | contains key => exact out_runs _ (read_runs rfl h0)
  | len => exact out_runs _ (read_runs rfl h0)
  | iter => exact out_runs _ (read_runs (congrArg Except.ok (hit _ _)) h0)
  | reversed => exact out_runs _ (read_runs (congrArg Except.ok (hrev _ _)) h0)
  | items => exact out_runs _ (read_runs (by unfold items iter; rw [hit]) h0)
  | values => exact out_runs _ (read_runs (by unfold values iter; rw [hit]) h0)
  | bisectLeft v => exact out_runs _ (onList_runs ((h _ rfl).of_out (f := fun (n : Nat) => .int n) int))
  | bisectRight v => exact out_runs _ (onList_runs ((h _ rfl).of_out (f := fun (n : Nat) => .int n) int))
  | index v a b => exact out_runs _ (onList_runs ((h _ rfl).of_out (f := .int) fun _ _ e => by cases e; rfl))
  | irange lo hi a b r => exact out_runs _ (onList_runs ((h _ rfl).of_out (f := .vals) fun _ _ e => by cases e; rfl))
  | _ => cases hop

/-- The calls that are settled by the dict make no call of the list. -/
theorem byHash_runs {op : SDOp κ ν} (hop : op.byHash eqv s) (h0 : Q s.list 0) :
    RunsAt k (metering (step eqv Lc op)) (step eqv L op) s fun s' d => Q s'.list d := by
  have hcon : ∀ key, contains eqv key ({ dict := s.dict, list := (s.list, k) } : SD κ ν (σ × Calls)) = contains eqv key s := fun _ => rfl
  cases op with
  | setitem key v =>
    refine out_runs _ (runs_get_bind ?_)
    dsimp only
    rw [hcon, if_pos (show contains eqv key s = true from hop), if_pos (show contains eqv key s = true from hop)]
    exact .silent (onDict_silent _) h0
  | setdefault key v =>
    refine out_runs _ (runs_get_bind ?_)
    rw [hcon, if_pos (show contains eqv key s = true from hop), if_pos (show contains eqv key s = true from hop)]
    exact .silent (getitem_silent _) h0
  | pop key d =>
    have hc : ¬ contains eqv key s = true := by rw [show contains eqv key s = false from hop]; exact Bool.false_ne_true
    refine out_runs _ (runs_get_bind ?_)
    rw [hcon, if_neg hc, if_neg hc]
    cases d with
    | none => exact .silent (raise_silent _) h0
    | some v => exact .silent (pure_silent _) h0
  | delitem key =>
    refine out_runs _ ?_
    unfold delitem
    rw [metering_bind]
    refine .before (dictDelitem_silent _) h0 fun _ s' e => ?_
    have hc : PyDict.has eqv s.dict key = false := hop
    rw [dictDelitem, Py.get_bind, hc] at e
    cases e
  | getitem key => exact out_runs _ (.silent (getitem_silent _) h0)
  | get key => exact out_runs _ (read_runs rfl h0)
  | contains key => exact out_runs _ (read_runs rfl h0)
  | len => exact out_runs _ (read_runs rfl h0)
  | _ => cases hop

end SD

/-! ## SortedSet -/

/-- The call of the list that a call on a sorted set makes, if it makes one; `del ss[i]` makes two. -/
def SSOp.listOp {α : Type} : SSOp α → Option (Op α)
  | .add v => some (.add v)
  | .discard v | .remove v => some (.remove v)
  | .pop i => some (.pop i)
  | .getInt i => some (.getInt i)
  | .bisectLeft k => some (.bisectLeft k)
  | .bisectRight k => some (.bisectRight k)
  | .index k a b => some (.index k a b)
  | .irange lo hi a b r => some (.irange lo hi a b r)
  | _ => none

namespace SS
variable {τ : Type} {S : SetOps τ α} {Lc : ListAPI (σ × Calls) α} {L : ListAPI σ α} {s : SS τ σ} {k : Calls}
  {Q : σ → Calls → Prop}

theorem metering_bind (m : Py (SS τ (σ × Calls)) β) (f : β → Py (SS τ (σ × Calls)) γ) :
    metering (m >>= f) = metering m >>= fun b => metering (f b) := by
  funext p
  show metering (Py.bind m f) p = Py.bind (metering m) (fun b => metering (f b)) p
  simp only [metering, Py.bind]
  rcases m _ with ⟨_ | b, s'⟩ <;> rfl

theorem runs_get_bind {fc : SS τ (σ × Calls) → Py (SS τ (σ × Calls)) β} {f : SS τ σ → Py (SS τ σ) β} {R : SS τ σ → Calls → Prop}
    (h : RunsAt k (metering (fc { set := s.set, list := (s.list, k) })) (f s) s R) :
    RunsAt k (metering (Py.get >>= fc)) (Py.get >>= f) s R := h

theorem onList_runs {mc : CPy σ β} {m : Py σ β} (h : RunsAt k mc m s.list Q) :
    RunsAt k (metering (onList mc)) (onList m) s fun s' d => Q s'.list d := by
  obtain ⟨d, e, h⟩ := h
  refine ⟨d, ?_, h⟩
  simp only [metering, onList]
  rw [e]

theorem onSet_silent (f : τ → τ) : Silent (fun s' d => Q s'.list d) (metering (onSet f)) (onSet (σ := σ) f) :=
  fun _ => ⟨fun _ => rfl, fun _ h => h⟩

theorem pure_silent (b : β) : Silent (fun (s' : SS τ σ) d => Q s'.list d) (metering (pure b)) (pure b) :=
  fun _ => ⟨fun _ => rfl, fun _ h => h⟩

theorem setRemove_silent (v : α) : Silent (fun s' d => Q s'.list d) (metering (setRemove S v)) (setRemove (σ := σ) S v) := by
  intro s
  simp only [metering, setRemove]
  cases S.remove v s.set <;> exact ⟨fun _ => rfl, fun _ h => h⟩

theorem setRemove_list {v : α} {s s' : SS τ σ} {r : Except PyErr Unit} (e : setRemove S v s = (r, s')) : s'.list = s.list := by
  have := setRemove_keeps (S := S) (P := fun l => l = s.list) v s rfl
  rw [e] at this; exact this

theorem out_runs {mc : Py (SS τ (σ × Calls)) β} {m : Py (SS τ σ) β} (f : β → Out α)
    (h : RunsAt k (metering mc) m s fun s' d => Q s'.list d) :
    RunsAt k (metering (Spec.out f mc)) (Spec.out f m) s fun s' d => Q s'.list d := by
  have := metering_bind mc fun b => pure (f b)
  have e : (Spec.out f mc : Py (SS τ (σ × Calls)) (Out α)) = mc >>= fun b => pure (f b) := rfl
  rw [e, this]
  exact h.after fun _ => pure_silent _

theorem read_runs {fc : SS τ (σ × Calls) → β} {f : SS τ σ → β}
    (e : fc { set := s.set, list := (s.list, k) } = f s) (h0 : Q s.list 0) :
    RunsAt k (metering (read fc)) (read f) s fun s' d => Q s'.list d :=
  ⟨0, by simp only [metering, read, e, Calls.add_zero], h0⟩

theorem step_runs (hit : ∀ l k, Lc.iter (l, k) = L.iter l) (hrev : ∀ l k, Lc.reversed (l, k) = L.reversed l) (op : SSOp α)
    (hop : op.metered) (h0 : Q s.list 0) (h : ∀ o, op.listOp = some o → RunsAt k (Lc.step o) (L.step o) s.list Q)
    {Q' : σ → Calls → Prop} (hd : ∀ i, op = .delInt i → RunsAt k (Lc.step (.getInt i)) (L.step (.getInt i)) s.list Q')
    (hd1 : ∀ i d, op = .delInt i → Q' (L.getInt i s.list).2 d →
      RunsAt (k + d) (Lc.step (.delInt i)) (L.step (.delInt i)) (L.getInt i s.list).2 fun l d' => Q l (d + d'))
    (hd2 : ∀ l d, Q' l d → Q l d) :
    RunsAt k (metering (step S Lc op)) (step S L op) s fun s' d => Q s'.list d := by
  have int : ∀ a b : Nat, (Out.int a : Out α) = .int b → a = b := fun _ _ e => by injection e with e; exact Int.ofNat.inj e
  have hrem : ∀ v, op.listOp = some (.remove v) → RunsAt k (Lc.remove v) (L.remove v) s.list Q := fun v e =>
    (h _ e).of_out (f := fun _ => .none) fun _ _ _ => rfl
  cases op with
  | add v =>
    refine out_runs _ (runs_get_bind ?_)
    by_cases hc : S.mem v s.set = true
    · rw [if_pos hc, if_pos hc]
      exact .silent (pure_silent _) h0
    · rw [if_neg hc, if_neg hc, metering_bind]
      refine .before (onSet_silent _) h0 fun _ s' e => ?_
      have : s'.list = s.list := by cases e; rfl
      exact onList_runs (s := s') (by rw [this]; exact (h _ rfl).of_out (f := fun _ => .none) fun _ _ _ => rfl)
  | discard v =>
    refine out_runs _ (runs_get_bind ?_)
    by_cases hc : S.mem v s.set = true
    · rw [if_pos hc, if_pos hc, metering_bind]
      refine .before (setRemove_silent _) h0 fun _ s' e => ?_
      exact onList_runs (s := s') (by rw [setRemove_list e]; exact hrem _ rfl)
    · rw [if_neg hc, if_neg hc]
      exact .silent (pure_silent _) h0
  | remove v =>
    refine out_runs _ ?_
    unfold remove
    rw [metering_bind]
    refine .before (setRemove_silent _) h0 fun _ s' e => ?_
    exact onList_runs (s := s') (by rw [setRemove_list e]; exact hrem _ rfl)
  | pop i =>
    refine out_runs _ ?_
    unfold pop
    rw [metering_bind]
    refine (onList_runs ((h _ rfl).of_out (f := .val) fun _ _ e => by cases e; rfl)).after fun v => ?_
    rw [metering_bind]
    exact (setRemove_silent _).bind fun _ => pure_silent _
  | delInt i =>
    refine out_runs _ ?_
    unfold delInt
    rw [metering_bind]
    refine RunsAt.bind (Q' := fun s' d => Q' s'.list d) (onList_runs ((hd _ rfl).of_out (f := .val) fun _ _ e => by cases e; rfl)) ?_ ?_
    · intro v s' d e hq
      have e' : s'.list = (L.getInt i s.list).2 := (congrArg (fun p => p.2.list) e).symm
      rw [metering_bind]
      refine .before (Q := fun s'' d' => Q s''.list (d + d')) (s := s')
        (by intro s1; exact ⟨(setRemove_silent (Q := Q) v s1).1, fun d' => (setRemove_silent (Q := Q) v s1).2 _⟩)
        (by rw [Calls.add_zero]; exact hd2 _ _ hq) fun _ s'' e2 => ?_
      have e3 : s''.list = (L.getInt i s.list).2 := by rw [setRemove_list e2, e']
      refine onList_runs (s := s'') (Q := fun l d' => Q l (d + d')) ?_
      rw [e3]
      rw [e'] at hq
      exact (hd1 i d rfl hq).of_out (f := fun _ => .none) fun _ _ _ => rfl
    · exact fun _ s' d _ hq => hd2 _ _ hq
  | getInt i => exact out_runs _ (onList_runs ((h _ rfl).of_out (f := .val) fun _ _ e => by cases e; rfl))
  | contains v => exact out_runs _ (read_runs rfl h0)
  | len => exact out_runs _ (read_runs rfl h0)
  | iter => exact out_runs _ (read_runs (hit _ _) h0)
  | reversed => exact out_runs _ (read_runs (hrev _ _) h0)
  | count v => exact out_runs _ (read_runs rfl h0)
  | isdisjoint xs => exact out_runs _ (read_runs rfl h0)
  | issubset xs => exact out_runs _ (read_runs rfl h0)
  | issuperset xs => exact out_runs _ (read_runs rfl h0)
  | compare op v => exact out_runs _ (read_runs rfl h0)
  | bisectLeft v => exact out_runs _ (onList_runs ((h _ rfl).of_out (f := fun (n : Nat) => .int n) int))
  | bisectRight v => exact out_runs _ (onList_runs ((h _ rfl).of_out (f := fun (n : Nat) => .int n) int))
  | index v a b => exact out_runs _ (onList_runs ((h _ rfl).of_out (f := .int) fun _ _ e => by cases e; rfl))
  | irange lo hi a b r => exact out_runs _ (onList_runs ((h _ rfl).of_out (f := .vals) fun _ _ e => by cases e; rfl))
  | _ => cases hop

/-- The calls that are settled by the set make no call of the list. -/
theorem byHash_runs {eqv : α → α → Bool} (hS : S.Lawful eqv) {op : SSOp α} (hop : op.byHash S s) (h0 : Q s.list 0) :
    RunsAt k (metering (step S Lc op)) (step S L op) s fun s' d => Q s'.list d := by
  cases op with
  | add v =>
    refine out_runs _ (runs_get_bind ?_)
    rw [if_pos (show S.mem v s.set = true from hop), if_pos (show S.mem v s.set = true from hop)]
    exact .silent (pure_silent _) h0
  | discard v =>
    have hc : ¬ S.mem v s.set = true := by rw [show S.mem v s.set = false from hop]; exact Bool.false_ne_true
    refine out_runs _ (runs_get_bind ?_)
    rw [if_neg hc, if_neg hc]
    exact .silent (pure_silent _) h0
  | remove v =>
    refine out_runs _ ?_
    unfold remove
    rw [metering_bind]
    refine .before (setRemove_silent _) h0 fun _ s' e => ?_
    have hc : S.mem v s.set = false := hop
    rw [hS.mem] at hc
    rw [setRemove, hS.remove_absent _ _ hc] at e
    cases e
  | contains v => exact out_runs _ (read_runs rfl h0)
  | len => exact out_runs _ (read_runs rfl h0)
  | count v => exact out_runs _ (read_runs rfl h0)
  | isdisjoint xs => exact out_runs _ (read_runs rfl h0)
  | issubset xs => exact out_runs _ (read_runs rfl h0)
  | issuperset xs => exact out_runs _ (read_runs rfl h0)
  | compare op v => exact out_runs _ (read_runs rfl h0)
  | _ => cases hop

end SS
end Verif
