import Verif.Proofs.InterruptHistSets
import Verif.Props.Interrupt
/-!
# C72: calls on sorted sets and dicts that are interrupted

As C70, for SortedSet and SortedDict.  `Verif/Model/InterruptSets.lean` has the programs with the list of the objects they pass through;
`Verif/CutSets.lean` the small specification: what the sorted list may hold after an interruption (`SSOp.Aftermath`), in which order the two
stores change (`SSOp.Progress`), and the objects a client can have after any number of interruptions (`SS.Cut`).

An interruption can leave the two stores out of step (the examples below), but the built-in set or dict is never torn: of every value,
`v in ss` answers what it answered before the call or what it answers after it.  So the damage can be repaired without loss of members:
`ss.symmetric_difference_update([])` makes the list from the set again.
-/

namespace Verif

section Sets
variable {α τ : Type} {c : ListClass α} {lt eqv : α → α → Bool} {S : SetOps τ α} {s x : SS τ c.State}

theorem SS.left_trace (hc : c.Orders lt eqv) (hS : S.Lawful eqv) (hs : SS.Reachable S c.api s) (op : SSOp α) (hv : op.Valid) :
    Interrupt.SS.Left S c.api c.load op s (SS.step S c.api op s).2 s ∧
    Trace (SS.Alike c.Reindexed) (Interrupt.SS.Left S c.api c.load op s (SS.step S c.api op s).2)
      (Interrupt.SS.step S c.interrupted c.api op) (SS.step S c.api op) s := by
  obtain ⟨O, I, h1, -, h3, h4⟩ := hc.cuts
  have h : SS.Good S c.api O eqv I := ⟨hS, h1, h3⟩
  have hi := SS.reachable_inv h hs
  exact ⟨Interrupt.SS.left_start h _ hi op, Interrupt.SS.step_trace h h4 c.asks hi op hv⟩

/-- C72: the programs of `Model/InterruptSets.lean`, uninterrupted, do what those of the other models do: the same answer or exception, and the
same object afterwards (after an exception up to the positional index of the list). -/
theorem C72_set_uninterrupted (hc : c.Orders lt eqv) (hS : S.Lawful eqv) (hs : SS.Reachable S c.api s) (op : SSOp α) (hv : op.Valid) :
    let real := (Interrupt.SS.step S c.interrupted c.api op).run s
    let model := SS.step S c.api op s
    real.1 = model.1 ∧ (∀ a, model.1 = .ok a → real.2 = model.2) ∧ real.2.set = model.2.set ∧ c.Reindexed model.2.list real.2.list := by
  obtain ⟨h0, h1⟩ := SS.left_trace hc hS hs op hv
  obtain ⟨d, -, -, -, e1, e2, e3⟩ := h1 h0 []
  exact ⟨e1, e3, e2.1.symm, e2.2⟩

/-- C72: what iteration over the set yields after a call was interrupted anywhere; see `SSOp.Aftermath`. -/
theorem C72_set_aftermath (hc : c.Orders lt eqv) (hS : S.Lawful eqv) (hs : SS.Reachable S c.api s) (op : SSOp α) (hv : op.Valid)
    (hx : x ∈ (Interrupt.SS.step S c.interrupted c.api op).points s) :
    op.Aftermath (c.load s.list) (SS.iter c.api s) (SS.iter c.api (SS.step S c.api op s).2) (SS.iter c.api x) := by
  obtain ⟨h0, h1⟩ := SS.left_trace hc hS hs op hv
  exact (h1.points h0 x hx).1

/-- C72: in which order the built-in set and the sorted list change, and how; see `SSOp.Progress`. -/
theorem C72_set_progress (hc : c.Orders lt eqv) (hS : S.Lawful eqv) (hs : SS.Reachable S c.api s) (op : SSOp α) (hv : op.Valid)
    (hx : x ∈ (Interrupt.SS.step S c.interrupted c.api op).points s) :
    let after := (SS.step S c.api op s).2
    op.Progress S.mem s.set after.set x.set (SS.iter c.api s) (SS.iter c.api after) (SS.iter c.api x) := by
  obtain ⟨h0, h1⟩ := SS.left_trace hc hS hs op hv
  exact (h1.points h0 x hx).2

/-- C72: wherever the call is interrupted, `v in ss` answers what it answered before the call, or what it answers after it. -/
theorem C72_set_members (hc : c.Orders lt eqv) (hS : S.Lawful eqv) (hs : SS.Reachable S c.api s) (op : SSOp α) (hv : op.Valid)
    (hx : x ∈ (Interrupt.SS.step S c.interrupted c.api op).points s) (v : α) :
    SS.contains S v x = SS.contains S v s ∨ SS.contains S v x = SS.contains S v (SS.step S c.api op s).2 := by
  have h := C72_set_progress hc hS hs op hv hx
  show S.mem v x.set = S.mem v s.set ∨ S.mem v x.set = S.mem v (SS.step S c.api op s).2.set
  have mono : ∀ {a b d : τ}, (∀ v, S.mem v a = true → S.mem v b = true) → (∀ v, S.mem v b = true → S.mem v d = true) →
      S.mem v b = S.mem v a ∨ S.mem v b = S.mem v d := fun {a b d} h1 h2 => by
    rcases Bool.eq_false_or_eq_true (S.mem v b) with hb | hb
    · exact .inr (by rw [hb, h2 v hb])
    · refine .inl ?_
      rcases Bool.eq_false_or_eq_true (S.mem v a) with ha | ha
      · rw [h1 v ha] at hb; cases hb
      · rw [ha, hb]
  cases op with
  | add | discard | remove | delInt | delSlice | clear | intersectionUpdate | symmetricDifferenceUpdate =>
    rcases h with ⟨h, -⟩ | h
    · rw [h]; exact .inl rfl
    · rw [h]; exact .inr rfl
  | pop =>
    rcases h with h | ⟨h, -⟩
    · rw [h]; exact .inl rfl
    · rw [h]; exact .inr rfl
  | update => exact mono h.1 h.2.1
  | differenceUpdate => exact (mono h.1 h.2).symm
  | _ => rw [show x.set = s.set from h]; exact .inl rfl

/-- C72: an interrupted query, on any object whatsoever and with any comparisons, changes nothing but the positional index of the list. -/
theorem C72_set_query (S : SetOps τ α) {IL : IListAPI c.State α} {L : ListAPI c.State α} (hL : c.Calls IL L) (s : SS τ c.State) {op : SSOp α}
    (hq : op.isQuery = true) (hx : x ∈ (Interrupt.SS.step S IL L op).points s) : x.set = s.set ∧ c.Reindexed s.list x.list := by
  obtain ⟨h1, h2⟩ := (Interrupt.SS.query_trace hL.asks s hq).points ⟨rfl, hL.asks.refl _⟩ x hx
  exact ⟨h1.symm, h2⟩

/-- C72: after any number of interruptions and exceptions, the set has no member, and iteration yields no value, that was not put in. -/
theorem C72_set_values (hS : S.Lawful eqv) {V : α → Prop} (hV : ∀ a b, eqv a b = true → V a → V b) (h : SS.Cut S c V s) :
    (∀ v, SS.contains S v s = true → V v) ∧ ∀ v ∈ SS.iter c.api s, V v := by
  obtain ⟨h1, h2⟩ := h.keep hS hV
  refine ⟨fun v hv => h2 v hv, ?_⟩
  cases c with
  | plain E => exact h1.2.flatten
  | keyed K => exact h1.2.flatten

/-- `ss.clear()` repairs any set with a positive load factor. -/
theorem SS.clear_of_load [DecidableEq α] (hc : c.Orders lt eqv) (hS : S.Lawful eqv)
    (heq : ∀ a b, eqv a b = decide (a = b)) (htotal : ∀ a b, lt a b = false → lt b a = false → a = b)
    (hs : 1 ≤ c.load s.list) (ops : List (SSOp α)) (hops : ∀ op ∈ ops, op.Valid) :
    let spec := runHist (SetSpec.step (setOrder lt eqv)) ops []
    let real := runHist (SS.step S c.api) (.clear :: ops) s
    real.1 = .ok .none :: spec.1 ∧ SS.iter c.api real.2 = spec.2 := by
  obtain ⟨O, I, h1, rfl, h3, h4⟩ := ListClass.clear_sound hc
  have h : SS.Good S c.api O eqv I := ⟨hS, h1, h3⟩
  have ht : SS.Total O eqv := ⟨heq, fun a b hab => by
    simp only [equiv, Bool.and_eq_true, Bool.not_eq_true'] at hab
    exact htotal a b hab.1 hab.2⟩
  have hsame : O.same = eqv := by funext a b; exact h3 a b
  have hstep : SetSpec.step (setOrder O.lt eqv) = SetSpec.step O := by
    funext op; exact (SetSpec.step_congr O rfl hsame op).symm
  obtain ⟨l', e, hl, h0⟩ := h4 s.list hs
  have hi : SS.Inv S c.api I { set := S.empty, list := l' } := ⟨hl, by
    show (S.toList S.empty).Perm (c.api.iter l')
    rw [h0, hS.empty]⟩
  have e' : SS.step S c.api .clear s = (.ok .none, { set := S.empty, list := l' }) := by
    simp only [SS.step, SS.clear, SS.onSet, Spec.out, Py.modify_bind, SS.onList, e]
  obtain ⟨r1, r2, _⟩ := Refines.hist ops (fun op ho => SS.step_refines h ht op (hops op ho)) hi
  rw [show SS.iter c.api (SS.mk S.empty l') = [] from h0] at r1 r2
  intro spec real
  have hsp : spec = runHist (SetSpec.step O) ops [] := by rw [← hstep]
  rw [hsp]
  simp only [real, runHist, e', r1, true_and]
  exact r2

/-- C72: after any number of interruptions and exceptions, `ss.clear()` returns, and the answers of all calls that follow, with values that compare
well, are those of the plain sorted set `[]`. -/
theorem C72_set_clear [DecidableEq α] (hc : c.Orders lt eqv) (hS : S.Lawful eqv)
    (heq : ∀ a b, eqv a b = decide (a = b)) (htotal : ∀ a b, lt a b = false → lt b a = false → a = b)
    {V : α → Prop} (hs : SS.Cut S c V s) (ops : List (SSOp α)) (hops : ∀ op ∈ ops, op.Valid) :
    let spec := runHist (SetSpec.step (setOrder lt eqv)) ops []
    let real := runHist (SS.step S c.api) (.clear :: ops) s
    real.1 = .ok .none :: spec.1 ∧ SS.iter c.api real.2 = spec.2 :=
  SS.clear_of_load hc hS heq htotal (hs.keep hS (fun a b e hv => by rw [heq, decide_eq_true_iff] at e; exact e ▸ hv)).1.load_pos ops hops

/-- `ss.symmetric_difference_update([])` repairs any set with a positive load factor. -/
theorem SS.repair_of_load [DecidableEq α] (hc : c.Orders lt eqv) (hS : S.Lawful eqv)
    (heq : ∀ a b, eqv a b = decide (a = b)) (htotal : ∀ a b, lt a b = false → lt b a = false → a = b)
    (hs : 1 ≤ c.load s.list) (ops : List (SSOp α)) (hops : ∀ op ∈ ops, op.Valid) :
    ∃ plain, Sorted lt plain ∧ plain.Nodup ∧ (∀ v, v ∈ plain ↔ SS.contains S v s = true) ∧
      let spec := runHist (SetSpec.step (setOrder lt eqv)) ops plain
      let real := runHist (SS.step S c.api) (.symmetricDifferenceUpdate [] :: ops) s
      real.1 = .ok .none :: spec.1 ∧ SS.iter c.api real.2 = spec.2 := by
  obtain ⟨O, I, h1, rfl, h3, h4⟩ := ListClass.clear_sound hc
  have h : SS.Good S c.api O eqv I := ⟨hS, h1, h3⟩
  have ht : SS.Total O eqv := ⟨heq, fun a b hab => by
    simp only [equiv, Bool.and_eq_true, Bool.not_eq_true'] at hab
    exact htotal a b hab.1 hab.2⟩
  have hsame : O.same = eqv := by funext a b; exact h3 a b
  have hstep : SetSpec.step (setOrder O.lt eqv) = SetSpec.step O := by
    funext op; exact (SetSpec.step_congr O rfl hsame op).symm
  obtain ⟨l', e, hl, h0⟩ := h4 s.list hs
  let t := S.symmetricDifferenceUpdate [] s.set
  obtain ⟨l2, e2, g1, g2⟩ := SS.onList_run (s := { set := t, list := l' }) (h.list.update (S.toList t)) hl rfl
  have g1 : c.api.iter l2 = Spec.insertAll O [] (S.toList t) := by rw [g1, h0]
  have hp : (c.api.iter l2).Perm (S.toList t) := by
    rw [g1]
    exact (Spec.insertAll_isStableSort (O := O) h1.order Spec.sorted_nil (S.toList t)).perm
  have hi : SS.Inv S c.api I { set := t, list := l2 } := ⟨g2, hp.symm⟩
  have e' : SS.step S c.api (.symmetricDifferenceUpdate []) s = (.ok .none, { set := t, list := l2 }) := by
    have e3 : SS.symmetricDifferenceUpdate S c.api [] s = (.ok (), { set := t, list := l2 }) := by
      have e4 : SS.onList c.api.clear ({ s with set := t } : SS τ c.State) = (.ok (), { set := t, list := l' }) := by
        simp only [SS.onList, e]
      exact (Py.bind_ok e4).trans e2
    exact Py.bind_ok e3
  obtain ⟨r1, r2, _⟩ := Refines.hist ops (fun op ho => SS.step_refines h ht op (hops op ho)) hi
  refine ⟨c.api.iter l2, ?_, ?_, fun v => ?_, ?_⟩
  · rw [g1]; exact Spec.insertAll_sorted h1.order Spec.sorted_nil _
  · exact hp.symm.nodup (ht.nodup (hS.distinct t))
  · rw [hp.mem_iff]
    show v ∈ S.toList t ↔ S.mem v s.set = true
    have hm : (S.toList t).any (eqv · v) = S.mem v s.set := by
      rw [hS.symmetricDifferenceUpdate, hS.mem]; simp
    rw [ht.any] at hm
    rw [← hm]
    simp
  · intro spec real
    have hsp : spec = runHist (SetSpec.step O) ops (c.api.iter l2) := by rw [← hstep]
    rw [hsp]
    simp only [real, runHist, e']
    exact ⟨by rw [r1]; rfl, r2⟩

/-- C72: after any number of interruptions and exceptions, `ss.symmetric_difference_update([])` repairs the set, and loses no member: from then on it
is the plain sorted set of its members. -/
theorem C72_set_repair [DecidableEq α] (hc : c.Orders lt eqv) (hS : S.Lawful eqv)
    (heq : ∀ a b, eqv a b = decide (a = b)) (htotal : ∀ a b, lt a b = false → lt b a = false → a = b)
    {V : α → Prop} (hs : SS.Cut S c V s) (ops : List (SSOp α)) (hops : ∀ op ∈ ops, op.Valid) :
    ∃ plain, Sorted lt plain ∧ plain.Nodup ∧ (∀ v, v ∈ plain ↔ SS.contains S v s = true) ∧
      let spec := runHist (SetSpec.step (setOrder lt eqv)) ops plain
      let real := runHist (SS.step S c.api) (.symmetricDifferenceUpdate [] :: ops) s
      real.1 = .ok .none :: spec.1 ∧ SS.iter c.api real.2 = spec.2 :=
  SS.repair_of_load hc hS heq htotal (hs.keep hS (fun a b e hv => by rw [heq, decide_eq_true_iff] at e; exact e ▸ hv)).1.load_pos ops hops

end Sets

section Dicts
variable {κ ν : Type} {c : ListClass κ} {lt eqv : κ → κ → Bool} {s x : SD κ ν c.State}

theorem SD.left_trace (hc : c.Orders lt eqv) (he : IsEquiv eqv) (hs : SD.Reachable eqv c.api s) (op : SDOp κ ν) (hv : op.Valid) :
    Interrupt.SD.Left eqv c.api c.load op s (SD.step eqv c.api op s).2 s ∧
    Trace (SD.Alike c.Reindexed) (Interrupt.SD.Left eqv c.api c.load op s (SD.step eqv c.api op s).2)
      (Interrupt.SD.step eqv c.interrupted c.api op) (SD.step eqv c.api op) s := by
  obtain ⟨O, I, h1, -, h3, h4⟩ := hc.cuts
  have h : SD.Good c.api O eqv I := ⟨he, h1, h3⟩
  have hi := SD.reachable_inv h hs
  exact ⟨Interrupt.SD.left_start h _ hi op hv, Interrupt.SD.step_trace h h4 c.asks hi op hv⟩

/-- C72 for a SortedDict: the programs with the log, uninterrupted, do what those of the other models do. -/
theorem C72_dict_uninterrupted (hc : c.Orders lt eqv) (he : IsEquiv eqv) (hs : SD.Reachable eqv c.api s) (op : SDOp κ ν) (hv : op.Valid) :
    let real := (Interrupt.SD.step eqv c.interrupted c.api op).run s
    let model := SD.step eqv c.api op s
    real.1 = model.1 ∧ (∀ a, model.1 = .ok a → real.2 = model.2) ∧ real.2.dict = model.2.dict ∧ c.Reindexed model.2.list real.2.list := by
  obtain ⟨h0, h1⟩ := SD.left_trace hc he hs op hv
  obtain ⟨d, -, -, -, e1, e2, e3⟩ := h1 h0 []
  exact ⟨e1, e3, e2.1.symm, e2.2⟩

/-- C72: what iteration over the keys yields after a call was interrupted anywhere; see `SDOp.Aftermath`. -/
theorem C72_dict_aftermath (hc : c.Orders lt eqv) (he : IsEquiv eqv) (hs : SD.Reachable eqv c.api s) (op : SDOp κ ν) (hv : op.Valid)
    (hx : x ∈ (Interrupt.SD.step eqv c.interrupted c.api op).points s) :
    op.Aftermath (c.load s.list) (SD.iter c.api s) (SD.iter c.api (SD.step eqv c.api op s).2) (SD.iter c.api x) := by
  obtain ⟨h0, h1⟩ := SD.left_trace hc he hs op hv
  exact (h1.points h0 x hx).1

/-- C72: in which order the built-in dict and the sorted list of keys change, and how; see `SDOp.Progress`. -/
theorem C72_dict_progress (hc : c.Orders lt eqv) (he : IsEquiv eqv) (hs : SD.Reachable eqv c.api s) (op : SDOp κ ν) (hv : op.Valid)
    (hx : x ∈ (Interrupt.SD.step eqv c.interrupted c.api op).points s) :
    let after := (SD.step eqv c.api op s).2
    op.Progress (fun k d => PyDict.lookup eqv d k) eqv s.dict after.dict x.dict (SD.iter c.api s) (SD.iter c.api after) (SD.iter c.api x) := by
  obtain ⟨h0, h1⟩ := SD.left_trace hc he hs op hv
  exact (h1.points h0 x hx).2

/-- C72: wherever the call is interrupted, `sd.get(k)` is what it was before the call, or what it is after it; if the call is `update`, it is what it
was before or a value that the argument gives for `k`. -/
theorem C72_dict_members (hc : c.Orders lt eqv) (he : IsEquiv eqv) (hs : SD.Reachable eqv c.api s) (op : SDOp κ ν) (hv : op.Valid)
    (hx : x ∈ (Interrupt.SD.step eqv c.interrupted c.api op).points s) (k : κ) :
    SD.get eqv k x = SD.get eqv k s ∨ SD.get eqv k x = SD.get eqv k (SD.step eqv c.api op s).2 ∨
      ∃ arg, op = .update arg ∧ ∃ p ∈ arg.items, eqv p.1 k = true ∧ SD.get eqv k x = some p.2 := by
  have h := C72_dict_progress hc he hs op hv hx
  unfold SD.get
  cases op with
  | setitem | pop | popitem | viewDelInt =>
    rcases h with h | ⟨h, -⟩
    · rw [h]; exact .inl rfl
    · rw [h]; exact .inr (.inl rfl)
  | delitem | setdefault | clear =>
    rcases h with ⟨h, -⟩ | h
    · rw [h]; exact .inl rfl
    · rw [h]; exact .inr (.inl rfl)
  | viewDelSlice =>
    rcases h with h | ⟨-, h⟩
    · rw [h]; exact .inl rfl
    · exact (h k).imp id .inl
  | update arg => exact (h k).imp id fun h => .inr ⟨arg, rfl, h⟩
  | _ => rw [show x.dict = s.dict from h]; exact .inl rfl

/-- C72: an interrupted query, on any object whatsoever and with any comparisons, changes nothing but the positional index of the list. -/
theorem C72_dict_query (eqv : κ → κ → Bool) {IL : IListAPI c.State κ} {L : ListAPI c.State κ} (hL : c.Calls IL L) (s : SD κ ν c.State) {op : SDOp κ ν}
    (hq : op.isQuery = true) (hx : x ∈ (Interrupt.SD.step eqv IL L op).points s) : x.dict = s.dict ∧ c.Reindexed s.list x.list := by
  obtain ⟨h1, h2⟩ := (Interrupt.SD.query_trace hL.asks s hq).points ⟨rfl, hL.asks.refl _⟩ x hx
  exact ⟨h1.symm, h2⟩

/-- C72: after any number of interruptions and exceptions, the dict has no item, and iteration yields no key, that was not put in. -/
theorem C72_dict_values (he : IsEquiv eqv) {V : κ → ν → Prop} (hV : ∀ a b v, eqv a b = true → V a v → V b v) (h : SD.Cut eqv c V s) :
    (∀ k v, SD.get eqv k s = some v → V k v) ∧ ∀ k ∈ SD.iter c.api s, ∃ v, V k v := by
  obtain ⟨h1, h2, -⟩ := h.keep he hV
  refine ⟨fun k v hv => ?_, ?_⟩
  · unfold SD.get PyDict.lookup at hv
    obtain ⟨p, hp, rfl⟩ := Option.map_eq_some_iff.1 hv
    exact hV p.1 k p.2 (by simpa using List.find?_some hp) (h2 p (List.mem_of_find?_eq_some hp))
  · cases c with
    | plain E => exact h1.2.flatten
    | keyed K => exact h1.2.flatten

/-- `sd.clear()` repairs any dict with a positive load factor. -/
theorem SD.clear_of_load (hc : c.Orders lt eqv) (he : IsEquiv eqv)
    (hs : 1 ≤ c.load s.list) (ops : List (SDOp κ ν)) (hops : ∀ op ∈ ops, op.Valid) :
    let spec := runHist (DictSpec.step eqv (setOrder lt eqv)) ops []
    let real := runHist (SD.step eqv c.api) (.clear :: ops) s
    real.1 = .ok .none :: spec.1 ∧ real.2.dict = spec.2 ∧
      SD.iter c.api real.2 = DictSpec.sortedKeys (setOrder lt eqv) spec.2 := by
  obtain ⟨O, I, h1, rfl, h3, h4⟩ := ListClass.clear_sound hc
  have h : SD.Good c.api O eqv I := ⟨he, h1, h3⟩
  have hsame : O.same = eqv := by funext a b; exact h3 a b
  have hstep : DictSpec.step eqv (setOrder O.lt eqv) = DictSpec.step (ν := ν) eqv O := by
    funext op; exact (DictSpec.step_congr O rfl hsame op).symm
  obtain ⟨l', e, hl, h0⟩ := h4 s.list hs
  have hi : SD.Inv (ν := ν) c.api O eqv I { dict := [], list := l' } := ⟨hl, List.Pairwise.nil, h0⟩
  have e' : SD.step eqv c.api .clear s = (.ok .none, { dict := [], list := l' }) := by
    have : SD.clear c.api s = (.ok (), { dict := [], list := l' }) := by
      simp only [SD.clear, SD.onDict, Py.modify_bind, SD.onList, e]
    exact Py.bind_ok this
  obtain ⟨r1, r2, r3⟩ := Refines.hist ops (fun op ho => SD.step_refines h op (hops op ho)) hi
  intro spec real
  have hsp : spec = runHist (DictSpec.step eqv O) ops [] := by rw [← hstep]
  have hreal : real = (.ok .none :: (runHist (SD.step eqv c.api) ops { dict := [], list := l' }).1,
      (runHist (SD.step eqv c.api) ops { dict := [], list := l' }).2) := by
    simp only [real, runHist, e']
  rw [hsp, hreal]
  refine ⟨by rw [r1], r2, ?_⟩
  show SD.iter c.api (runHist (SD.step eqv c.api) ops _).2 = _
  rw [SD.iter, r3.iter, r2]
  rfl

/-- C72: after any number of interruptions and exceptions, `sd.clear()` returns, and the answers of all calls that follow, with keys that compare
well, are those of the plain dict `{}`. -/
theorem C72_dict_clear (hc : c.Orders lt eqv) (he : IsEquiv eqv) {V : κ → ν → Prop} (hV : ∀ a b v, eqv a b = true → V a v → V b v)
    (hs : SD.Cut eqv c V s) (ops : List (SDOp κ ν)) (hops : ∀ op ∈ ops, op.Valid) :
    let spec := runHist (DictSpec.step eqv (setOrder lt eqv)) ops []
    let real := runHist (SD.step eqv c.api) (.clear :: ops) s
    real.1 = .ok .none :: spec.1 ∧ real.2.dict = spec.2 ∧
      SD.iter c.api real.2 = DictSpec.sortedKeys (setOrder lt eqv) spec.2 :=
  SD.clear_of_load hc he (hs.keep he hV).1.load_pos ops hops

/-- `sd.update(other)` with a large `other` repairs any dict with a positive load factor. -/
theorem SD.repair_of_load (hc : c.Orders lt eqv) (he : IsEquiv eqv) (hl : 1 ≤ c.load s.list) (hk : PyDict.Keyed eqv s.dict)
    (h0 : s.dict ≠ []) (other : List (κ × ν)) (hbig : SD.length s < 10 * other.length)
    (ops : List (SDOp κ ν)) (hops : ∀ op ∈ ops, op.Valid) :
    let spec := runHist (DictSpec.step eqv (setOrder lt eqv)) ops (PyDict.update eqv s.dict other)
    let real := runHist (SD.step eqv c.api) (.update (.dict other) :: ops) s
    real.1 = .ok .none :: spec.1 ∧ real.2.dict = spec.2 ∧
      SD.iter c.api real.2 = DictSpec.sortedKeys (setOrder lt eqv) spec.2 := by
  obtain ⟨O, I, h1, rfl, h3, h4⟩ := ListClass.clear_sound hc
  have h : SD.Good c.api O eqv I := ⟨he, h1, h3⟩
  have hsame : O.same = eqv := by funext a b; exact h3 a b
  have hstep : DictSpec.step eqv (setOrder O.lt eqv) = DictSpec.step (ν := ν) eqv O := by
    funext op; exact (DictSpec.step_congr O rfl hsame op).symm
  obtain ⟨l', e, hl, hz⟩ := h4 s.list hl
  let d := PyDict.update eqv s.dict other
  obtain ⟨l2, e2, g1, g2⟩ := SD.onList_run (s := ({ dict := d, list := l' } : SD κ ν c.State)) (h.list.update (PyDict.keys d)) hl rfl
  have g1 : c.api.iter l2 = Spec.insertAll O [] (PyDict.keys d) := by rw [g1, hz]
  have hi : SD.Inv (ν := ν) c.api O eqv I { dict := d, list := l2 } := ⟨g2, hk.update _, g1⟩
  have e' : SD.step eqv c.api (.update (.dict other)) s = (.ok .none, { dict := d, list := l2 }) := by
    have e3 : SD.update eqv c.api (.dict other) s = (.ok (), { dict := d, list := l2 }) := by
      have hz : ¬ s.dict.length = 0 := fun e => h0 (List.length_eq_zero_iff.1 e)
      unfold SD.update
      simp only [Py.get_bind, if_neg hz, SD.pairsOf, Py.lift_ok_bind]
      rw [if_pos (show 10 * other.length > s.dict.length from hbig)]
      have e4 : SD.onList c.api.clear ({ s with dict := d } : SD κ ν c.State) = (.ok (), { dict := d, list := l' }) := by
        simp only [SD.onList, e]
      have e5 : SD.dictUpdate eqv (.dict other) s = (.ok (), ({ s with dict := d } : SD κ ν c.State)) := rfl
      rw [Py.bind_ok e5, Py.bind_ok e4, Py.get_bind]
      exact e2
    exact Py.bind_ok e3
  obtain ⟨r1, r2, r3⟩ := Refines.hist ops (fun op ho => SD.step_refines h op (hops op ho)) hi
  intro spec real
  have hsp : spec = runHist (DictSpec.step eqv O) ops d := by rw [← hstep]
  have hreal : real = (.ok .none :: (runHist (SD.step eqv c.api) ops { dict := d, list := l2 }).1,
      (runHist (SD.step eqv c.api) ops { dict := d, list := l2 }).2) := by
    simp only [real, runHist, e']
  rw [hsp, hreal]
  refine ⟨by rw [r1], r2, ?_⟩
  show SD.iter c.api (runHist (SD.step eqv c.api) ops _).2 = _
  rw [SD.iter, r3.iter, r2]
  rfl

/-- C72: after any number of interruptions and exceptions, `sd.update(other)` repairs the dict, and loses no item, if the built-in dict is not empty
and `other` is a dict with more than a tenth of its size, such as `dict.copy(sd)`: from then on it is the plain dict updated with `other`. -/
theorem C72_dict_repair (hc : c.Orders lt eqv) (he : IsEquiv eqv) {V : κ → ν → Prop} (hV : ∀ a b v, eqv a b = true → V a v → V b v)
    (hs : SD.Cut eqv c V s) (h0 : s.dict ≠ []) (other : List (κ × ν)) (hbig : SD.length s < 10 * other.length)
    (ops : List (SDOp κ ν)) (hops : ∀ op ∈ ops, op.Valid) :
    let spec := runHist (DictSpec.step eqv (setOrder lt eqv)) ops (PyDict.update eqv s.dict other)
    let real := runHist (SD.step eqv c.api) (.update (.dict other) :: ops) s
    real.1 = .ok .none :: spec.1 ∧ real.2.dict = spec.2 ∧
      SD.iter c.api real.2 = DictSpec.sortedKeys (setOrder lt eqv) spec.2 :=
  SD.repair_of_load hc he (hs.keep he hV).1.load_pos (hs.keep he hV).2.2 h0 other hbig ops hops

end Dicts

/-! ## Sets and dicts that were interrupted -/

namespace Demo

deriving instance DecidableEq for SS
deriving instance DecidableEq for SD

abbrev IntSet := SS { l : List Int // Distinct (equiv ilt) l } (St Int Int)

theorem intClass_calls : intClass.Calls (Interrupt.SL.api intEnv) (SL.api intEnv) := ⟨intEnv, intEnv_sane, rfl, rfl⟩

/-- `SortedSet()` -/
def cutSet0 : IntSet := { set := (iset false).empty, list := (SL.update intEnv [] St.empty).2 }

/-- `ss = SortedSet([5, 1, 3])` -/
def cutSet : IntSet := ((Interrupt.SS.step (iset false) intClass.interrupted intClass.api (.update [[5, 1, 3]])).run cutSet0).2

theorem cutSet_reachable : SS.Reachable (iset false) intClass.api cutSet := .new (xs := some [5, 1, 3]) (by rfl)

theorem cutSet_cut : SS.Cut (iset false) intClass (fun v : Int => v ∈ [1, 3, 5, 4]) cutSet :=
  .done (.update [[5, 1, 3]]) intClass_calls trivial (by decide) (.new intClass_calls (by rfl)) (by decide +kernel)

/-- The objects that `ss.add(4)` passes through: the built-in set and the list. -/
example : ((Interrupt.SS.step (iset false) intClass.interrupted intClass.api (.add 4)).points cutSet).map (fun x => (x.set.1, Core.iter x.list)) =
    [([5, 1, 3], [1, 3, 5]), ([5, 1, 3, 4], [1, 3, 5]), ([5, 1, 3, 4], [1, 3, 4, 5]), ([5, 1, 3, 4], [1, 3, 4, 5])] := by decide +kernel

/-- `ss.add(4)`, interrupted between `_set.add` and `_list.add` -/
def cutSetAdd : IntSet :=
  ((Interrupt.SS.step (iset false) intClass.interrupted intClass.api (.add 4)).points cutSet)[1]'(by decide +kernel)

theorem cutSetAdd_mem : cutSetAdd ∈ (Interrupt.SS.step (iset false) intClass.interrupted intClass.api (.add 4)).points cutSet := List.getElem_mem _

/-- `4 in ss`, but iteration does not yield it; repeating `ss.add(4)` does not help; `ss.remove(4)` is a ValueError. -/
example : (runHist (SS.step (iset false) intClass.api) [.contains 4, .len, .iter, .add 4, .iter, .remove 4] cutSetAdd).1 =
    [.ok (.bool true), .ok (.int 4), .ok (.vals [1, 3, 5]), .ok .none, .ok (.vals [1, 3, 5]), .error .valueError] := by decide +kernel

/-- `ss.symmetric_difference_update([])` helps. -/
example : (runHist (SS.step (iset false) intClass.api) [.symmetricDifferenceUpdate [], .iter, .remove 4, .len] cutSetAdd).1 =
    [.ok .none, .ok (.vals [1, 3, 4, 5]), .ok .none, .ok (.int 3)] := by decide +kernel

theorem cutSetAdd_cut : SS.Cut (iset false) intClass (fun v : Int => v ∈ [1, 3, 5, 4]) cutSetAdd :=
  .cut (.add 4) intClass_calls trivial (by decide) cutSet_cut cutSetAdd_mem

example := C72_set_uninterrupted intClass_orders (iset_lawful false) cutSet_reachable (.add 4) trivial
example := C72_set_aftermath intClass_orders (iset_lawful false) cutSet_reachable (.add 4) trivial cutSetAdd_mem
example := C72_set_progress intClass_orders (iset_lawful false) cutSet_reachable (.add 4) trivial cutSetAdd_mem
example := C72_set_members intClass_orders (iset_lawful false) cutSet_reachable (.add 4) trivial cutSetAdd_mem 4
example := C72_set_values (iset_lawful false) (fun a b e h => by rw [ieq_decide, decide_eq_true_iff] at e; exact e ▸ h) cutSetAdd_cut
example := C72_set_clear intClass_orders (iset_lawful false) ieq_decide ilt_total cutSetAdd_cut [.add 3, .pop 0, .len] (by simp [SSOp.Valid])
example := C72_set_repair intClass_orders (iset_lawful false) ieq_decide ilt_total cutSetAdd_cut [.add 3, .pop 0, .len] (by simp [SSOp.Valid])

/-- `ss -= [1, 5]`, interrupted after `_list.clear()`: the set has its members, the list is empty. -/
example : ([3], []) ∈ ((Interrupt.SS.step (iset false) intClass.interrupted intClass.api (.differenceUpdate [[1, 5]])).points cutSet).map
    (fun x => (x.set.1, Core.iter x.list)) := by decide +kernel

/-- `ss._reset(2)`: the list has two sublists. -/
def cutSet2 : IntSet := ((Interrupt.SS.step (iset false) intClass.interrupted intClass.api (.reset 2)).run cutSet).2

/-- A query that is interrupted while the list builds its positional index. -/
def cutSetGet : IntSet :=
  ((Interrupt.SS.step (iset false) intClass.interrupted intClass.api (.bisectLeft 5)).points cutSet2)[1]'(by decide +kernel)

theorem cutSetGet_mem : cutSetGet ∈ (Interrupt.SS.step (iset false) intClass.interrupted intClass.api (.bisectLeft 5)).points cutSet2 := List.getElem_mem _

example : cutSetGet ≠ cutSet2 := by decide +kernel

example := C72_set_query (c := intClass) (iset false) intClass_calls cutSet2 (op := .bisectLeft 5) rfl cutSetGet_mem

abbrev IntDict := SD Int String (St Int Int)

/-- `SortedDict()` -/
def cutDict0 : IntDict := { dict := [], list := St.empty }

/-- `sd = SortedDict({5: 'e', 1: 'a'})` -/
def cutDict : IntDict := ((Interrupt.SD.step (equiv ilt) intClass.interrupted intClass.api (.update (.dict [(5, "e"), (1, "a")]))).run cutDict0).2

theorem cutDict_reachable : SD.Reachable (equiv ilt) intClass.api cutDict := .new (arg := .dict [(5, "e"), (1, "a")]) rfl (by rfl)

/-- The items that are put in. -/
def CutItems (k : Int) (v : String) : Prop := (k, v) ∈ [(5, "e"), (1, "a"), (3, "c")]

theorem cutDict_cut : SD.Cut (equiv ilt) intClass CutItems cutDict :=
  .done (.update (.dict [(5, "e"), (1, "a")])) intClass_calls nofun (by simp [SDOp.inserted, DictArg.items, CutItems]) (.new intClass_calls (by rfl))
    (by decide +kernel)

/-- The objects that `sd[3] = 'c'` passes through: the built-in dict and the list. -/
example : ((Interrupt.SD.step (equiv ilt) intClass.interrupted intClass.api (.setitem 3 "c")).points cutDict).map
      (fun x => (x.dict.map Prod.fst, Core.iter x.list)) =
    [([5, 1], [1, 5]), ([5, 1], [1, 3, 5]), ([5, 1], [1, 3, 5]), ([5, 1, 3], [1, 3, 5])] := by decide +kernel

/-- `sd[3] = 'c'`, interrupted between `_list.add` and `dict.__setitem__` -/
def cutDictSet : IntDict :=
  ((Interrupt.SD.step (equiv ilt) intClass.interrupted intClass.api (.setitem 3 "c")).points cutDict)[2]'(by decide +kernel)

theorem cutDictSet_mem : cutDictSet ∈ (Interrupt.SD.step (equiv ilt) intClass.interrupted intClass.api (.setitem 3 "c")).points cutDict :=
  List.getElem_mem _

/-- Iteration yields `3`, but `3 not in sd`; `sd.items()` is a KeyError; repeating `sd[3] = 'c'` puts the key in twice. -/
example : (runHist (SD.step (equiv ilt) intClass.api) [.contains 3, .iter, .items, .setitem 3 "c", .iter, .len] cutDictSet).1 =
    [.ok (.bool false), .ok (.keys [1, 3, 5]), .error .keyError, .ok .none, .ok (.keys [1, 3, 3, 5]), .ok (.int 3)] := by decide +kernel

/-- `sd.update({5: 'e'})` helps. -/
example : (runHist (SD.step (equiv ilt) intClass.api) [.update (.dict [(5, "e")]), .iter, .setitem 3 "c", .iter, .len] cutDictSet).1 =
    [.ok .none, .ok (.keys [1, 5]), .ok .none, .ok (.keys [1, 3, 5]), .ok (.int 3)] := by decide +kernel

theorem cutDictSet_cut : SD.Cut (equiv ilt) intClass CutItems cutDictSet :=
  .cut (.setitem 3 "c") intClass_calls nofun (by simp [SDOp.inserted, CutItems]) cutDict_cut cutDictSet_mem

theorem cutItems_same (a b : Int) (v : String) (e : equiv ilt a b = true) (h : CutItems a v) : CutItems b v := by
  rw [ieq_decide, decide_eq_true_iff] at e; exact e ▸ h

example := C72_dict_uninterrupted intClass_orders ieqv_equiv cutDict_reachable (.setitem 3 "c") trivial
example := C72_dict_aftermath intClass_orders ieqv_equiv cutDict_reachable (.setitem 3 "c") trivial cutDictSet_mem
example := C72_dict_progress intClass_orders ieqv_equiv cutDict_reachable (.setitem 3 "c") trivial cutDictSet_mem
example := C72_dict_members intClass_orders ieqv_equiv cutDict_reachable (.setitem 3 "c") trivial cutDictSet_mem 3
example := C72_dict_values ieqv_equiv cutItems_same cutDictSet_cut
example := C72_dict_clear intClass_orders ieqv_equiv cutItems_same cutDictSet_cut [.setitem 3 "c", .popitem 0] (by simp [SDOp.Valid])
example := C72_dict_repair intClass_orders ieqv_equiv cutItems_same cutDictSet_cut (by decide +kernel) [(5, "e")] (by decide +kernel)
  [.setitem 3 "c", .popitem 0] (by simp [SDOp.Valid])

/-- `sd._reset(1)`: the list has two sublists. -/
def cutDict2 : IntDict := ((Interrupt.SD.step (equiv ilt) intClass.interrupted intClass.api (.reset 1)).run cutDict).2

/-- A query that is interrupted while the list builds its positional index. -/
def cutDictGet : IntDict :=
  ((Interrupt.SD.step (equiv ilt) intClass.interrupted intClass.api (.bisectLeft 5)).points cutDict2)[1]'(by decide +kernel)

theorem cutDictGet_mem : cutDictGet ∈ (Interrupt.SD.step (equiv ilt) intClass.interrupted intClass.api (.bisectLeft 5)).points cutDict2 := List.getElem_mem _

example : cutDictGet ≠ cutDict2 := by decide +kernel

example := C72_dict_query (c := intClass) (equiv ilt) intClass_calls cutDict2 (op := .bisectLeft 5) rfl cutDictGet_mem

end Demo
end Verif
