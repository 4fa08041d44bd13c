import Verif.Proofs.Writers
import Verif.Props.Threads
import Verif.Moments
/-!
# C82: a thread that changes a list while others query it

One thread changes a list, other threads query it (`Verif/Model/Writers.lean`).  The documentation promises nothing about this; the theorems say what can be relied on all
the same, for every schedule.

* If the thread only uses `add`, `discard`, `remove`, `clear` and queries without positions (`Op.byValue`), and the others make any queries whatsoever: the values are those
  of the plain list, and so are the answers, except that a call may raise IndexError (after it has changed the values).  The length and the positional index may be wrong for
  good (the examples at the end); `_reset` repairs them.
* If the others only use `list(sl)` and `v in sl`: the thread that changes the list, with whatever calls, notices nothing, and the others see what an interrupted call of it would
  leave behind (`Moment`, `Op.Aftermath`).  In particular `v in sl` may be False although `v` is in the list before and after, but it is True only for a value that is there.
-/

namespace Verif
variable {α κ : Type}

section List
variable {E : Env α} {s : St α α}

/-- C82: a call that runs alone is the call of the other models. -/
theorem C82_list_alone {lt : α → α → Bool} (hE : E.Lawful lt) (hs : (SL.api E).Reachable s) {op : Op α} (hb : op.byValue = true) :
    (Threads.SL.change E op).alone s = (SL.api E).step op s := by
  have hI := (SL.api_lawful hE).reachable hs
  have key : ∀ {p : Prog (St α α) (Out α)}, Does p ((SL.api E).step op) s → op.Valid →
      (∀ e, (Spec.step (Spec.Order.ofValues lt) op (Core.iter s)).1 = .error e → e = .valueError) → p.alone s = (SL.api E).step op s := by
    intro p hp hv he
    refine hp ?_
    have h1 := ((SL.api_lawful hE).step op hv s hI).1
    rw [h1]
    rcases e : (Spec.step (Spec.Order.ofValues lt) op (Core.iter s)).1 with er | a
    · exact .inr (by have := he er e; subst this; exact e)
    · exact .inl ⟨a, e⟩
  have query : op.isQuery = true → Threads.SL.change E op = Threads.SL.query E op → (Threads.SL.change E op).alone s = (SL.api E).step op s :=
    fun hq e => by rw [e]; exact C71_list_alone E hq s
  cases op with
  | add v => exact key ((Threads.SL.add_does v s).out _) trivial (fun e h => nomatch h)
  | discard v => exact key ((Threads.SL.discard_does v s).out _) trivial (fun e h => nomatch h)
  | remove v => exact key ((Threads.SL.remove_does v s).out _) trivial fun e h => Spec.remove_error h
  | clear => rfl
  | _ => first | exact query rfl rfl | cases hb

/-- C82: the values are right, whatever the schedule and whatever the other threads ask. -/
theorem C82_list_values {lt : α → α → Bool} (hE : E.Lawful lt) (hs : (SL.api E).Reachable s) (ops : List (Op α)) (hb : ∀ op ∈ ops, op.byValue = true)
    (threads : List (List (Op α))) (hq : ∀ qs ∈ threads, ∀ q ∈ qs, q.isQuery = true) (schedule : List Nat) :
    let pool := (Pool.mk s (Prog.calls (Threads.SL.change E) ops :: threads.map (Prog.calls (Threads.SL.query E)))).run schedule
    let spec := runHist (Spec.step (Spec.Order.ofValues lt)) ops (Core.iter s)
    ∀ x, pool.threads[0]? = some (.ret x) → Core.iter pool.shared = spec.2 ∧
      ∃ answers, x = .ok answers ∧ answers.length = ops.length ∧
        ∀ (j : Nat) a b, answers[j]? = some a → spec.1[j]? = some b → a = b ∨ a = .error .indexError := by
  have hI := (SL.api_lawful hE).reachable hs
  have hv : ∀ op ∈ ops, op.Valid := fun op ho => Op.byValue.valid (hb op ho)
  have h := Follows.calls (I := Inv id lt false) (fun g hg => hg.unindexed) (step := Threads.SL.change E) ops
    (fun op ho g hg h0 => Threads.SL.change_follows hg h0 (hb op ho)) (fun op ho => (SL.api_lawful hE).step op (hv op ho)) s hI
  obtain ⟨w', rest', s', g', e, hR, hw⟩ := Pool.sim (R0 := Reindexed) Reindexed.refl
    (fun s s' g h hs => by obtain ⟨i, o, rfl⟩ := h; exact hs) _ (threads.map (Prog.calls (Threads.SL.query E))) s s (SameValues.refl s) h
    (fun m hm => by
      obtain ⟨qs, hqs, rfl⟩ := List.mem_map.1 hm
      exact Prog.Writes.calls qs fun q hq' => (Threads.SL.query_reader E (hq qs hqs q hq')).writes) schedule
  intro pool spec x hx
  have hp : pool = ⟨s', w' :: rest'⟩ := e
  rw [hp] at hx ⊢
  cases hx
  refine ⟨?_, hw.2⟩
  rw [show spec.2 = _ from hw.1.symm]
  show s'.lists.flatten = g'.lists.flatten
  rw [hR.2.1]

/-- C82: then `_reset` repairs the list: it is the plain list again. -/
theorem C82_list_reset {lt : α → α → Bool} (hE : E.Lawful lt) (hs : (SL.api E).Reachable s) (ops : List (Op α)) (hb : ∀ op ∈ ops, op.byValue = true)
    (threads : List (List (Op α))) (hq : ∀ qs ∈ threads, ∀ q ∈ qs, q.isQuery = true) (schedule : List Nat) {load : Nat} (hl : 1 ≤ load)
    (later : List (Op α)) (hv : ∀ op ∈ later, op.Valid) :
    let pool := (Pool.mk s (Prog.calls (Threads.SL.change E) ops :: threads.map (Prog.calls (Threads.SL.query E)))).run schedule
    (∃ x, pool.threads[0]? = some (.ret x)) →
    let spec := runHist (Spec.step (Spec.Order.ofValues lt)) later (runHist (Spec.step (Spec.Order.ofValues lt)) ops (Core.iter s)).2
    let real := runHist (SL.api E).step (.reset load :: later) pool.shared
    real.1 = .ok .none :: spec.1 ∧ Core.iter real.2 = spec.2 := by
  intro pool ⟨x, hx⟩
  have h := (C82_list_values hE hs ops hb threads hq schedule x hx).1
  obtain ⟨plain, h1, h2⟩ := C70_list_reset hE pool.shared hl later hv
  have hI := (SL.api_lawful hE).hist ops (fun op ho => Op.byValue.valid (hb op ho)) ((SL.api_lawful hE).reachable hs)
  have hS : Sorted lt (runHist (Spec.step (Spec.Order.ofValues lt)) ops (Core.iter s)).2 := by
    rw [← show _ = (runHist (Spec.step (Spec.Order.ofValues lt)) ops (Core.iter s)).2 from hI.2.1]
    exact hI.2.2.sorted
  rw [h] at h1
  rw [h1.unique hE.order (.self hS)] at h2
  exact h2

/-- C82: one thread changes the list with any calls that return, the others use only `list(sl)` and `v in sl`.  The thread notices nothing of the others, and what they
find is a `Moment` of its calls; `v in sl` is True only if a value equivalent to `v` is there. -/
theorem C82_list_glances {lt : α → α → Bool} (hE : E.Lawful lt) (hs : (SL.api E).Reachable s) (ops : List (Op α)) (hv : ∀ op ∈ ops, op.Valid)
    (hok : ∀ a ∈ (runHist (Spec.step (Spec.Order.ofValues lt)) ops (Core.iter s)).1, ∃ o, a = .ok o)
    (threads : List (List (Op α))) (hq : ∀ qs ∈ threads, ∀ q ∈ qs, q = .iter ∨ ∃ v, q = .contains v) (schedule : List Nat) :
    let step := Spec.step (Spec.Order.ofValues lt)
    let moment := Moment step (fun i => (runHist (SL.api E).step (ops.take i) s).2.load) ops (Core.iter s)
    let pool := (Pool.mk s (Prog.calls (fun op => Prog.replay (Interrupt.SL.step E op)) ops :: threads.map (Prog.calls (Threads.SL.glance E)))).run schedule
    moment (Core.iter pool.shared) ∧
    (∀ x, pool.threads[0]? = some (.ret x) → x = .ok (runHist step ops (Core.iter s)).1 ∧ pool.shared = (runHist (SL.api E).step ops s).2) ∧
    ∀ (i : Nat) qs x, threads[i]? = some qs → pool.threads[i + 1]? = some (.ret x) → ∃ answers, x = .ok answers ∧ answers.length = qs.length ∧
      ∀ (j : Nat) a, answers[j]? = some a →
        (qs[j]? = some .iter → ∃ l, a = .ok (.vals l) ∧ moment l) ∧
        ∀ v, qs[j]? = some (.contains v) → ∀ b, a = .ok b → ∃ found, b = .bool found ∧
          (found = true → ∃ l, moment l ∧ ∃ y ∈ l, lt y v = false ∧ lt v y = false) := by
  intro step moment pool
  have hist : ∀ cs : List (Op α), (∀ c ∈ cs, c.Valid) → (runHist (SL.api E).step cs s).1 = (runHist step cs (Core.iter s)).1 ∧
      Core.iter (runHist (SL.api E).step cs s).2 = (runHist step cs (Core.iter s)).2 ∧ _ :=
    fun cs hc => (SL.api_lawful hE).hist cs hc ((SL.api_lawful hE).reachable hs)
  have hok' : ∀ a ∈ (runHist (SL.api E).step ops s).1, ∃ o, a = .ok o := by rw [(hist ops hv).1]; exact hok
  have hreal : ∀ op ∈ ops, ∀ s, (SL.api E).Reachable s → ((Interrupt.SL.step E op).run s).1 = ((SL.api E).step op s).1 ∧
      (∀ a, ((SL.api E).step op s).1 = .ok a → ((Interrupt.SL.step E op).run s).2 = ((SL.api E).step op s).2) ∧ (SL.api E).Reachable ((SL.api E).step op s).2 := by
    intro op ho s hs
    obtain ⟨h1, h2, -⟩ := C70_list_uninterrupted (SL.lawful_sane hE) (SL.wild_of_reachable hE hs) op (hv op ho)
    exact ⟨h1, h2, hs.step op (hv op ho)⟩
  have hreach : ∀ i, (SL.api E).Reachable (runHist (SL.api E).step (ops.take i) s).2 := by
    have : ∀ (cs : List (Op α)) (s : St α α), (∀ c ∈ cs, c.Valid) → (SL.api E).Reachable s → (SL.api E).Reachable (runHist (SL.api E).step cs s).2 := by
      intro cs
      induction cs with
      | nil => exact fun s _ hs => hs
      | cons c cs ih => exact fun s hc hs => ih _ (fun c h => hc c (by simp [h])) (hs.step c (hc c (by simp)))
    exact fun i => this _ s (fun c hc => hv c (List.mem_of_mem_take hc)) hs
  have hm : ∀ t ∈ (Prog.calls (fun op => Prog.replay (Interrupt.SL.step E op)) ops).passes s, moment (Core.iter t) := by
    intro t ht
    rcases Prog.replay_passes ops s hs hreal hok' ht with rfl | ⟨i, op, e, ht⟩
    · exact .inl (hist ops hv).2.1
    · refine .inr ⟨i, op, e, ?_⟩
      have ho := List.mem_of_getElem? e
      have h1 := C70_list_aftermath (SL.lawful_sane hE) (SL.wild_of_reachable hE (hreach i)) op (hv op ho) ht
      have e1 := (hist (ops.take i) fun c hc => hv c (List.mem_of_mem_take hc)).2.1
      have e2 := (hist (ops.take (i + 1)) fun c hc => hv c (List.mem_of_mem_take hc)).2.1
      rw [runHist_succ _ ops s e] at e2
      rw [← e1, ← e2]
      exact h1
  have hw : ∀ q, (q = .iter ∨ ∃ v, q = .contains v) → (Threads.SL.glance E q).Watch (fun t => moment (Core.iter t)) fun a =>
      (q = .iter → ∃ l, a = .ok (.vals l) ∧ moment l) ∧ ∀ v, q = .contains v → ∀ b, a = .ok b → ∃ found, b = .bool found ∧
          (found = true → ∃ l, moment l ∧ ∃ y ∈ l, lt y v = false ∧ lt v y = false) := by
    rintro q (rfl | ⟨v, rfl⟩)
    · intro t ht
      exact ⟨fun _ => ⟨Core.iter t, rfl, ht⟩, fun v h => nomatch h⟩
    · refine (Threads.SL.contains_watch hE v).mono (fun _ h => h) fun a ha => ⟨(fun h => nomatch h), fun v' hv' b hb => ?_⟩
      cases hv'
      obtain ⟨found, h1, h2⟩ := ha b hb
      exact ⟨found, h1, fun h => by obtain ⟨t, h3, h4⟩ := h2 h; exact ⟨_, h3, h4⟩⟩
  obtain ⟨w', rest', s', e, h1, h2⟩ := Pool.silent (Prog.calls (fun op => Prog.replay (Interrupt.SL.step E op)) ops)
    (threads.map (Prog.calls (Threads.SL.glance E))) s (fun m hm => by
      obtain ⟨qs, hqs, rfl⟩ := List.mem_map.1 hm
      exact (Prog.Watch.calls (I := fun _ => True) (P := fun _ _ => True) qs fun q hq' => by
        rcases hq qs hqs q hq' with rfl | ⟨v, rfl⟩
        · exact fun _ _ => trivial
        · exact (Threads.SL.contains_watch hE v).mono (fun _ h => h) fun _ _ => trivial).silent) schedule
  have hp : pool = ⟨s', w' :: rest'⟩ := e
  refine ⟨?_, ?_, ?_⟩
  · rw [hp]; exact hm _ h2
  · intro x hx
    rw [hp] at hx ⊢
    cases hx
    rw [Prog.replay_all ops s hs hreal hok'] at h1
    obtain ⟨k1, k2⟩ := Prod.mk.inj h1
    exact ⟨by rw [k1, (hist ops hv).1], k2⟩
  · intro i qs x eq hx
    have := Pool.watch (P := fun i r => ∀ qs, threads[i]? = some qs → ∃ xs, r = .ok xs ∧ xs.length = qs.length ∧ ∀ (j : Nat) c x, qs[j]? = some c → xs[j]? = some x →
        (c = .iter → ∃ l, x = .ok (.vals l) ∧ moment l) ∧ ∀ v, c = .contains v → ∀ b, x = .ok b → ∃ found, b = .bool found ∧
          (found = true → ∃ l, moment l ∧ ∃ y ∈ l, lt y v = false ∧ lt v y = false))
      (Prog.calls (fun op => Prog.replay (Interrupt.SL.step E op)) ops) (threads.map (Prog.calls (Threads.SL.glance E))) s hm (fun i m e => by
        rw [List.getElem?_map] at e
        rcases e' : threads[i]? with _ | qs
        · rw [e'] at e; cases e
        · rw [e'] at e
          cases e
          refine (Prog.Watch.calls qs fun q hq' => hw q (hq qs (List.mem_of_getElem? e') q hq')).mono (fun _ h => h) fun r hr qs' e2 => ?_
          cases e2; exact hr) schedule i _ hx qs eq
    obtain ⟨xs, k1, k2, k3⟩ := this
    refine ⟨xs, k1, k2, fun j a ha => ?_⟩
    rcases ej : qs[j]? with _ | c
    · exact ⟨(fun h => nomatch h), fun v h => nomatch h⟩
    · obtain ⟨m1, m2⟩ := k3 j c a ej ha
      exact ⟨fun h => m1 (Option.some.inj h), fun v h => m2 v (Option.some.inj h)⟩

end List

section KeyList
variable {K : KEnv α κ} {s : St α κ}

/-- C82 for a SortedKeyList: a call that runs alone is the call of the other models. -/
theorem C82_key_list_alone {key : α → κ} {klt : κ → κ → Bool} {veq : α → α → Bool} (hK : K.Lawful key klt veq) (hs : SKL.Reachable K s) {op : KOp α κ} (hb : op.byValue = true) :
    (Threads.SKL.change K op).alone s = (SKL.kstep K) op s := by
  have hI := SKL.reachable_inv hK hs
  have does : ∀ {p : Prog (St α κ) (Out α)}, Does p ((SKL.kstep K) op) s → op.Valid →
      (∀ e, (Spec.kstep key klt (Spec.Order.ofKey key klt veq K.vcmp) op (Core.iter s)).1 = .error e → e = .valueError) → p.alone s = (SKL.kstep K) op s := by
    intro p hp hv he
    refine hp ?_
    have h1 := (SKL.kstep_refines hK op hv s hI).1
    rw [h1]
    rcases e : (Spec.kstep key klt (Spec.Order.ofKey key klt veq K.vcmp) op (Core.iter s)).1 with er | a
    · exact .inr (by rw [he er e])
    · exact .inl ⟨a, rfl⟩
  have query : op.isQuery = true → Threads.SKL.change K op = Threads.SKL.query K op → (Threads.SKL.change K op).alone s = SKL.kstep K op s :=
    fun hq e => by rw [e]; exact C71_key_list_alone K hq s
  cases op with
  | op o =>
    cases o with
    | add v => exact does ((Threads.SKL.add_does v s).out _) trivial (fun e h => nomatch h)
    | discard v => exact does ((Threads.SKL.discard_does v s).out _) trivial (fun e h => nomatch h)
    | remove v => exact does ((Threads.SKL.remove_does v s).out _) trivial fun e h => Spec.remove_error h
    | clear => rfl
    | _ => first | exact query rfl rfl | cases hb
  | _ => first | exact query rfl rfl | cases hb

/-- C82 for a SortedKeyList: the values are right, whatever the schedule and whatever the other threads ask. -/
theorem C82_key_list_values {key : α → κ} {klt : κ → κ → Bool} {veq : α → α → Bool} (hK : K.Lawful key klt veq) (hs : SKL.Reachable K s) (ops : List (KOp α κ)) (hb : ∀ op ∈ ops, op.byValue = true)
    (threads : List (List (KOp α κ))) (hq : ∀ qs ∈ threads, ∀ q ∈ qs, q.isQuery = true) (schedule : List Nat) :
    let pool := (Pool.mk s (Prog.calls (Threads.SKL.change K) ops :: threads.map (Prog.calls (Threads.SKL.query K)))).run schedule
    let spec := runHist (Spec.kstep key klt (Spec.Order.ofKey key klt veq K.vcmp)) ops (Core.iter s)
    ∀ x, pool.threads[0]? = some (.ret x) → Core.iter pool.shared = spec.2 ∧
      ∃ answers, x = .ok answers ∧ answers.length = ops.length ∧
        ∀ (j : Nat) a b, answers[j]? = some a → spec.1[j]? = some b → a = b ∨ a = .error .indexError := by
  have hI := SKL.reachable_inv hK hs
  have hv : ∀ op ∈ ops, op.Valid := fun op ho => KOp.byValue.valid (hb op ho)
  have h := Follows.calls (I := Inv key klt true) (fun g hg => hg.unindexed) (step := Threads.SKL.change K) ops
    (fun op ho g hg h0 => Threads.SKL.change_follows hg h0 (hb op ho)) (fun op ho => SKL.kstep_refines hK op (hv op ho)) s hI
  obtain ⟨w', rest', s', g', e, hR, hw⟩ := Pool.sim (R0 := Reindexed) Reindexed.refl
    (fun s s' g h hs => by obtain ⟨i, o, rfl⟩ := h; exact hs) _ (threads.map (Prog.calls (Threads.SKL.query K))) s s (SameValues.refl s) h
    (fun m hm => by
      obtain ⟨qs, hqs, rfl⟩ := List.mem_map.1 hm
      exact Prog.Writes.calls qs fun q hq' => (Threads.SKL.query_reader K (hq qs hqs q hq')).writes) schedule
  intro pool spec x hx
  have hp : pool = ⟨s', w' :: rest'⟩ := e
  rw [hp] at hx ⊢
  cases hx
  refine ⟨?_, hw.2⟩
  rw [show spec.2 = _ from hw.1.symm]
  show s'.lists.flatten = g'.lists.flatten
  rw [hR.2.1]

/-- C82 for a SortedKeyList: then `_reset` repairs the list: it is the plain list again. -/
theorem C82_key_list_reset {key : α → κ} {klt : κ → κ → Bool} {veq : α → α → Bool} (hK : K.Lawful key klt veq) (hs : SKL.Reachable K s) (ops : List (KOp α κ)) (hb : ∀ op ∈ ops, op.byValue = true)
    (threads : List (List (KOp α κ))) (hq : ∀ qs ∈ threads, ∀ q ∈ qs, q.isQuery = true) (schedule : List Nat) {load : Nat} (hl : 1 ≤ load)
    (later : List (KOp α κ)) (hv : ∀ op ∈ later, op.Valid) :
    let pool := (Pool.mk s (Prog.calls (Threads.SKL.change K) ops :: threads.map (Prog.calls (Threads.SKL.query K)))).run schedule
    (∃ x, pool.threads[0]? = some (.ret x)) →
    let spec := runHist (Spec.kstep key klt (Spec.Order.ofKey key klt veq K.vcmp)) later (runHist (Spec.kstep key klt (Spec.Order.ofKey key klt veq K.vcmp)) ops (Core.iter s)).2
    let real := runHist (SKL.kstep K) (.op (.reset load) :: later) pool.shared
    real.1 = .ok .none :: spec.1 ∧ Core.iter real.2 = spec.2 := by
  intro pool ⟨x, hx⟩
  have h := (C82_key_list_values hK hs ops hb threads hq schedule x hx).1
  obtain ⟨plain, h1, h2⟩ := C70_key_list_reset hK pool.shared hl later hv
  have hI := Refines.hist ops (fun op ho => SKL.kstep_refines hK op (KOp.byValue.valid (hb op ho))) (SKL.reachable_inv hK hs)
  have hS : Sorted (fun a b => klt (key a) (key b)) (runHist (Spec.kstep key klt (Spec.Order.ofKey key klt veq K.vcmp)) ops (Core.iter s)).2 := by
    rw [← show _ = (runHist (Spec.kstep key klt (Spec.Order.ofKey key klt veq K.vcmp)) ops (Core.iter s)).2 from hI.2.1]
    exact hI.2.2.sorted
  rw [h] at h1
  rw [h1.unique (hK.order.comap key) (.self hS)] at h2
  exact h2

/-- C82 for a SortedKeyList: one thread changes the list with any calls that return, the others use only `list(skl)`.  The thread notices nothing of the others, and what they
find is a `Moment` of its calls. -/
theorem C82_key_list_glances {key : α → κ} {klt : κ → κ → Bool} {veq : α → α → Bool} (hK : K.Lawful key klt veq) (hs : SKL.Reachable K s) (ops : List (Op α)) (hv : ∀ op ∈ ops, op.Valid)
    (hok : ∀ a ∈ (runHist (fun op => Spec.kstep key klt (Spec.Order.ofKey key klt veq K.vcmp) (.op op)) ops (Core.iter s)).1, ∃ o, a = .ok o)
    (threads : List (List (KOp α κ))) (hq : ∀ qs ∈ threads, ∀ q ∈ qs, q = .op .iter) (schedule : List Nat) :
    let step := fun op => Spec.kstep key klt (Spec.Order.ofKey key klt veq K.vcmp) (.op op)
    let model := fun op => SKL.kstep K (.op op)
    let moment := Moment step (fun i => (runHist model (ops.take i) s).2.load) ops (Core.iter s)
    let pool := (Pool.mk s (Prog.calls (fun op => Prog.replay (Interrupt.SKL.kstep K (.op op))) ops :: threads.map (Prog.calls (Threads.SKL.query K)))).run schedule
    moment (Core.iter pool.shared) ∧
    (∀ x, pool.threads[0]? = some (.ret x) → x = .ok (runHist step ops (Core.iter s)).1 ∧ pool.shared = (runHist model ops s).2) ∧
    ∀ (i : Nat) qs x, threads[i]? = some qs → pool.threads[i + 1]? = some (.ret x) → ∃ answers, x = .ok answers ∧ answers.length = qs.length ∧
      ∀ (j : Nat) a, answers[j]? = some a → ∃ l, a = .ok (.vals l) ∧ moment l := by
  intro step model moment pool
  have hist := fun (cs : List (Op α)) (hc : ∀ c ∈ cs, c.Valid) => Refines.hist (step := model) (spec := step) cs (fun op ho => SKL.kstep_refines hK (.op op) (hc op ho)) (SKL.reachable_inv hK hs)
  have hok' : ∀ a ∈ (runHist model ops s).1, ∃ o, a = .ok o := by rw [(hist ops hv).1]; exact hok
  have hreal : ∀ op ∈ ops, ∀ s, SKL.Reachable K s → ((Interrupt.SKL.kstep K (.op op)).run s).1 = (model op s).1 ∧
      (∀ a, (model op s).1 = .ok a → ((Interrupt.SKL.kstep K (.op op)).run s).2 = (model op s).2) ∧ SKL.Reachable K (model op s).2 := by
    intro op ho s hs
    obtain ⟨h1, h2, -⟩ := C70_key_list_uninterrupted (SKL.lawful_sane hK) (SKL.wild_of_reachable hK hs) (.op op) (hv op ho)
    exact ⟨h1, h2, hs.step (.op op) (hv op ho)⟩
  have hreach : ∀ i, SKL.Reachable K (runHist model (ops.take i) s).2 := by
    have : ∀ (cs : List (Op α)) (s : St α κ), (∀ c ∈ cs, c.Valid) → SKL.Reachable K s → SKL.Reachable K (runHist model cs s).2 := by
      intro cs
      induction cs with
      | nil => exact fun s _ hs => hs
      | cons c cs ih => exact fun s hc hs => ih _ (fun c h => hc c (by simp [h])) (hs.step (.op c) (hc c (by simp)))
    exact fun i => this _ s (fun c hc => hv c (List.mem_of_mem_take hc)) hs
  have hm : ∀ t ∈ (Prog.calls (fun op => Prog.replay (Interrupt.SKL.kstep K (.op op))) ops).passes s, moment (Core.iter t) := by
    intro t ht
    rcases Prog.replay_passes ops s hs hreal hok' ht with rfl | ⟨i, op, e, ht⟩
    · exact .inl (hist ops hv).2.1
    · refine .inr ⟨i, op, e, ?_⟩
      have ho := List.mem_of_getElem? e
      have h1 := C70_key_list_aftermath (SKL.lawful_sane hK) (SKL.wild_of_reachable hK (hreach i)) op (hv op ho) ht
      have e1 := (hist (ops.take i) fun c hc => hv c (List.mem_of_mem_take hc)).2.1
      have e2 := (hist (ops.take (i + 1)) fun c hc => hv c (List.mem_of_mem_take hc)).2.1
      rw [runHist_succ _ ops s e] at e2
      rw [← e1, ← e2]
      exact h1
  have hw : ∀ q, q = .op .iter → ∀ I : St α κ → Prop, (Threads.SKL.query K q).Watch I fun a => ∃ t, I t ∧ a = .ok (.vals (Core.iter t)) := by
    rintro q rfl I t ht
    exact ⟨t, ht, rfl⟩
  obtain ⟨w', rest', s', e, h1, h2⟩ := Pool.silent (Prog.calls (fun op => Prog.replay (Interrupt.SKL.kstep K (.op op))) ops)
    (threads.map (Prog.calls (Threads.SKL.query K))) s (fun m hm => by
      obtain ⟨qs, hqs, rfl⟩ := List.mem_map.1 hm
      exact (Prog.Watch.calls qs fun q hq' => hw q (hq qs hqs q hq') fun _ => True).silent) schedule
  have hp : pool = ⟨s', w' :: rest'⟩ := e
  refine ⟨?_, ?_, ?_⟩
  · rw [hp]; exact hm _ h2
  · intro x hx
    rw [hp] at hx ⊢
    cases hx
    rw [Prog.replay_all ops s hs hreal hok'] at h1
    obtain ⟨k1, k2⟩ := Prod.mk.inj h1
    exact ⟨by rw [k1, (hist ops hv).1], k2⟩
  · intro i qs x eq hx
    have := Pool.watch (P := fun i r => ∀ qs, threads[i]? = some qs → ∃ xs, r = .ok xs ∧ xs.length = qs.length ∧ ∀ (j : Nat) c x, qs[j]? = some c → xs[j]? = some x →
        ∃ t : St α κ, moment (Core.iter t) ∧ x = .ok (.vals (Core.iter t)))
      (Prog.calls (fun op => Prog.replay (Interrupt.SKL.kstep K (.op op))) ops) (threads.map (Prog.calls (Threads.SKL.query K))) s hm (fun i m e => by
        rw [List.getElem?_map] at e
        rcases e' : threads[i]? with _ | qs
        · rw [e'] at e; cases e
        · rw [e'] at e
          cases e
          refine (Prog.Watch.calls qs fun q hq' => hw q (hq qs (List.mem_of_getElem? e') q hq') _).mono (fun _ h => h) fun r hr qs' e2 => ?_
          cases e2; exact hr) schedule i _ hx qs eq
    obtain ⟨xs, k1, k2, k3⟩ := this
    refine ⟨xs, k1, k2, fun j a ha => ?_⟩
    have hj : j < qs.length := by rw [← k2]; exact (List.getElem?_eq_some_iff.1 ha).1
    obtain ⟨t, m1, m2⟩ := k3 j _ a (List.getElem?_eq_getElem hj) ha
    exact ⟨_, m2, m1⟩

end KeyList

/-! ## Examples -/

namespace Demo

/-- `sl.add(25)`, `sl.discard(40)`, `sl.remove(99)`, `25 in sl`, `list(sl)` on the list with seven sublists and no positional index -/
def busyOps : List (Op Int) := [.add 25, .discard 40, .remove 99, .contains 25, .iter]

theorem busyOps_byValue : ∀ op ∈ busyOps, op.byValue = true := by decide

/-- The others evaluate `sl[4]`, `sl.bisect_left(60)`, and `sl[2:5]`. -/
def busyThreads : List (List (Op Int)) := [[.getInt 4, .bisectLeft 60], [.getSlice ⟨some 2, some 5, none⟩]]

theorem busyThreads_query : ∀ qs ∈ busyThreads, ∀ q ∈ qs, q.isQuery = true := by decide

def busyPool : Pool (St Int Int) (List (Except PyErr (Out Int))) :=
  ⟨coldRun, Prog.calls (Threads.SL.change intEnv) busyOps :: busyThreads.map (Prog.calls (Threads.SL.query intEnv))⟩

/-- The threads in turns: the thread that changes the list finishes, with the right answers. -/
example : coldResult (busyPool.run (List.flatten (List.replicate 60 [0, 1, 2]))) 0 =
    some (.ok [.ok .none, .ok .none, .error .valueError, .ok (.bool true), .ok (.vals [10, 20, 25, 30, 50, 60, 70])]) := by decide +kernel

example := C82_list_alone intEnv_lawful coldRun_reachable (op := .add 25) rfl
example := C82_list_values intEnv_lawful coldRun_reachable busyOps busyOps_byValue busyThreads busyThreads_query (List.flatten (List.replicate 60 [0, 1, 2]))
example := C82_list_reset intEnv_lawful coldRun_reachable busyOps busyOps_byValue busyThreads busyThreads_query (List.flatten (List.replicate 60 [0, 1, 2])) (load := 3)
  (by decide) [.getInt 3] (by intro op h; cases List.mem_singleton.1 h; trivial)

/-- `sl.add(25)` in one thread, `sl[4]` in another, which is suspended after it has counted the values in the sublists and before it stores the counts. -/
def stalePool : Pool (St Int Int) (List (Except PyErr (Out Int))) :=
  (Pool.mk coldRun [Prog.calls (Threads.SL.change intEnv) [.add 25], Prog.calls (Threads.SL.query intEnv) [.getInt 4]]).run
    (List.replicate 5 1 ++ List.replicate 30 0 ++ List.replicate 30 1)

/-- Both calls return, and now `sl[3]` is 40 instead of 30, for good, although nobody changes the list any more; `sl[7]` raises IndexError although there are eight values.
`_reset` repairs the list. -/
example : coldResult stalePool 0 = some (.ok [.ok .none]) ∧ coldResult stalePool 1 = some (.ok [.ok (.val 50)]) ∧
    (runHist (SL.api intEnv).step [.iter, .len, .getInt 3, .getInt 7, .reset 1, .getInt 3, .getInt 7] stalePool.shared).1 =
      [.ok (.vals [10, 20, 25, 30, 40, 50, 60, 70]), .ok (.int 8), .ok (.val 40), .error .indexError, .ok .none, .ok (.val 30), .ok (.val 70)] := by decide +kernel

/-- The same list after `sl[4]` and the removal of all values but 10 and 20 -/
def shrunkRun : St Int Int :=
  (runHist (SL.api intEnv).step [.getInt 4, .discard 30, .discard 40, .discard 50, .discard 60, .discard 70] coldRun).2

/-- `sl.add(15)` in one thread, `sl[1]` in another, which is suspended between the two writes of `_build_index`. -/
def shrunkPool : Pool (St Int Int) (List (Except PyErr (Out Int))) :=
  (Pool.mk shrunkRun [Prog.calls (Threads.SL.change intEnv) [.add 15, .contains 15], Prog.calls (Threads.SL.query intEnv) [.getInt 1]]).run
    (List.replicate 6 1 ++ List.replicate 30 0 ++ List.replicate 30 1)

/-- `sl.add(15)` raises IndexError, after it has added 15; `len(sl)` is 2 from then on, and `list(sl)` has three values. -/
example : coldResult shrunkPool 0 = some (.ok [.error .indexError, .ok (.bool true)]) ∧
    (runHist (SL.api intEnv).step [.iter, .len] shrunkPool.shared).1 = [.ok (.vals [10, 15, 20]), .ok (.int 2)] := by decide +kernel

/-- `sl = SortedList([10]); sl._reset(1); sl.add(20)` -/
def pairRun : St Int Int := (runHist (SL.api intEnv).step [.reset 1, .add 20] (SL.update intEnv [10] St.empty).2).2

theorem pairRun_reachable : (SL.api intEnv).Reachable pairRun :=
  .step (.add 20) trivial (.step (.reset 1) (show 1 ≤ 1 by decide) (.new (xs := some [10]) rfl))

/-- `sl.add(15)` in one thread; `20 in sl`, `list(sl)` in another. -/
def pairPool : Pool (St Int Int) (List (Except PyErr (Out Int))) :=
  ⟨pairRun, [Prog.calls (fun op => Prog.replay (Interrupt.SL.step intEnv op)) [.add 15], Prog.calls (Threads.SL.glance intEnv) [.contains 20, .iter]]⟩

example := C82_list_glances intEnv_lawful pairRun_reachable [.add 15] (by intro op h; cases List.mem_singleton.1 h; trivial)
  (by intro a h; cases List.mem_singleton.1 h; exact ⟨_, rfl⟩) [[.contains 20, .iter]]
  (by intro qs h q h'; cases List.mem_singleton.1 h; exact (List.mem_cons.1 h').elim (fun e => .inr ⟨20, e⟩) fun h => .inl (List.mem_singleton.1 h))

/-- While the sublist is split, the second half is not there: `20 in sl` is False, or raises IndexError, although 20 is in the list all the time; `list(sl)` is `[10]`. -/
example : coldResult (pairPool.run (List.replicate 4 0 ++ List.replicate 30 1)) 1 = some (.ok [.ok (.bool false), .ok (.vals [10])]) ∧
    coldResult (pairPool.run (List.replicate 3 0 ++ List.replicate 30 1)) 1 = some (.ok [.error .indexError, .ok (.vals [10])]) := by decide +kernel

/-- Two threads that change the list: `sl.add(15)` is suspended within `self._len += 1`, and the change that `sl.add(55)` makes to the length is lost. -/
example : (runHist (SL.api intEnv).step [.iter, .len]
      ((Pool.mk coldRun ([[Op.add 15], [Op.add 55]].map (Prog.calls (Threads.SL.change intEnv)))).run
        (List.replicate 6 0 ++ List.replicate 30 1 ++ List.replicate 30 0)).shared).1 =
    [.ok (.vals [10, 15, 20, 30, 40, 50, 55, 60, 70]), .ok (.int 8)] := by decide +kernel

/-- `skl.add(33)`, `skl.discard(52)`, `skl.remove(99)`, `35 in skl`, `list(skl)` -/
def busyKOps : List (KOp Int Int) := [.op (.add 33), .op (.discard 52), .op (.remove 99), .op (.contains 35), .op .iter]

theorem busyKOps_byValue : ∀ op ∈ busyKOps, op.byValue = true := by decide

example : coldResult ((Pool.mk coldKRun (Prog.calls (Threads.SKL.change tensEnv) [.op (.add 33), .op .iter] ::
        coldKThreads.map (Prog.calls (Threads.SKL.query tensEnv)))).run (List.flatten (List.replicate 60 [0, 1, 2]))) 0 =
    some (.ok [.ok .none, .ok (.vals [10, 21, 31, 35, 33, 52, 76])]) := by decide +kernel

example := C82_key_list_alone tensEnv_lawful coldKRun_reachable (op := .op (.add 33)) rfl
example := C82_key_list_values tensEnv_lawful coldKRun_reachable busyKOps busyKOps_byValue coldKThreads (fun qs h q h' => (coldKThreads_query qs h q h').1)
  (List.flatten (List.replicate 60 [0, 1, 2]))
example := C82_key_list_reset tensEnv_lawful coldKRun_reachable busyKOps busyKOps_byValue coldKThreads (fun qs h q h' => (coldKThreads_query qs h q h').1)
  (List.flatten (List.replicate 60 [0, 1, 2])) (load := 3) (by decide) [.op (.getInt 3)] (by intro op h; cases List.mem_singleton.1 h; trivial)
example := C82_key_list_glances tensEnv_lawful coldKRun_reachable [.add 33] (by intro op h; cases List.mem_singleton.1 h; trivial)
  (by intro a h; cases List.mem_singleton.1 h; exact ⟨_, rfl⟩) [[.op .iter]]
  (by intro qs h q h'; cases List.mem_singleton.1 h; exact List.mem_singleton.1 h')

end Demo
end Verif
