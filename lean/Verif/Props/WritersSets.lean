import Verif.Proofs.LinearSets
import Verif.Props.ThreadsSets
import Verif.Props.Writers
/-!
# C83: a thread that changes a sorted set or dict while others look things up

One thread changes a SortedSet or SortedDict, other threads look things up in it.  The thread that changes the object goes through the states of
`Model/InterruptSets.lean`, and may be suspended at each of them (`Prog.replay` of `Model/Writers.lean`; the lookups write nothing, so the thread cannot notice the others).
The lookups are those of `Model/ThreadsSets.lean`.  One call of a method of the built-in set or dict is one step: values whose `__hash__` or `__eq__` are
written in Python may be suspended inside it, and this is not modelled.

* Calls that change the built-in set or dict in one step (`SSOp.oneStep`, `SDOp.oneStep`: all but `update`, `difference_update`, `del view[i:j]` and `_reset`) and lookups that ask only the
  built-in set or dict (`SSOp.asksStore`: `v in ss`, `len`, comparisons, `copy`, `&`, `-`, `^`; `SDOp.asksStore`: `k in sd`, `sd[k]`, `get`, `len`) are *linear*: every thread gets what it
  would get if all the calls were made one at a time, in an order that agrees with time (`Verif/Linear.lean`).
* With `update` and the others this is false (the examples at the end), but every single answer of `v in ss` is right for some moment between two calls.
-/

namespace Verif

theorem Prog.calls_congr {σ β γ : Type} {f g : γ → Prog σ β} (cs : List γ) (h : ∀ c ∈ cs, f c = g c) : Prog.calls f cs = Prog.calls g cs := by
  induction cs with
  | nil => rfl
  | cons c cs ih =>
    unfold Prog.calls
    rw [h c (by simp), ih fun c hc => h c (by simp [hc])]

/-- Threads that take one look per call see only objects that the first thread leaves between two of its steps; it notices nothing. -/
theorem Pool.glances {σ β γ : Type} {Good : σ → Prop} {mt : γ → IPy σ β} {step : γ → Py σ β} {s : σ} (hs : Good s) (cs : List γ)
    (h : ∀ c ∈ cs, ∀ s, Good s → ((mt c).run s).1 = (step c s).1 ∧ (∀ a, (step c s).1 = .ok a → ((mt c).run s).2 = (step c s).2) ∧ Good (step c s).2)
    (hok : ∀ a ∈ (runHist step cs s).1, ∃ o, a = .ok o) (query : γ → Prog σ β) (threads : List (List γ))
    (hq : ∀ qs ∈ threads, ∀ q ∈ qs, query q = Prog.look (step q)) (schedule : List Nat) :
    let seen := fun t => t = (runHist step cs s).2 ∨ ∃ (i : Nat) (c : γ), cs[i]? = some c ∧ t ∈ (mt c).points (runHist step (cs.take i) s).2
    let pool := (Pool.mk s (Prog.calls (fun c => Prog.replay (mt c)) cs :: threads.map (Prog.calls query))).run schedule
    (∀ x, pool.threads[0]? = some (.ret x) → x = .ok (runHist step cs s).1 ∧ pool.shared = (runHist step cs s).2) ∧
    ∀ (i : Nat) qs x, threads[i]? = some qs → pool.threads[i + 1]? = some (.ret x) → ∃ answers, x = .ok answers ∧ answers.length = qs.length ∧
      ∀ (j : Nat) q a, qs[j]? = some q → answers[j]? = some a → ∃ t, seen t ∧ a = (step q t).1 := by
  intro seen pool
  have hm : ∀ t ∈ (Prog.calls (fun c => Prog.replay (mt c)) cs).passes s, seen t := fun t ht => Prog.replay_passes cs s hs h hok ht
  have hw : ∀ (I : σ → Prop) q, query q = Prog.look (step q) → (query q).Watch I fun a => ∃ t, I t ∧ a = (step q t).1 := by
    intro I q e
    rw [e]
    exact fun t ht => ⟨t, ht, rfl⟩
  obtain ⟨w', rest', s', e, h1, h2⟩ := Pool.silent (Prog.calls (fun c => Prog.replay (mt c)) cs) (threads.map (Prog.calls query)) s (fun m hm => by
      obtain ⟨qs, hqs, rfl⟩ := List.mem_map.1 hm
      exact (Prog.Watch.calls qs fun q hq' => hw _ q (hq qs hqs q hq')).silent) schedule
  have hp : pool = ⟨s', w' :: rest'⟩ := e
  refine ⟨?_, ?_⟩
  · intro x hx
    rw [hp] at hx ⊢
    cases hx
    rw [Prog.replay_all cs s hs h hok] at h1
    exact Prod.mk.inj h1
  · intro i qs x eq hx
    exact Pool.watch (P := fun i r => ∀ qs, threads[i]? = some qs → ∃ xs, r = .ok xs ∧ xs.length = qs.length ∧ ∀ (j : Nat) c x, qs[j]? = some c → xs[j]? = some x →
        ∃ t, seen t ∧ x = (step c t).1)
      (Prog.calls (fun c => Prog.replay (mt c)) cs) (threads.map (Prog.calls query)) s hm (fun i m e => by
        rw [List.getElem?_map] at e
        rcases e' : threads[i]? with _ | qs
        · rw [e'] at e; cases e
        · rw [e'] at e
          cases e
          refine (Prog.Watch.calls qs fun q hq' => hw _ q (hq qs (List.mem_of_getElem? e') q hq')).mono (fun _ h => h) fun r hr qs' e2 => ?_
          cases e2; exact hr) schedule i _ hx qs eq

section Sets
variable {α τ : Type} {c : ListClass α} {lt eqv : α → α → Bool} {S : SetOps τ α} {s : SS τ c.State}

theorem SSOp.asksStore_valid {op : SSOp α} (h : op.asksStore = true) : op.Valid := by
  cases op <;> first | trivial | cases h

theorem SSOp.asksStore_query {op : SSOp α} (h : op.asksStore = true) (S : SetOps τ α) :
    Threads.SS.query S c.threaded c.api op = Prog.look (SS.step S c.api op) := by
  cases op <;> first | rfl | cases h

theorem SS.reachable_hist {σ : Type} {L : ListAPI σ α} {s : SS τ σ} (cs : List (SSOp α)) (hv : ∀ op ∈ cs, op.Valid) (hs : SS.Reachable S L s) :
    SS.Reachable S L (runHist (SS.step S L) cs s).2 := by
  induction cs generalizing s with
  | nil => exact hs
  | cons c cs ih => exact ih (fun c h => hv c (by simp [h])) (hs.step c (hv c (by simp)))

/-- C83: one-step calls of one thread and lookups of the others are linear.  A lookup takes effect at the turn it is made in.  At every moment the members are those of the
plain sorted set after the calls that have taken effect, and when the thread has finished, iteration is that of the plain sorted set. -/
theorem C83_set_linear [DecidableEq α] (hc : c.Orders lt eqv) (hS : S.Lawful eqv)
    (heq : ∀ a b, eqv a b = decide (a = b)) (htotal : ∀ a b, lt a b = false → lt b a = false → a = b) (hs : SS.Reachable S c.api s)
    (ops : List (SSOp α)) (hv : ∀ op ∈ ops, op.Valid) (h1 : ∀ op ∈ ops, op.oneStep = true)
    (threads : List (List (SSOp α))) (hq : ∀ qs ∈ threads, ∀ q ∈ qs, q.asksStore = true) (schedule : List Nat) :
    let spec := SetSpec.step (setOrder lt eqv)
    let pool := fun n => (Pool.mk s (Prog.calls (fun op => Prog.replay (Interrupt.SS.step S c.interrupted c.api op)) ops ::
      threads.map (Prog.calls (Threads.SS.query S c.threaded c.api)))).run (schedule.take n)
    ∃ order, Linear spec (SS.iter c.api s) (ops :: threads) schedule (fun n => (pool n).result) order ∧
      (∀ n i qs, threads[i]? = some qs → min qs.length ((schedule.take n).count (i + 1)) ≤ (callsOf (i + 1) (order n)).length) ∧
      ∀ n, let now := (runHist spec ((order n).map (·.2)) (SS.iter c.api s)).2
        (∀ v, SS.contains S v (pool n).shared = decide (v ∈ now)) ∧
        ∀ x, (pool n).result 0 = some x → SS.iter c.api (pool n).shared = now ∧ SS.Reachable S c.api (pool n).shared := by
  intro spec pool
  obtain ⟨O, I, g1, rfl, g3, calm⟩ := hc.calm
  have h : SS.Good S c.api O eqv I := ⟨hS, g1, g3⟩
  have ht : SS.Total O eqv := ⟨heq, fun a b hab => by
    simp only [equiv, Bool.and_eq_true, Bool.not_eq_true'] at hab
    exact htotal a b hab.1 hab.2⟩
  have hsame : O.same = eqv := by funext a b; exact g3 a b
  have hstep : spec = SetSpec.step O := by
    funext op; exact (SetSpec.step_congr O rfl hsame op).symm
  have hi := SS.reachable_inv h hs
  have hpool : pool = fun n => (Pool.mk s (Prog.calls (fun op => Prog.replay (Interrupt.SS.step S c.interrupted c.api op)) ops ::
      threads.map (Prog.calls fun q => Prog.look (SS.step S c.api q)))).run (schedule.take n) := by
    have : threads.map (Prog.calls (Threads.SS.query S c.threaded c.api)) = threads.map (Prog.calls fun q => Prog.look (SS.step S c.api q)) :=
      List.map_congr_left fun qs hqs => Prog.calls_congr qs fun q h => SSOp.asksStore_query (hq qs hqs q h) S
    simp only [pool, this]
  obtain ⟨order, k1, k2, k3⟩ := Pool.linear (part := (·.set)) (step := SS.step S c.api) (mt := fun op => Interrupt.SS.step S c.interrupted c.api op) (Good := SS.Reachable S c.api) hs ops
    (fun op ho s hs => by
      obtain ⟨m1, m2, -⟩ := C72_set_uninterrupted hc hS hs op (hv op ho)
      exact ⟨(SS.step_unmoved h ht calm (SS.reachable_inv h hs) (hv op ho) (h1 op ho)).run m2 m1,
        Interrupt.SS.step_one (h1 op ho) s fun hl => SS.lookup_stays S c.api hl s, hs.step op (hv op ho)⟩)
    threads (fun qs hqs q hq' x t e => SS.lookup_set S c.api (hq qs hqs q hq') e) schedule
  have hall : ∀ n, ∀ op ∈ (order n).map (·.2), op.Valid := fun n op ho => by
    obtain ⟨l, hl, hm⟩ := k1.all n op ho
    rcases List.mem_cons.1 hl with rfl | hl
    · exact hv op hm
    · exact SSOp.asksStore_valid (hq l hl op hm)
  have hist := fun (cs : List (SSOp α)) (hcs : ∀ op ∈ cs, op.Valid) => Refines.hist cs (fun op ho => SS.step_refines h ht op (hcs op ho)) hi
  rw [hpool, hstep]
  refine ⟨order, k1.congr fun cs hcs => (hist cs fun op ho => ?_).1, k2, fun n => ?_⟩
  · obtain ⟨l, hl, hm⟩ := hcs op ho
    rcases List.mem_cons.1 hl with rfl | hl
    · exact hv op hm
    · exact SSOp.asksStore_valid (hq l hl op hm)
  · obtain ⟨r1, r2, r3⟩ := hist _ (hall n)
    intro now
    have hn : now = SS.iter c.api (runHist (SS.step S c.api) ((order n).map (·.2)) s).2 := r2.symm
    refine ⟨fun v => ?_, fun x hx => ?_⟩
    · rw [hn, SS.contains, (k3 n).1, r3.mem h, ht.any]; rfl
    · rw [hn, (k3 n).2 x hx]
      exact ⟨rfl, SS.reachable_hist _ (hall n) hs⟩

/-- C83: one thread makes any calls that return, the others evaluate `v in ss` and `list(ss)`.  The first thread notices nothing.  Each `v in ss` is right for some moment
before, between or after the calls.  `list(ss)` is what it is after all calls, or what one of the calls may leave behind when it is interrupted. -/
theorem C83_set_glances [DecidableEq α] (hc : c.Orders lt eqv) (hS : S.Lawful eqv)
    (heq : ∀ a b, eqv a b = decide (a = b)) (htotal : ∀ a b, lt a b = false → lt b a = false → a = b) (hs : SS.Reachable S c.api s)
    (ops : List (SSOp α)) (hv : ∀ op ∈ ops, op.Valid)
    (hok : ∀ a ∈ (runHist (SetSpec.step (setOrder lt eqv)) ops (SS.iter c.api s)).1, ∃ o, a = .ok o)
    (threads : List (List (SSOp α))) (hq : ∀ qs ∈ threads, ∀ q ∈ qs, q = .iter ∨ ∃ v, q = .contains v) (schedule : List Nat) :
    let plain := fun cs => runHist (SetSpec.step (setOrder lt eqv)) cs (SS.iter c.api s)
    let load := fun i => c.load (runHist (SS.step S c.api) (ops.take i) s).2.list
    let pool := (Pool.mk s (Prog.calls (fun op => Prog.replay (Interrupt.SS.step S c.interrupted c.api op)) ops ::
      threads.map (Prog.calls (Threads.SS.query S c.threaded c.api)))).run schedule
    (∀ x, pool.result 0 = some x → x = .ok (plain ops).1 ∧ SS.iter c.api pool.shared = (plain ops).2 ∧ SS.Reachable S c.api pool.shared) ∧
    ∀ (i : Nat) qs x, threads[i]? = some qs → pool.result (i + 1) = some x → ∃ answers, x = .ok answers ∧ answers.length = qs.length ∧
      ∀ (j : Nat) a, answers[j]? = some a →
        (∀ v, qs[j]? = some (.contains v) → ∃ n ≤ ops.length, a = .ok (.bool (decide (v ∈ (plain (ops.take n)).2)))) ∧
        (qs[j]? = some .iter → ∃ l, a = .ok (.vals l) ∧ (l = (plain ops).2 ∨
          ∃ (n : Nat) (op : SSOp α), ops[n]? = some op ∧ op.Aftermath (load n) (plain (ops.take n)).2 (plain (ops.take (n + 1))).2 l)) := by
  intro plain load pool
  obtain ⟨O, I, g1, rfl, g3, -⟩ := hc.calm
  have h : SS.Good S c.api O eqv I := ⟨hS, g1, g3⟩
  have ht : SS.Total O eqv := ⟨heq, fun a b hab => by
    simp only [equiv, Bool.and_eq_true, Bool.not_eq_true'] at hab
    exact htotal a b hab.1 hab.2⟩
  have hsame : O.same = eqv := by funext a b; exact g3 a b
  have hstep : SetSpec.step (setOrder O.lt eqv) = SetSpec.step O := by
    funext op; exact (SetSpec.step_congr O rfl hsame op).symm
  have hi := SS.reachable_inv h hs
  have hist : ∀ cs : List (SSOp α), (∀ op ∈ cs, op.Valid) → (runHist (SS.step S c.api) cs s).1 = (plain cs).1 ∧
      SS.iter c.api (runHist (SS.step S c.api) cs s).2 = (plain cs).2 ∧ SS.Reachable S c.api (runHist (SS.step S c.api) cs s).2 := by
    intro cs hcs
    obtain ⟨r1, r2, -⟩ := Refines.hist cs (fun op ho => SS.step_refines h ht op (hcs op ho)) hi
    rw [← hstep] at r1 r2
    exact ⟨r1, r2, SS.reachable_hist cs hcs hs⟩
  have htake := fun n => hist (ops.take n) fun op ho => hv op (List.mem_of_mem_take ho)
  have mem : ∀ v n, SS.contains S v (runHist (SS.step S c.api) (ops.take n) s).2 = decide (v ∈ (plain (ops.take n)).2) := by
    intro v n
    rw [← (htake n).2.1, SS.contains, (SS.reachable_inv h (htake n).2.2).mem h, ht.any]; rfl
  obtain ⟨k1, k2⟩ := Pool.glances (mt := fun op => Interrupt.SS.step S c.interrupted c.api op) (step := SS.step S c.api) (Good := SS.Reachable S c.api) hs ops
    (fun op ho s hs => by
      obtain ⟨m1, m2, -⟩ := C72_set_uninterrupted hc hS hs op (hv op ho)
      exact ⟨m1, m2, hs.step op (hv op ho)⟩) (by rw [(hist ops hv).1]; exact hok) (Threads.SS.query S c.threaded c.api) threads
    (fun qs hqs q hq' => by rcases hq qs hqs q hq' with rfl | ⟨v, rfl⟩ <;> rfl) schedule
  refine ⟨fun x hx => ?_, fun i qs x eq hx => ?_⟩
  · obtain ⟨m1, m2⟩ := k1 x (Pool.result_some hx)
    obtain ⟨r1, r2, r3⟩ := hist ops hv
    rw [show pool.shared = _ from m2]
    exact ⟨by rw [m1, r1], r2, r3⟩
  · obtain ⟨xs, m1, m2, m3⟩ := k2 i qs x eq (Pool.result_some hx)
    refine ⟨xs, m1, m2, fun j a ha => ⟨fun v e => ?_, fun e => ?_⟩⟩
    · obtain ⟨t, hseen, rfl⟩ := m3 j _ a e ha
      have e' : (SS.step S c.api (.contains v) t).1 = .ok (.bool (SS.contains S v t)) := rfl
      rw [e']
      rcases hseen with rfl | ⟨n, op, en, hp⟩
      · have := mem v ops.length
        rw [List.take_length] at this
        exact ⟨ops.length, Nat.le_refl _, by rw [List.take_length, this]⟩
      · have hn := (List.getElem?_eq_some_iff.1 en).1
        rcases C72_set_members hc hS (htake n).2.2 op (hv op (List.mem_of_getElem? en)) hp v with e1 | e1
        · exact ⟨n, Nat.le_of_lt hn, by rw [e1, mem]⟩
        · rw [← runHist_succ _ ops s en] at e1
          exact ⟨n + 1, hn, by rw [e1, mem]⟩
    · obtain ⟨t, hseen, rfl⟩ := m3 j _ a e ha
      refine ⟨SS.iter c.api t, rfl, ?_⟩
      rcases hseen with rfl | ⟨n, op, en, hp⟩
      · exact .inl (hist ops hv).2.1
      · refine .inr ⟨n, op, en, ?_⟩
        have := C72_set_aftermath hc hS (htake n).2.2 op (hv op (List.mem_of_getElem? en)) hp
        rw [← runHist_succ _ ops s en, (htake n).2.1, (htake (n + 1)).2.1] at this
        exact this

end Sets

section Dicts
variable {κ ν : Type} {c : ListClass κ} {lt eqv : κ → κ → Bool} {s : SD κ ν c.State}

theorem SDOp.asksStore_valid {op : SDOp κ ν} (h : op.asksStore = true) : op.Valid := by
  cases op <;> first | trivial | cases h

theorem SDOp.asksStore_query {op : SDOp κ ν} (h : op.asksStore = true) (eqv : κ → κ → Bool) :
    Threads.SD.query eqv c.threaded c.api op = Prog.look (SD.step eqv c.api op) := by
  cases op <;> first | rfl | cases h

theorem SD.reachable_hist {σ : Type} {L : ListAPI σ κ} {s : SD κ ν σ} (cs : List (SDOp κ ν)) (hv : ∀ op ∈ cs, op.Valid) (hs : SD.Reachable eqv L s) :
    SD.Reachable eqv L (runHist (SD.step eqv L) cs s).2 := by
  induction cs generalizing s with
  | nil => exact hs
  | cons c cs ih => exact ih (fun c h => hv c (by simp [h])) (hs.step c (hv c (by simp)))

/-- C83 for a SortedDict: one-step calls of one thread and lookups of the others are linear.  A lookup takes effect at the turn it is made in.  At every moment the items
are those of the plain dict after the calls that have taken effect, and when the thread has finished, iteration is that of `sorted(d, key=key)`. -/
theorem C83_dict_linear (hc : c.Orders lt eqv) (he : IsEquiv eqv) (hs : SD.Reachable eqv c.api s)
    (ops : List (SDOp κ ν)) (hv : ∀ op ∈ ops, op.Valid) (h1 : ∀ op ∈ ops, op.oneStep = true)
    (threads : List (List (SDOp κ ν))) (hq : ∀ qs ∈ threads, ∀ q ∈ qs, q.asksStore = true) (schedule : List Nat) :
    let spec := DictSpec.step (ν := ν) eqv (setOrder lt eqv)
    let pool := fun n => (Pool.mk s (Prog.calls (fun op => Prog.replay (Interrupt.SD.step eqv c.interrupted c.api op)) ops ::
      threads.map (Prog.calls (Threads.SD.query eqv c.threaded c.api)))).run (schedule.take n)
    ∃ order, Linear spec s.dict (ops :: threads) schedule (fun n => (pool n).result) order ∧
      (∀ n i qs, threads[i]? = some qs → min qs.length ((schedule.take n).count (i + 1)) ≤ (callsOf (i + 1) (order n)).length) ∧
      ∀ n, let now := (runHist spec ((order n).map (·.2)) s.dict).2
        (pool n).shared.dict = now ∧
        ∀ x, (pool n).result 0 = some x → SD.iter c.api (pool n).shared = DictSpec.sortedKeys (setOrder lt eqv) now ∧ SD.Reachable eqv c.api (pool n).shared := by
  intro spec pool
  obtain ⟨O, I, g1, rfl, g3, calm⟩ := hc.calm
  have h : SD.Good c.api O eqv I := ⟨he, g1, g3⟩
  have hsame : O.same = eqv := by funext a b; exact g3 a b
  have hstep : spec = DictSpec.step (ν := ν) eqv O := by
    funext op; exact (DictSpec.step_congr O rfl hsame op).symm
  have hi := SD.reachable_inv h hs
  have hpool : pool = fun n => (Pool.mk s (Prog.calls (fun op => Prog.replay (Interrupt.SD.step eqv c.interrupted c.api op)) ops ::
      threads.map (Prog.calls fun q => Prog.look (SD.step eqv c.api q)))).run (schedule.take n) := by
    have : threads.map (Prog.calls (Threads.SD.query eqv c.threaded c.api)) = threads.map (Prog.calls fun q => Prog.look (SD.step eqv c.api q)) :=
      List.map_congr_left fun qs hqs => Prog.calls_congr qs fun q h => SDOp.asksStore_query (hq qs hqs q h) eqv
    simp only [pool, this]
  obtain ⟨order, k1, k2, k3⟩ := Pool.linear (part := (·.dict)) (step := SD.step eqv c.api) (mt := fun op => Interrupt.SD.step eqv c.interrupted c.api op) (Good := SD.Reachable eqv c.api) hs ops
    (fun op ho s hs => by
      obtain ⟨m1, m2, -⟩ := C72_dict_uninterrupted hc he hs op (hv op ho)
      exact ⟨(SD.step_unmoved h calm (SD.reachable_inv h hs) (hv op ho) (h1 op ho)).run m2 m1,
        Interrupt.SD.step_one (h1 op ho) s fun hl => SD.lookup_stays eqv c.api hl s, hs.step op (hv op ho)⟩)
    threads (fun qs hqs q hq' x t e => SD.lookup_dict eqv c.api (hq qs hqs q hq') e) schedule
  have hall : ∀ n, ∀ op ∈ (order n).map (·.2), op.Valid := fun n op ho => by
    obtain ⟨l, hl, hm⟩ := k1.all n op ho
    rcases List.mem_cons.1 hl with rfl | hl
    · exact hv op hm
    · exact SDOp.asksStore_valid (hq l hl op hm)
  have hist := fun (cs : List (SDOp κ ν)) (hcs : ∀ op ∈ cs, op.Valid) => Refines.hist cs (fun op ho => SD.step_refines h op (hcs op ho)) hi
  rw [hpool, hstep]
  refine ⟨order, k1.congr fun cs hcs => (hist cs fun op ho => ?_).1, k2, fun n => ?_⟩
  · obtain ⟨l, hl, hm⟩ := hcs op ho
    rcases List.mem_cons.1 hl with rfl | hl
    · exact hv op hm
    · exact SDOp.asksStore_valid (hq l hl op hm)
  · obtain ⟨r1, r2, r3⟩ := hist _ (hall n)
    intro now
    have hn : now = (runHist (SD.step eqv c.api) ((order n).map (·.2)) s).2.dict := r2.symm
    refine ⟨?_, fun x hx => ?_⟩
    · rw [hn]; exact (k3 n).1
    · rw [hn, (k3 n).2 x hx]
      refine ⟨?_, SD.reachable_hist _ (hall n) hs⟩
      rw [SD.iter, r3.iter]; rfl

/-- C83: one thread makes any calls that return, the others evaluate `sd.get(k)` and `list(sd)`.  The first thread notices nothing.  Each `sd.get(k)` is right for some
moment before, between or after the calls, or is a value that an `update` gives for `k` on its way.  `list(sd)` is what it is after all calls, or what one of the calls may
leave behind when it is interrupted. -/
theorem C83_dict_glances (hc : c.Orders lt eqv) (he : IsEquiv eqv) (hs : SD.Reachable eqv c.api s) (ops : List (SDOp κ ν)) (hv : ∀ op ∈ ops, op.Valid)
    (hok : ∀ a ∈ (runHist (DictSpec.step eqv (setOrder lt eqv)) ops s.dict).1, ∃ o, a = .ok o)
    (threads : List (List (SDOp κ ν))) (hq : ∀ qs ∈ threads, ∀ q ∈ qs, q = .iter ∨ ∃ k, q = .get k) (schedule : List Nat) :
    let plain := fun cs => runHist (DictSpec.step (ν := ν) eqv (setOrder lt eqv)) cs s.dict
    let load := fun i => c.load (runHist (SD.step eqv c.api) (ops.take i) s).2.list
    let pool := (Pool.mk s (Prog.calls (fun op => Prog.replay (Interrupt.SD.step eqv c.interrupted c.api op)) ops ::
      threads.map (Prog.calls (Threads.SD.query eqv c.threaded c.api)))).run schedule
    (∀ x, pool.result 0 = some x → x = .ok (plain ops).1 ∧ pool.shared.dict = (plain ops).2 ∧ SD.Reachable eqv c.api pool.shared) ∧
    ∀ (i : Nat) qs x, threads[i]? = some qs → pool.result (i + 1) = some x → ∃ answers, x = .ok answers ∧ answers.length = qs.length ∧
      ∀ (j : Nat) a, answers[j]? = some a →
        (∀ k, qs[j]? = some (.get k) → ∃ found : Option ν, a = .ok (found.elim .none .val) ∧
          ((∃ n ≤ ops.length, found = PyDict.lookup eqv (plain (ops.take n)).2 k) ∨
            ∃ arg, .update arg ∈ ops ∧ ∃ p ∈ arg.items, eqv p.1 k = true ∧ found = some p.2)) ∧
        (qs[j]? = some .iter → ∃ l, a = .ok (.keys l) ∧ (l = DictSpec.sortedKeys (setOrder lt eqv) (plain ops).2 ∨
          ∃ (n : Nat) (op : SDOp κ ν), ops[n]? = some op ∧ op.Aftermath (load n) (DictSpec.sortedKeys (setOrder lt eqv) (plain (ops.take n)).2)
            (DictSpec.sortedKeys (setOrder lt eqv) (plain (ops.take (n + 1))).2) l)) := by
  intro plain load pool
  obtain ⟨O, I, g1, rfl, g3, -⟩ := hc.calm
  have h : SD.Good c.api O eqv I := ⟨he, g1, g3⟩
  have hsame : O.same = eqv := by funext a b; exact g3 a b
  have hstep : DictSpec.step (ν := ν) eqv (setOrder O.lt eqv) = DictSpec.step (ν := ν) eqv O := by
    funext op; exact (DictSpec.step_congr O rfl hsame op).symm
  have hi := SD.reachable_inv h hs
  have hist : ∀ cs : List (SDOp κ ν), (∀ op ∈ cs, op.Valid) → (runHist (SD.step eqv c.api) cs s).1 = (plain cs).1 ∧
      (runHist (SD.step eqv c.api) cs s).2.dict = (plain cs).2 ∧ SD.iter c.api (runHist (SD.step eqv c.api) cs s).2 = DictSpec.sortedKeys (setOrder O.lt eqv) (plain cs).2 ∧
      SD.Reachable eqv c.api (runHist (SD.step eqv c.api) cs s).2 := by
    intro cs hcs
    obtain ⟨r1, r2, r3⟩ := Refines.hist cs (fun op ho => SD.step_refines h op (hcs op ho)) hi
    rw [← hstep] at r1 r2
    refine ⟨r1, r2, ?_, SD.reachable_hist cs hcs hs⟩
    rw [← show _ = (plain cs).2 from r2, SD.iter, r3.iter]; rfl
  have htake := fun n => hist (ops.take n) fun op ho => hv op (List.mem_of_mem_take ho)
  obtain ⟨k1, k2⟩ := Pool.glances (mt := fun op => Interrupt.SD.step eqv c.interrupted c.api op) (step := SD.step eqv c.api) (Good := SD.Reachable eqv c.api) hs ops
    (fun op ho s hs => by
      obtain ⟨m1, m2, -⟩ := C72_dict_uninterrupted hc he hs op (hv op ho)
      exact ⟨m1, m2, hs.step op (hv op ho)⟩) (by rw [(hist ops hv).1]; exact hok) (Threads.SD.query eqv c.threaded c.api) threads
    (fun qs hqs q hq' => by rcases hq qs hqs q hq' with rfl | ⟨v, rfl⟩ <;> rfl) schedule
  have look : ∀ k n, SD.get eqv k (runHist (SD.step eqv c.api) (ops.take n) s).2 = PyDict.lookup eqv (plain (ops.take n)).2 k := by
    intro k n
    rw [← (htake n).2.1]; rfl
  refine ⟨fun x hx => ?_, fun i qs x eq hx => ?_⟩
  · obtain ⟨m1, m2⟩ := k1 x (Pool.result_some hx)
    obtain ⟨r1, r2, -, r3⟩ := hist ops hv
    rw [show pool.shared = _ from m2]
    exact ⟨by rw [m1, r1], r2, r3⟩
  · obtain ⟨xs, m1, m2, m3⟩ := k2 i qs x eq (Pool.result_some hx)
    refine ⟨xs, m1, m2, fun j a ha => ⟨fun k e => ?_, fun e => ?_⟩⟩
    · obtain ⟨t, hseen, rfl⟩ := m3 j _ a e ha
      refine ⟨SD.get eqv k t, rfl, ?_⟩
      rcases hseen with rfl | ⟨n, op, en, hp⟩
      · have := look k ops.length
        rw [List.take_length] at this
        exact .inl ⟨ops.length, Nat.le_refl _, by rw [List.take_length, this]⟩
      · have hn := (List.getElem?_eq_some_iff.1 en).1
        rcases C72_dict_members hc he (htake n).2.2.2 op (hv op (List.mem_of_getElem? en)) hp k with e1 | e1 | ⟨arg, rfl, e1⟩
        · exact .inl ⟨n, Nat.le_of_lt hn, by rw [e1, look]⟩
        · rw [← runHist_succ _ ops s en] at e1
          exact .inl ⟨n + 1, hn, by rw [e1, look]⟩
        · exact .inr ⟨arg, List.mem_of_getElem? en, e1⟩
    · obtain ⟨t, hseen, rfl⟩ := m3 j _ a e ha
      refine ⟨SD.iter c.api t, rfl, ?_⟩
      rcases hseen with rfl | ⟨n, op, en, hp⟩
      · exact .inl (hist ops hv).2.2.1
      · refine .inr ⟨n, op, en, ?_⟩
        have := C72_dict_aftermath hc he (htake n).2.2.2 op (hv op (List.mem_of_getElem? en)) hp
        rw [← runHist_succ _ ops s en, (htake n).2.2.1, (htake (n + 1)).2.2.1] at this
        exact this

end Dicts

/-! ## Examples -/

namespace Demo

/-- One thread makes the calls `ss.add(25)`, `ss.pop(0)`, `ss.remove(99)`, `ss.symmetric_difference_update([20, 80])`, `len(ss)`. -/
def lineOps : List (SSOp Int) := [.add 25, .pop 0, .remove 99, .symmetricDifferenceUpdate [20, 80], .len]

/-- The others evaluate `10 in ss`, `80 in ss`, `len(ss)` and `20 in ss`, `25 in ss`. -/
def lineThreads : List (List (SSOp Int)) := [[.contains 10, .contains 80, .len], [.contains 20, .contains 25]]

theorem lineOps_valid : ∀ op ∈ lineOps, op.Valid := by
  intro op h
  simp only [lineOps, List.mem_cons, List.not_mem_nil, or_false] at h
  rcases h with rfl | rfl | rfl | rfl | rfl <;> trivial

def lineSchedule : List Nat := [1, 0, 0, 2, 0, 0, 0, 0, 0, 0, 0, 0, 2] ++ List.replicate 60 0 ++ [1, 1, 1, 1] ++ [2, 2]

example := C83_set_linear intClass_orders (iset_lawful false) ieq_decide ilt_total coldSet_reachable lineOps lineOps_valid (by decide) lineThreads (by decide) lineSchedule

def linePool (ops : List (SSOp Int)) (threads : List (List (SSOp Int))) (s : IntSet) : Pool IntSet (List (Except PyErr (Out Int))) :=
  ⟨s, Prog.calls (fun op => Prog.replay (Interrupt.SS.step (iset false) intClass.interrupted intClass.api op)) ops ::
    threads.map (Prog.calls (Threads.SS.query (iset false) intClass.threaded intClass.api))⟩

/-- All threads finish: 10 was there at the first look and 80 came later. -/
example : ((linePool lineOps lineThreads coldSet).run lineSchedule).result 0 =
      some (.ok [.ok .none, .ok (.val 10), .error .keyError, .ok .none, .ok (.int 7)]) ∧
    ((linePool lineOps lineThreads coldSet).run lineSchedule).result 1 = some (.ok [.ok (.bool true), .ok (.bool true), .ok (.int 7)]) ∧
    ((linePool lineOps lineThreads coldSet).run lineSchedule).result 2 = some (.ok [.ok (.bool true), .ok (.bool true)]) := by decide +kernel

/-- `ss = SortedSet([50, 10, 30, 20, 70, 40, 60]); ss._reset(1); ss.add(80)` -/
def eightSet : IntSet := (SS.step (iset false) intClass.api (.add 80) coldSet).2

/-- `ss.update([15, 25])` adds the values one by one, while another thread evaluates `15 in ss` and `25 in ss`. -/
def tornPool (n : Nat) : Pool IntSet (List (Except PyErr (Out Int))) :=
  (linePool [.update [[15, 25]]] [[.contains 15, .contains 25]] eightSet).run ((List.replicate 3 0 ++ [1, 1, 1]).take n)

example : (tornPool 6).result 1 = some (.ok [.ok (.bool true), .ok (.bool false)]) := by decide +kernel

example := C83_set_glances intClass_orders (iset_lawful false) ieq_decide ilt_total (.step (.add 80) trivial coldSet_reachable) [.update [[15, 25]]]
  (by intro op h; cases List.mem_singleton.1 h; trivial) (by intro a h; cases List.mem_singleton.1 h; exact ⟨_, rfl⟩) [[.contains 15, .contains 25]]
  (by intro qs h q h'; cases List.mem_singleton.1 h; exact .inr ((List.mem_cons.1 h').elim (fun e => ⟨15, e⟩) fun h => ⟨25, List.mem_singleton.1 h⟩))

theorem three_calls {ω : Type} {u a b : ω} {order : List (Nat × ω)} (hk : ∀ e ∈ order, e.1 < 2) (h0 : callsOf 0 order <+: [u]) (h1 : callsOf 1 order = [a, b]) :
    order = [(1, a), (1, b)] ∨ order = [(0, u), (1, a), (1, b)] ∨ order = [(1, a), (0, u), (1, b)] ∨ order = [(1, a), (1, b), (0, u)] := by
  have h0 : callsOf 0 order = [] ∨ callsOf 0 order = [u] := by
    rcases e : callsOf 0 order with _ | ⟨x, xs⟩
    · exact .inl rfl
    · rw [e, List.cons_prefix_cons] at h0
      rw [h0.1, List.prefix_nil.1 h0.2]; exact .inr rfl
  have two : ∀ {i : Nat}, i < 2 → i = 0 ∨ i = 1 := by omega
  rcases order with _ | ⟨⟨i, x⟩, _ | ⟨⟨j, y⟩, _ | ⟨⟨k, z⟩, _ | ⟨⟨m, w⟩, l⟩⟩⟩⟩
  · cases h1
  · obtain rfl | rfl := two (hk (i, x) (by simp)) <;> cases h1
  · obtain rfl | rfl := two (hk (i, x) (by simp)) <;> obtain rfl | rfl := two (hk (j, y) (by simp)) <;> simp_all [callsOf]
  · obtain rfl | rfl := two (hk (i, x) (by simp)) <;> obtain rfl | rfl := two (hk (j, y) (by simp)) <;> obtain rfl | rfl := two (hk (k, z) (by simp)) <;> simp_all [callsOf]
  · obtain rfl | rfl := two (hk (i, x) (by simp)) <;> obtain rfl | rfl := two (hk (j, y) (by simp)) <;> obtain rfl | rfl := two (hk (k, z) (by simp)) <;>
      obtain rfl | rfl := two (hk (m, w) (by simp)) <;> simp_all [callsOf]

/-- No order of the calls explains these answers: `update` is not linear. -/
theorem update_not_linear : ¬ ∃ order, Linear (SetSpec.step (setOrder ilt (equiv ilt))) (SS.iter intClass.api eightSet)
    [[.update [[15, 25]]], [.contains 15, .contains 25]] (List.replicate 3 0 ++ [1, 1, 1]) (fun n => (tornPool n).result) order := by
  rintro ⟨order, h⟩
  obtain ⟨h1, h2⟩ := h.finished 6 1 _ (.ok [.ok (.bool true), .ok (.bool false)]) rfl (by decide +kernel)
  rcases three_calls (h.known 6) (h.inTurn 6 0 _ rfl) h1 with e | e | e | e <;> rw [e] at h2 <;> revert h2 <;> decide +kernel

/-- `sd[25] = 'x'`, `sd.pop(10)`, `del sd[99]`, `sd.setdefault(20, 'y')`, `sd[30] = 'z'`, `sd.popitem()` -/
def lineDOps : List (SDOp Int String) := [.setitem 25 "x", .pop 10 none, .delitem 99, .setdefault 20 "y", .setitem 30 "z", .popitem (-1)]

/-- The others evaluate `sd.get(10)`, `sd[30]`, `len(sd)` and `25 in sd`, `sd.get(25)`. -/
def lineDThreads : List (List (SDOp Int String)) := [[.get 10, .getitem 30, .len], [.contains 25, .get 25]]

theorem lineDOps_valid : ∀ op ∈ lineDOps, op.Valid := by
  intro op h
  simp only [lineDOps, List.mem_cons, List.not_mem_nil, or_false] at h
  rcases h with rfl | rfl | rfl | rfl | rfl | rfl <;> trivial

example := C83_dict_linear intClass_orders ieqv_equiv coldDict_reachable lineDOps lineDOps_valid (by decide) lineDThreads (by decide) lineSchedule

def lineDPool (ops : List (SDOp Int String)) (threads : List (List (SDOp Int String))) (s : IntDict) : Pool IntDict (List (Except PyErr (DOut Int String))) :=
  ⟨s, Prog.calls (fun op => Prog.replay (Interrupt.SD.step (equiv ilt) intClass.interrupted intClass.api op)) ops ::
    threads.map (Prog.calls (Threads.SD.query (equiv ilt) intClass.threaded intClass.api))⟩

example : ((lineDPool lineDOps lineDThreads coldDict).run lineSchedule).result 0 =
    some (.ok [.ok .none, .ok (.val "a"), .error .keyError, .ok (.val "b"), .ok .none, .ok (.item 70 "g")]) := by decide +kernel
example : ((lineDPool lineDOps lineDThreads coldDict).run lineSchedule).result 1 = some (.ok [.ok (.val "a"), .ok (.val "z"), .ok (.int 6)]) := by decide +kernel
example : ((lineDPool lineDOps lineDThreads coldDict).run lineSchedule).result 2 = some (.ok [.ok (.bool false), .ok (.val "x")]) := by decide +kernel

/-- `list(sd.items())` is not among the lookups: it raises KeyError when another thread is inside `sd[25] = 'x'`, which changes the list of keys before the dict. -/
example : ((lineDPool [.setitem 25 "x"] [[.items]] coldDict).run [0, 0, 1, 1]).result 1 = some (.ok [.error .keyError]) := by decide +kernel

/-- `sd.update([(25, 'x'), (25, 'y')])` sets the items one by one if `sd` is empty: `sd.get(25)` is 'x' for a while, and no key is there to iterate over. -/
example : ((lineDPool [.update (.pairs [(25, "x"), (25, "y")] none)] [[.get 25, .iter]] cutDict0).run (List.replicate 2 0 ++ [1, 1, 1])).result 1 =
    some (.ok [.ok (.val "x"), .ok (.keys [])]) := by decide +kernel

example := C83_dict_glances intClass_orders ieqv_equiv coldDict_reachable [.setitem 25 "x", .setitem 25 "y"]
  (by intro op h; simp only [List.mem_cons, List.not_mem_nil, or_false] at h; rcases h with rfl | rfl <;> trivial)
  (by intro a h; simp only [runHist, List.mem_cons, List.not_mem_nil, or_false] at h; rcases h with rfl | rfl <;> exact ⟨_, rfl⟩) [[.get 25, .iter]]
  (by intro qs h q h'; cases List.mem_singleton.1 h; exact (List.mem_cons.1 h').elim (fun e => .inr ⟨25, e⟩) fun h => .inl (List.mem_singleton.1 h))

end Demo

end Verif
