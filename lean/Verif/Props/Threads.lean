import Verif.Proofs.Threads
import Verif.Props.Interrupt
/-!
# C71: threads that query one list

Several threads make queries on one list, which nobody changes.  `Verif/Model/Threads.lean` has the queries as programs that can be suspended between
any two accesses to the object, `Pool.run` runs them in the order of a schedule.

Queries are not read-only: the first one that counts positions builds the positional index.  So two threads that query a list at the same time can get
wrong answers, and can spoil the positional index for good (the examples at the end).  What holds for every schedule: the
values are never touched, queries that do not count positions (`Op.plain`, `KOp.plain` in `Verif/Readers.lean`) are answered correctly, and
after every query of the threads has been made once before the threads start, all of them are.
-/

namespace Verif
variable {α κ : Type}

section List
variable {E : Env α} {s : St α α}

/-- C71: a query that runs alone is the query of the other models, on any object. -/
theorem C71_list_alone (E : Env α) {op : Op α} (hq : op.isQuery = true) (s : St α α) :
    (Threads.SL.query E op).alone s = (SL.api E).step op s :=
  (Threads.SL.query_reader E hq).alone s

/-- C71: whatever the schedule, threads that make queries change nothing but the positional index, and a finished thread has the right answers to its
queries that do not count positions. -/
theorem C71_list_plain {lt : α → α → Bool} (hE : E.Lawful lt) (hs : (SL.api E).Reachable s) (threads : List (List (Op α)))
    (hq : ∀ ops ∈ threads, ∀ op ∈ ops, op.isQuery = true ∧ op.Valid) (schedule : List Nat) :
    let pool := (Pool.mk s (threads.map (Prog.calls (Threads.SL.query E)))).run schedule
    (∃ index offset, pool.shared = { s with index := index, offset := offset }) ∧
    ∀ (i : Nat) ops x, threads[i]? = some ops → pool.threads[i]? = some (.ret x) →
      ∃ answers, x = .ok answers ∧ answers.length = ops.length ∧
        ∀ (j : Nat) op a, ops[j]? = some op → op.plain = true → answers[j]? = some a → a = (Spec.step (Spec.Order.ofValues lt) op (Core.iter s)).1 := by
  obtain ⟨h1, h2⟩ := Asks.pool Reindexed.refl (s := s) (plain := Op.plain) (fun ops ho op hop => Threads.SL.query_reader E (hq ops ho op hop).1)
    (fun ops ho op hop hp => Threads.SL.plain_rely E hp s) schedule
  refine ⟨h1, fun i ops x e hx => ?_⟩
  obtain ⟨answers, hx, hl, ha⟩ := h2 i ops x e hx
  refine ⟨answers, hx, hl, fun j op a ej hp ea => (ha j op a ej hp ea).trans ?_⟩
  exact ((SL.api_lawful hE).step op (hq ops (List.mem_of_getElem? e) op (List.mem_of_getElem? ej)).2 s ((SL.api_lawful hE).reachable hs)).1

/-- C71: if every query of the threads has been made before (any number of times, in any order), then whatever the schedule the threads change nothing at all,
a finished thread has the right answers to all its queries, and a thread that has had enough turns is finished. -/
theorem C71_list_warm {lt : α → α → Bool} (hE : E.Lawful lt) (hs : (SL.api E).Reachable s) (before : List (Op α))
    (hq : ∀ op ∈ before, op.isQuery = true ∧ op.Valid) (threads : List (List (Op α))) (hb : ∀ ops ∈ threads, ∀ op ∈ ops, op ∈ before) :
    let s' := (runHist (SL.api E).step before s).2
    ∃ n, ∀ schedule : List Nat,
      let pool := (Pool.mk s' (threads.map (Prog.calls (Threads.SL.query E)))).run schedule
      let answers (ops : List (Op α)) := ops.map fun op => (Spec.step (Spec.Order.ofValues lt) op (Core.iter s)).1
      pool.shared = s' ∧ ∀ (i : Nat) ops, threads[i]? = some ops →
        (∀ x, pool.threads[i]? = some (.ret x) → x = .ok (answers ops)) ∧
        (n ≤ schedule.count i → pool.threads[i]? = some (.ret (.ok (answers ops)))) := by
  intro s'
  obtain ⟨h1, h2⟩ := Asks.warmed Reindexed.refl (fun h => h.trans) (fun op hop => Threads.SL.query_reader E (hq op hop).1) s
  obtain ⟨n, hn⟩ := Pool.calls_still (s := s') (fun ops ho op hop => h2 op (hb ops ho op hop))
  refine ⟨n, fun schedule => ⟨(hn schedule).1, fun i ops e => ?_⟩⟩
  obtain ⟨hx, ht⟩ := (hn schedule).2 i ops e
  have ea : (ops.map fun op => ((Threads.SL.query E op).alone s').1) = ops.map fun op => (Spec.step (Spec.Order.ofValues lt) op (Core.iter s)).1 := by
    refine List.map_congr_left fun op hop => ?_
    have hop := hb ops (List.mem_of_getElem? e) op hop
    rw [(Threads.SL.query_reader E (hq op hop).1).alone]
    have hI := (SL.api_lawful hE).hist before (fun op h => (hq op h).2) ((SL.api_lawful hE).reachable hs)
    refine (((SL.api_lawful hE).step op (hq op hop).2 s' hI.2.2).1).trans ?_
    obtain ⟨_, _, h⟩ := h1
    show (Spec.step _ op (Core.iter s')).1 = _
    rw [show s' = _ from h]; rfl
  rw [ea] at hx ht
  exact ⟨hx, ht⟩

/-- C71: the same once the positional index is there. -/
theorem C71_list_indexed {lt : α → α → Bool} (hE : E.Lawful lt) (hs : (SL.api E).Reachable s) (hi : s.index ≠ []) (threads : List (List (Op α)))
    (hq : ∀ ops ∈ threads, ∀ op ∈ ops, op.isQuery = true ∧ op.Valid) :
    ∃ n, ∀ schedule : List Nat,
      let pool := (Pool.mk s (threads.map (Prog.calls (Threads.SL.query E)))).run schedule
      let answers (ops : List (Op α)) := ops.map fun op => (Spec.step (Spec.Order.ofValues lt) op (Core.iter s)).1
      pool.shared = s ∧ ∀ (i : Nat) ops, threads[i]? = some ops →
        (∀ x, pool.threads[i]? = some (.ret x) → x = .ok (answers ops)) ∧
        (n ≤ schedule.count i → pool.threads[i]? = some (.ret (.ok (answers ops)))) := by
  obtain ⟨n, hn⟩ := Pool.calls_still (s := s) (fun ops ho op hop => (Threads.SL.query_reader E (hq ops ho op hop).1).quiet s hi)
  refine ⟨n, fun schedule => ⟨(hn schedule).1, fun i ops e => ?_⟩⟩
  obtain ⟨hx, ht⟩ := (hn schedule).2 i ops e
  have ea : (ops.map fun op => ((Threads.SL.query E op).alone s).1) = ops.map fun op => (Spec.step (Spec.Order.ofValues lt) op (Core.iter s)).1 := by
    refine List.map_congr_left fun op hop => ?_
    have hop := hq ops (List.mem_of_getElem? e) op hop
    rw [(Threads.SL.query_reader E hop.1).alone]
    exact ((SL.api_lawful hE).step op hop.2 s ((SL.api_lawful hE).reachable hs)).1
  rw [ea] at hx ht
  exact ⟨hx, ht⟩

end List

section KeyList
variable {K : KEnv α κ} {s : St α κ}

/-- C71 for a SortedKeyList: a query that runs alone is the query of the other models, on any object. -/
theorem C71_key_list_alone (K : KEnv α κ) {op : KOp α κ} (hq : op.isQuery = true) (s : St α κ) :
    (Threads.SKL.query K op).alone s = SKL.kstep K op s :=
  (Threads.SKL.query_reader K hq).alone s

/-- C71 for a SortedKeyList: whatever the schedule, threads that make queries change nothing but the positional index, and a finished thread has the right answers to its
queries that do not count positions. -/
theorem C71_key_list_plain {key : α → κ} {klt : κ → κ → Bool} {veq : α → α → Bool} (hK : K.Lawful key klt veq) (hs : SKL.Reachable K s) (threads : List (List (KOp α κ)))
    (hq : ∀ ops ∈ threads, ∀ op ∈ ops, op.isQuery = true ∧ op.Valid) (schedule : List Nat) :
    let pool := (Pool.mk s (threads.map (Prog.calls (Threads.SKL.query K)))).run schedule
    (∃ index offset, pool.shared = { s with index := index, offset := offset }) ∧
    ∀ (i : Nat) ops x, threads[i]? = some ops → pool.threads[i]? = some (.ret x) →
      ∃ answers, x = .ok answers ∧ answers.length = ops.length ∧
        ∀ (j : Nat) op a, ops[j]? = some op → op.plain = true → answers[j]? = some a → a = (Spec.kstep key klt (Spec.Order.ofKey key klt veq K.vcmp) op (Core.iter s)).1 := by
  obtain ⟨h1, h2⟩ := Asks.pool Reindexed.refl (s := s) (plain := KOp.plain) (fun ops ho op hop => Threads.SKL.query_reader K (hq ops ho op hop).1)
    (fun ops ho op hop hp => Threads.SKL.plain_rely K hp s) schedule
  refine ⟨h1, fun i ops x e hx => ?_⟩
  obtain ⟨answers, hx, hl, ha⟩ := h2 i ops x e hx
  refine ⟨answers, hx, hl, fun j op a ej hp ea => (ha j op a ej hp ea).trans ?_⟩
  exact (SKL.kstep_refines hK op (hq ops (List.mem_of_getElem? e) op (List.mem_of_getElem? ej)).2 s (SKL.reachable_inv hK hs)).1

/-- C71 for a SortedKeyList: if every query of the threads has been made before (any number of times, in any order), then whatever the schedule the threads change nothing at all,
a finished thread has the right answers to all its queries, and a thread that has had enough turns is finished. -/
theorem C71_key_list_warm {key : α → κ} {klt : κ → κ → Bool} {veq : α → α → Bool} (hK : K.Lawful key klt veq) (hs : SKL.Reachable K s) (before : List (KOp α κ))
    (hq : ∀ op ∈ before, op.isQuery = true ∧ op.Valid) (threads : List (List (KOp α κ))) (hb : ∀ ops ∈ threads, ∀ op ∈ ops, op ∈ before) :
    let s' := (runHist (SKL.kstep K) before s).2
    ∃ n, ∀ schedule : List Nat,
      let pool := (Pool.mk s' (threads.map (Prog.calls (Threads.SKL.query K)))).run schedule
      let answers (ops : List (KOp α κ)) := ops.map fun op => (Spec.kstep key klt (Spec.Order.ofKey key klt veq K.vcmp) op (Core.iter s)).1
      pool.shared = s' ∧ ∀ (i : Nat) ops, threads[i]? = some ops →
        (∀ x, pool.threads[i]? = some (.ret x) → x = .ok (answers ops)) ∧
        (n ≤ schedule.count i → pool.threads[i]? = some (.ret (.ok (answers ops)))) := by
  intro s'
  obtain ⟨h1, h2⟩ := Asks.warmed Reindexed.refl (fun h => h.trans) (fun op hop => Threads.SKL.query_reader K (hq op hop).1) s
  obtain ⟨n, hn⟩ := Pool.calls_still (s := s') (fun ops ho op hop => h2 op (hb ops ho op hop))
  refine ⟨n, fun schedule => ⟨(hn schedule).1, fun i ops e => ?_⟩⟩
  obtain ⟨hx, ht⟩ := (hn schedule).2 i ops e
  have ea : (ops.map fun op => ((Threads.SKL.query K op).alone s').1) = ops.map fun op => (Spec.kstep key klt (Spec.Order.ofKey key klt veq K.vcmp) op (Core.iter s)).1 := by
    refine List.map_congr_left fun op hop => ?_
    have hop := hb ops (List.mem_of_getElem? e) op hop
    rw [(Threads.SKL.query_reader K (hq op hop).1).alone]
    have hI := Refines.hist before (fun op h => SKL.kstep_refines hK op (hq op h).2) (SKL.reachable_inv hK hs)
    refine ((SKL.kstep_refines hK op (hq op hop).2 s' hI.2.2).1).trans ?_
    obtain ⟨_, _, h⟩ := h1
    show (Spec.kstep _ _ _ op (Core.iter s')).1 = _
    rw [show s' = _ from h]; rfl
  rw [ea] at hx ht
  exact ⟨hx, ht⟩

/-- C71 for a SortedKeyList: the same once the positional index is there. -/
theorem C71_key_list_indexed {key : α → κ} {klt : κ → κ → Bool} {veq : α → α → Bool} (hK : K.Lawful key klt veq) (hs : SKL.Reachable K s) (hi : s.index ≠ []) (threads : List (List (KOp α κ)))
    (hq : ∀ ops ∈ threads, ∀ op ∈ ops, op.isQuery = true ∧ op.Valid) :
    ∃ n, ∀ schedule : List Nat,
      let pool := (Pool.mk s (threads.map (Prog.calls (Threads.SKL.query K)))).run schedule
      let answers (ops : List (KOp α κ)) := ops.map fun op => (Spec.kstep key klt (Spec.Order.ofKey key klt veq K.vcmp) op (Core.iter s)).1
      pool.shared = s ∧ ∀ (i : Nat) ops, threads[i]? = some ops →
        (∀ x, pool.threads[i]? = some (.ret x) → x = .ok (answers ops)) ∧
        (n ≤ schedule.count i → pool.threads[i]? = some (.ret (.ok (answers ops)))) := by
  obtain ⟨n, hn⟩ := Pool.calls_still (s := s) (fun ops ho op hop => (Threads.SKL.query_reader K (hq ops ho op hop).1).quiet s hi)
  refine ⟨n, fun schedule => ⟨(hn schedule).1, fun i ops e => ?_⟩⟩
  obtain ⟨hx, ht⟩ := (hn schedule).2 i ops e
  have ea : (ops.map fun op => ((Threads.SKL.query K op).alone s).1) = ops.map fun op => (Spec.kstep key klt (Spec.Order.ofKey key klt veq K.vcmp) op (Core.iter s)).1 := by
    refine List.map_congr_left fun op hop => ?_
    have hop := hq ops (List.mem_of_getElem? e) op hop
    rw [(Threads.SKL.query_reader K hop.1).alone]
    exact (SKL.kstep_refines hK op hop.2 s (SKL.reachable_inv hK hs)).1
  rw [ea] at hx ht
  exact ⟨hx, ht⟩

end KeyList

/-! ## A list with seven sublists and no positional index -/

namespace Demo

/-- `sl = SortedList([50, 10, 30, 20, 70, 40, 60]); sl._reset(1)` -/
def coldRun : St Int Int := (runHist (SL.api intEnv).step [.reset 1] (SL.update intEnv [50, 10, 30, 20, 70, 40, 60] St.empty).2).2

theorem coldRun_reachable : (SL.api intEnv).Reachable coldRun :=
  .step (.reset 1) (show 1 ≤ 1 by decide) (.new (xs := some [50, 10, 30, 20, 70, 40, 60]) rfl)

example : coldRun.lists = [[10], [20], [30], [40], [50], [60], [70]] ∧ coldRun.index = [] := by decide +kernel

/-- One thread evaluates `sl[4]`, `30 in sl`, `sl[2:5]`, the other `sl[4]`, `list(sl)`. -/
def coldThreads : List (List (Op Int)) := [[.getInt 4, .contains 30, .getSlice ⟨some 2, some 5, none⟩], [.getInt 4, .iter]]

def coldPool (s : St Int Int) : Pool (St Int Int) (List (Except PyErr (Out Int))) := ⟨s, coldThreads.map (Prog.calls (Threads.SL.query intEnv))⟩

/-- The result of thread `i`, if it is finished. -/
def coldResult (p : Pool (St Int Int) (List (Except PyErr (Out Int)))) (i : Nat) : Option (Except PyErr (List (Except PyErr (Out Int)))) :=
  match p.threads[i]? with
  | some (.ret x) => some x
  | _ => none

theorem coldThreads_query : ∀ ops ∈ coldThreads, ∀ op ∈ ops, op.isQuery = true ∧ op.Valid := by
  intro ops h op h'
  simp only [coldThreads, List.mem_cons, List.not_mem_nil, or_false] at h
  rcases h with rfl | rfl <;> simp only [List.mem_cons, List.not_mem_nil, or_false] at h'
  · rcases h' with rfl | rfl | rfl <;> exact ⟨rfl, trivial⟩
  · rcases h' with rfl | rfl <;> exact ⟨rfl, trivial⟩

/-- One thread after the other: the right answers. -/
example : coldResult ((coldPool coldRun).run (List.replicate 30 0 ++ List.replicate 30 1)) 0 =
      some (.ok [.ok (.val 50), .ok (.bool true), .ok (.vals [30, 40, 50])]) ∧
    coldResult ((coldPool coldRun).run (List.replicate 30 0 ++ List.replicate 30 1)) 1 =
      some (.ok [.ok (.val 50), .ok (.vals [10, 20, 30, 40, 50, 60, 70])]) := by decide +kernel

example := C71_list_alone intEnv (op := .getInt 4) rfl coldRun
example := C71_list_plain intEnv_lawful coldRun_reachable coldThreads coldThreads_query
example := C71_list_warm intEnv_lawful coldRun_reachable coldThreads.flatten
  (fun op h => by obtain ⟨ops, h1, h2⟩ := List.mem_flatten.1 h; exact coldThreads_query ops h1 op h2) coldThreads
  (fun ops h op h' => List.mem_flatten.2 ⟨ops, h, h'⟩)

/-- The list once `sl[4]` has been evaluated. -/
def warmRun : St Int Int := ((SL.api intEnv).step (.getInt 4) coldRun).2

example := C71_list_indexed (s := warmRun) intEnv_lawful (.step (.getInt 4) trivial coldRun_reachable) (by decide +kernel) coldThreads coldThreads_query

/-- With the positional index there, the threads may have turns in any order; here they alternate. -/
example : coldResult ((coldPool warmRun).run (List.flatten (List.replicate 30 [0, 1]))) 0 =
      some (.ok [.ok (.val 50), .ok (.bool true), .ok (.vals [30, 40, 50])]) ∧
    coldResult ((coldPool warmRun).run (List.flatten (List.replicate 30 [0, 1]))) 1 =
      some (.ok [.ok (.val 50), .ok (.vals [10, 20, 30, 40, 50, 60, 70])]) := by decide +kernel

/-- The first thread is suspended after it has found that there is no positional index and has looked at the sublists. -/
def raceSchedule : List Nat := [0, 0, 0, 0] ++ List.replicate 30 1 ++ List.replicate 30 0

/-- Both threads build the positional index, and the second one to do so appends it to the first one's.  The first thread gets IndexError for `sl[4]` and `sl[2:5]`, although the
list has seven values and nobody changes it. -/
example : coldResult ((coldPool coldRun).run raceSchedule) 0 = some (.ok [.error .indexError, .ok (.bool true), .error .indexError]) ∧
    coldResult ((coldPool coldRun).run raceSchedule) 1 = some (.ok [.ok (.val 50), .ok (.vals [10, 20, 30, 40, 50, 60, 70])]) := by decide +kernel

/-- The damage stays: after both threads are finished, `sl[4]` and `del sl[4]` raise IndexError for ever; `clear()` or `_reset` repairs the list (C70). -/
example : (runHist (SL.api intEnv).step [.len, .iter, .getInt 4, .delInt 4, .getInt 6] ((coldPool coldRun).run raceSchedule).shared).1 =
    [.ok (.int 7), .ok (.vals [10, 20, 30, 40, 50, 60, 70]), .error .indexError, .error .indexError, .error .indexError] := by decide +kernel

/-- A thread that has its turns between the two writes of `_build_index` uses the positional index with the old `_offset`: here `sl.bisect_left(50)` is 2 instead of 4. -/
example :
    coldResult ((Pool.mk coldRun ([[.getInt 4], [.bisectLeft 50]].map (Prog.calls (Threads.SL.query intEnv)))).run
      (List.replicate 6 0 ++ List.replicate 30 1 ++ List.replicate 30 0)) 1 = some (.ok [.ok (.int 2)]) ∧
    (Spec.step (Spec.Order.ofValues (fun a b : Int => decide (a < b))) (.bisectLeft 50) (Core.iter coldRun)).1 = .ok (.int 4) := by decide +kernel

/-- `sl = SortedKeyList([52, 10, 31, 35, 76, 21], key=lambda v: v // 10); sl._reset(1)` -/
def coldKRun : St Int Int := (runHist (SKL.kstep tensEnv) [.op (.reset 1)] (SKL.update tensEnv [52, 10, 31, 35, 76, 21] St.empty).2).2

theorem coldKRun_reachable : SKL.Reachable tensEnv coldKRun :=
  .step (.op (.reset 1)) (show 1 ≤ 1 by decide) (.new (xs := some [52, 10, 31, 35, 76, 21]) rfl)

/-- One thread evaluates `sl.bisect_key_left(5)`, `len(sl)`, the other `sl.bisect_right(52)`, `list(sl)`. -/
def coldKThreads : List (List (KOp Int Int)) := [[.bisectKeyLeft 5, .op .len], [.op (.bisectRight 52), .op .iter]]

theorem coldKThreads_query : ∀ ops ∈ coldKThreads, ∀ op ∈ ops, op.isQuery = true ∧ op.Valid := by
  intro ops h op h'
  simp only [coldKThreads, List.mem_cons, List.not_mem_nil, or_false] at h
  rcases h with rfl | rfl <;> simp only [List.mem_cons, List.not_mem_nil, or_false] at h' <;> rcases h' with rfl | rfl <;> exact ⟨rfl, trivial⟩

example : coldResult ((Pool.mk coldKRun (coldKThreads.map (Prog.calls (Threads.SKL.query tensEnv)))).run (List.replicate 30 0 ++ List.replicate 30 1)) 0 =
      some (.ok [.ok (.int 4), .ok (.int 6)]) ∧
    coldResult ((Pool.mk coldKRun (coldKThreads.map (Prog.calls (Threads.SKL.query tensEnv)))).run (List.replicate 30 0 ++ List.replicate 30 1)) 1 =
      some (.ok [.ok (.int 5), .ok (.vals [10, 21, 31, 35, 52, 76])]) := by decide +kernel

example := C71_key_list_alone tensEnv (op := .bisectKeyLeft 5) rfl coldKRun
example := C71_key_list_plain tensEnv_lawful coldKRun_reachable coldKThreads coldKThreads_query
example := C71_key_list_warm tensEnv_lawful coldKRun_reachable coldKThreads.flatten
  (fun op h => by obtain ⟨ops, h1, h2⟩ := List.mem_flatten.1 h; exact coldKThreads_query ops h1 op h2) coldKThreads
  (fun ops h op h' => List.mem_flatten.2 ⟨ops, h, h'⟩)
example := C71_key_list_indexed (s := (SKL.kstep tensEnv (.bisectKeyLeft 5) coldKRun).2) tensEnv_lawful
  (.step (.bisectKeyLeft 5) trivial coldKRun_reachable) (by decide +kernel) coldKThreads coldKThreads_query

/-- The second thread has its turns between the two writes of `_build_index`: `sl.bisect_right(52)` is 4 instead of 5. -/
example : coldResult ((Pool.mk coldKRun (coldKThreads.map (Prog.calls (Threads.SKL.query tensEnv)))).run
      ([0, 0, 0, 0] ++ List.replicate 30 1 ++ List.replicate 30 0)) 1 = some (.ok [.ok (.int 4), .ok (.vals [10, 21, 31, 35, 52, 76])]) := by decide +kernel

/-- Both threads build the positional index: `sl[4]` raises IndexError from then on. -/
example : (runHist (SKL.kstep tensEnv) [.op .len, .op (.getInt 4)]
      ((Pool.mk coldKRun (coldKThreads.map (Prog.calls (Threads.SKL.query tensEnv)))).run
        ([0, 0, 0] ++ List.replicate 30 1 ++ List.replicate 30 0)).shared).1 = [.ok (.int 6), .error .indexError] := by decide +kernel

end Demo
end Verif
