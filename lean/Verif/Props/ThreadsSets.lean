import Verif.Proofs.ThreadsSets
import Verif.Props.InterruptSets
import Verif.Props.Threads
/-!
# C73: threads that query one sorted set or dict

As C71, for SortedSet and SortedDict.  `Verif/Model/ThreadsSets.lean` has the queries as programs that can be suspended, `Verif/Readers.lean` says which
of them do not count positions (`SSOp.plain`, `SDOp.plain`).

The built-in set or dict is never written by a query, the sorted list inside may build its positional index.  So membership, lookup by key, iteration and set algebra
are answered correctly whatever the schedule; indexing, `peekitem` and slices of views are not, until they have been made once.
-/

namespace Verif

section Sets
variable {α τ : Type} {c : ListClass α} {lt eqv : α → α → Bool} {S : SetOps τ α} {s : SS τ c.State}

/-- C73: a query that runs alone is the query of the other models, on any object. -/
theorem C73_set_alone {op : SSOp α} (hq : op.isQuery = true) (s : SS τ c.State) :
    (Threads.SS.query S c.threaded c.api op).alone s = SS.step S c.api op s :=
  (Threads.SS.query_asks c.threaded_sound hq).alone s

/-- C73: whatever the schedule, on any object and with any comparisons, threads that make queries change nothing but the positional index of the list, and a finished thread
has, for its queries that do not count positions, the answers that it gets without other threads. -/
theorem C73_set_any (s : SS τ c.State) (threads : List (List (SSOp α)))
    (hq : ∀ ops ∈ threads, ∀ op ∈ ops, op.isQuery = true) (schedule : List Nat) :
    let pool := (Pool.mk s (threads.map (Prog.calls (Threads.SS.query S c.threaded c.api)))).run schedule
    (pool.shared.set = s.set ∧ c.Reindexed s.list pool.shared.list) ∧
    ∀ (i : Nat) ops x, threads[i]? = some ops → pool.threads[i]? = some (.ret x) →
      ∃ answers, x = .ok answers ∧ answers.length = ops.length ∧
        ∀ (j : Nat) op a, ops[j]? = some op → op.plain = true → answers[j]? = some a → a = (SS.step S c.api op s).1 :=
  Asks.pool (R := Threads.SS.Like c.Reindexed) (fun s => ⟨rfl, c.threaded_sound.refl _⟩) (s := s) (plain := SSOp.plain)
    (fun ops ho op hop => Threads.SS.query_asks c.threaded_sound (hq ops ho op hop))
    (fun ops ho op hop hp => Threads.SS.plain_rely c.threaded_sound hp s) schedule

theorem SS.answer [DecidableEq α] (hc : c.Orders lt eqv) (hS : S.Lawful eqv)
    (heq : ∀ a b, eqv a b = decide (a = b)) (htotal : ∀ a b, lt a b = false → lt b a = false → a = b)
    (hs : SS.Reachable S c.api s) {op : SSOp α} (hv : op.Valid) :
    (SS.step S c.api op s).1 = (SetSpec.step (setOrder lt eqv) op (SS.iter c.api s)).1 := by
  obtain ⟨O, I, h1, rfl, h3, -⟩ := ListClass.clear_sound hc
  have h : SS.Good S c.api O eqv I := ⟨hS, h1, h3⟩
  have hsame : O.same = eqv := by funext a b; exact h3 a b
  have ht : SS.Total O eqv := ⟨heq, fun a b hab => by
    simp only [equiv, Bool.and_eq_true, Bool.not_eq_true'] at hab
    exact htotal a b hab.1 hab.2⟩
  rw [← SetSpec.step_congr O rfl hsame op]
  exact (SS.step_refines h ht op hv s (SS.reachable_inv h hs)).1

/-- C73: whatever the schedule, a finished thread has the right answers to its queries that do not count positions. -/
theorem C73_set_plain [DecidableEq α] (hc : c.Orders lt eqv) (hS : S.Lawful eqv)
    (heq : ∀ a b, eqv a b = decide (a = b)) (htotal : ∀ a b, lt a b = false → lt b a = false → a = b)
    (hs : SS.Reachable S c.api s) (threads : List (List (SSOp α)))
    (hq : ∀ ops ∈ threads, ∀ op ∈ ops, op.isQuery = true ∧ op.Valid) (schedule : List Nat) :
    let pool := (Pool.mk s (threads.map (Prog.calls (Threads.SS.query S c.threaded c.api)))).run schedule
    (pool.shared.set = s.set ∧ c.Reindexed s.list pool.shared.list) ∧
    ∀ (i : Nat) ops x, threads[i]? = some ops → pool.threads[i]? = some (.ret x) →
      ∃ answers, x = .ok answers ∧ answers.length = ops.length ∧
        ∀ (j : Nat) op a, ops[j]? = some op → op.plain = true → answers[j]? = some a →
          a = (SetSpec.step (setOrder lt eqv) op (SS.iter c.api s)).1 := by
  obtain ⟨h1, h2⟩ := C73_set_any (S := S) s threads (fun ops ho op hop => (hq ops ho op hop).1) schedule
  refine ⟨h1, fun i ops x e hx => ?_⟩
  obtain ⟨answers, hx, hl, ha⟩ := h2 i ops x e hx
  exact ⟨answers, hx, hl, fun j op a ej hp ea => (ha j op a ej hp ea).trans
    (SS.answer hc hS heq htotal hs (hq ops (List.mem_of_getElem? e) op (List.mem_of_getElem? ej)).2)⟩

/-- C73: if every query of the threads has been made before (any number of times, in any order), then whatever the schedule the threads change nothing at all,
a finished thread has the right answers to all its queries, and a thread that has had enough turns is finished. -/
theorem C73_set_warm [DecidableEq α] (hc : c.Orders lt eqv) (hS : S.Lawful eqv)
    (heq : ∀ a b, eqv a b = decide (a = b)) (htotal : ∀ a b, lt a b = false → lt b a = false → a = b)
    (hs : SS.Reachable S c.api s) (before : List (SSOp α)) (hq : ∀ op ∈ before, op.isQuery = true ∧ op.Valid)
    (threads : List (List (SSOp α))) (hb : ∀ ops ∈ threads, ∀ op ∈ ops, op ∈ before) :
    let s' := (runHist (SS.step S c.api) before s).2
    ∃ n, ∀ schedule : List Nat,
      let pool := (Pool.mk s' (threads.map (Prog.calls (Threads.SS.query S c.threaded c.api)))).run schedule
      let answers (ops : List (SSOp α)) := ops.map fun op => (SetSpec.step (setOrder lt eqv) op (SS.iter c.api s)).1
      pool.shared = s' ∧ ∀ (i : Nat) ops, threads[i]? = some ops →
        (∀ x, pool.threads[i]? = some (.ret x) → x = .ok (answers ops)) ∧
        (n ≤ schedule.count i → pool.threads[i]? = some (.ret (.ok (answers ops)))) := by
  intro s'
  obtain ⟨h1, h2⟩ := Asks.warmed (R := Threads.SS.Like c.Reindexed) (fun s => ⟨rfl, c.threaded_sound.refl _⟩)
    (fun h h' => ⟨h'.1.trans h.1, c.threaded_sound.trans h.2 h'.2⟩)
    (fun op hop => Threads.SS.query_asks (S := S) c.threaded_sound (hq op hop).1) s
  have hs' : SS.Reachable S c.api s' := by
    have : ∀ (ops : List (SSOp α)) s, (∀ op ∈ ops, op.Valid) → SS.Reachable S c.api s → SS.Reachable S c.api (runHist (SS.step S c.api) ops s).2 := by
      intro ops
      induction ops with
      | nil => exact fun _ _ h => h
      | cons op ops ih => exact fun s hv h => ih _ (fun op h => hv op (by simp [h])) (.step op (hv op (by simp)) h)
    exact this before s (fun op h => (hq op h).2) hs
  have habs : SS.iter c.api s' = SS.iter c.api s := c.threaded_sound.same_iter h1.2
  obtain ⟨n, hn⟩ := Pool.calls_still (s := s') (fun ops ho op hop => h2 op (hb ops ho op hop))
  refine ⟨n, fun schedule => ⟨(hn schedule).1, fun i ops e => ?_⟩⟩
  obtain ⟨hx, ht⟩ := (hn schedule).2 i ops e
  have ea : (ops.map fun op => ((Threads.SS.query S c.threaded c.api op).alone s').1) =
      ops.map fun op => (SetSpec.step (setOrder lt eqv) op (SS.iter c.api s)).1 := by
    refine List.map_congr_left fun op hop => ?_
    have hop := hq op (hb ops (List.mem_of_getElem? e) op hop)
    rw [C73_set_alone hop.1, SS.answer hc hS heq htotal hs' hop.2, habs]
  rw [ea] at hx ht
  exact ⟨hx, ht⟩

/-- C73: the same once the positional index of the list is there. -/
theorem C73_set_indexed [DecidableEq α] (hc : c.Orders lt eqv) (hS : S.Lawful eqv)
    (heq : ∀ a b, eqv a b = decide (a = b)) (htotal : ∀ a b, lt a b = false → lt b a = false → a = b)
    (hs : SS.Reachable S c.api s) (hi : c.Indexed s.list) (threads : List (List (SSOp α)))
    (hq : ∀ ops ∈ threads, ∀ op ∈ ops, op.isQuery = true ∧ op.Valid) :
    ∃ n, ∀ schedule : List Nat,
      let pool := (Pool.mk s (threads.map (Prog.calls (Threads.SS.query S c.threaded c.api)))).run schedule
      let answers (ops : List (SSOp α)) := ops.map fun op => (SetSpec.step (setOrder lt eqv) op (SS.iter c.api s)).1
      pool.shared = s ∧ ∀ (i : Nat) ops, threads[i]? = some ops →
        (∀ x, pool.threads[i]? = some (.ret x) → x = .ok (answers ops)) ∧
        (n ≤ schedule.count i → pool.threads[i]? = some (.ret (.ok (answers ops)))) := by
  obtain ⟨n, hn⟩ := Pool.calls_still (s := s) (fun ops ho op hop =>
    (Threads.SS.query_asks (S := S) c.threaded_sound (hq ops ho op hop).1).quiet s hi)
  refine ⟨n, fun schedule => ⟨(hn schedule).1, fun i ops e => ?_⟩⟩
  obtain ⟨hx, ht⟩ := (hn schedule).2 i ops e
  have ea : (ops.map fun op => ((Threads.SS.query S c.threaded c.api op).alone s).1) =
      ops.map fun op => (SetSpec.step (setOrder lt eqv) op (SS.iter c.api s)).1 := by
    refine List.map_congr_left fun op hop => ?_
    have hop := hq ops (List.mem_of_getElem? e) op hop
    rw [C73_set_alone hop.1, SS.answer hc hS heq htotal hs hop.2]
  rw [ea] at hx ht
  exact ⟨hx, ht⟩

end Sets

section Dicts
variable {κ ν : Type} {c : ListClass κ} {lt eqv : κ → κ → Bool} {s : SD κ ν c.State}

/-- C73: a query that runs alone is the query of the other models, on any object. -/
theorem C73_dict_alone {op : SDOp κ ν} (hq : op.isQuery = true) (s : SD κ ν c.State) :
    (Threads.SD.query eqv c.threaded c.api op).alone s = SD.step eqv c.api op s :=
  (Threads.SD.query_asks c.threaded_sound hq).alone s

/-- C73: whatever the schedule, on any object and with any comparisons, threads that make queries change nothing but the positional index of the list, and a finished thread
has, for its queries that do not count positions, the answers that it gets without other threads. -/
theorem C73_dict_any (s : SD κ ν c.State) (threads : List (List (SDOp κ ν)))
    (hq : ∀ ops ∈ threads, ∀ op ∈ ops, op.isQuery = true) (schedule : List Nat) :
    let pool := (Pool.mk s (threads.map (Prog.calls (Threads.SD.query eqv c.threaded c.api)))).run schedule
    (pool.shared.dict = s.dict ∧ c.Reindexed s.list pool.shared.list) ∧
    ∀ (i : Nat) ops x, threads[i]? = some ops → pool.threads[i]? = some (.ret x) →
      ∃ answers, x = .ok answers ∧ answers.length = ops.length ∧
        ∀ (j : Nat) op a, ops[j]? = some op → op.plain = true → answers[j]? = some a → a = (SD.step eqv c.api op s).1 :=
  Asks.pool (R := Threads.SD.Like c.Reindexed) (fun s => ⟨rfl, c.threaded_sound.refl _⟩) (s := s) (plain := SDOp.plain)
    (fun ops ho op hop => Threads.SD.query_asks c.threaded_sound (hq ops ho op hop))
    (fun ops ho op hop hp => Threads.SD.plain_rely c.threaded_sound hp s) schedule

theorem SD.answer (hc : c.Orders lt eqv) (he : IsEquiv eqv)
    (hs : SD.Reachable eqv c.api s) {op : SDOp κ ν} (hv : op.Valid) :
    (SD.step eqv c.api op s).1 = (DictSpec.step eqv (setOrder lt eqv) op (SD.dict s)).1 := by
  obtain ⟨O, I, h1, rfl, h3, -⟩ := ListClass.clear_sound hc
  have h : SD.Good c.api O eqv I := ⟨he, h1, h3⟩
  have hsame : O.same = eqv := by funext a b; exact h3 a b
  rw [← DictSpec.step_congr O rfl hsame op]
  exact (SD.step_refines h op hv s (SD.reachable_inv h hs)).1

/-- C73: whatever the schedule, a finished thread has the right answers to its queries that do not count positions. -/
theorem C73_dict_plain (hc : c.Orders lt eqv) (he : IsEquiv eqv)
    (hs : SD.Reachable eqv c.api s) (threads : List (List (SDOp κ ν)))
    (hq : ∀ ops ∈ threads, ∀ op ∈ ops, op.isQuery = true ∧ op.Valid) (schedule : List Nat) :
    let pool := (Pool.mk s (threads.map (Prog.calls (Threads.SD.query eqv c.threaded c.api)))).run schedule
    (pool.shared.dict = s.dict ∧ c.Reindexed s.list pool.shared.list) ∧
    ∀ (i : Nat) ops x, threads[i]? = some ops → pool.threads[i]? = some (.ret x) →
      ∃ answers, x = .ok answers ∧ answers.length = ops.length ∧
        ∀ (j : Nat) op a, ops[j]? = some op → op.plain = true → answers[j]? = some a →
          a = (DictSpec.step eqv (setOrder lt eqv) op (SD.dict s)).1 := by
  obtain ⟨h1, h2⟩ := C73_dict_any (eqv := eqv) s threads (fun ops ho op hop => (hq ops ho op hop).1) schedule
  refine ⟨h1, fun i ops x e hx => ?_⟩
  obtain ⟨answers, hx, hl, ha⟩ := h2 i ops x e hx
  exact ⟨answers, hx, hl, fun j op a ej hp ea => (ha j op a ej hp ea).trans
    (SD.answer hc he hs (hq ops (List.mem_of_getElem? e) op (List.mem_of_getElem? ej)).2)⟩

/-- C73: if every query of the threads has been made before (any number of times, in any order), then whatever the schedule the threads change nothing at all,
a finished thread has the right answers to all its queries, and a thread that has had enough turns is finished. -/
theorem C73_dict_warm (hc : c.Orders lt eqv) (he : IsEquiv eqv)
    (hs : SD.Reachable eqv c.api s) (before : List (SDOp κ ν)) (hq : ∀ op ∈ before, op.isQuery = true ∧ op.Valid)
    (threads : List (List (SDOp κ ν))) (hb : ∀ ops ∈ threads, ∀ op ∈ ops, op ∈ before) :
    let s' := (runHist (SD.step eqv c.api) before s).2
    ∃ n, ∀ schedule : List Nat,
      let pool := (Pool.mk s' (threads.map (Prog.calls (Threads.SD.query eqv c.threaded c.api)))).run schedule
      let answers (ops : List (SDOp κ ν)) := ops.map fun op => (DictSpec.step eqv (setOrder lt eqv) op (SD.dict s)).1
      pool.shared = s' ∧ ∀ (i : Nat) ops, threads[i]? = some ops →
        (∀ x, pool.threads[i]? = some (.ret x) → x = .ok (answers ops)) ∧
        (n ≤ schedule.count i → pool.threads[i]? = some (.ret (.ok (answers ops)))) := by
  intro s'
  obtain ⟨h1, h2⟩ := Asks.warmed (R := Threads.SD.Like c.Reindexed) (fun s => ⟨rfl, c.threaded_sound.refl _⟩)
    (fun h h' => ⟨h'.1.trans h.1, c.threaded_sound.trans h.2 h'.2⟩)
    (fun op hop => Threads.SD.query_asks (eqv := eqv) c.threaded_sound (hq op hop).1) s
  have hs' : SD.Reachable eqv c.api s' := by
    have : ∀ (ops : List (SDOp κ ν)) s, (∀ op ∈ ops, op.Valid) → SD.Reachable eqv c.api s → SD.Reachable eqv c.api (runHist (SD.step eqv c.api) ops s).2 := by
      intro ops
      induction ops with
      | nil => exact fun _ _ h => h
      | cons op ops ih => exact fun s hv h => ih _ (fun op h => hv op (by simp [h])) (.step op (hv op (by simp)) h)
    exact this before s (fun op h => (hq op h).2) hs
  have habs : SD.dict s' = SD.dict s := h1.1
  obtain ⟨n, hn⟩ := Pool.calls_still (s := s') (fun ops ho op hop => h2 op (hb ops ho op hop))
  refine ⟨n, fun schedule => ⟨(hn schedule).1, fun i ops e => ?_⟩⟩
  obtain ⟨hx, ht⟩ := (hn schedule).2 i ops e
  have ea : (ops.map fun op => ((Threads.SD.query eqv c.threaded c.api op).alone s').1) =
      ops.map fun op => (DictSpec.step eqv (setOrder lt eqv) op (SD.dict s)).1 := by
    refine List.map_congr_left fun op hop => ?_
    have hop := hq op (hb ops (List.mem_of_getElem? e) op hop)
    rw [C73_dict_alone hop.1, SD.answer hc he hs' hop.2, habs]
  rw [ea] at hx ht
  exact ⟨hx, ht⟩

/-- C73: the same once the positional index of the list is there. -/
theorem C73_dict_indexed (hc : c.Orders lt eqv) (he : IsEquiv eqv)
    (hs : SD.Reachable eqv c.api s) (hi : c.Indexed s.list) (threads : List (List (SDOp κ ν)))
    (hq : ∀ ops ∈ threads, ∀ op ∈ ops, op.isQuery = true ∧ op.Valid) :
    ∃ n, ∀ schedule : List Nat,
      let pool := (Pool.mk s (threads.map (Prog.calls (Threads.SD.query eqv c.threaded c.api)))).run schedule
      let answers (ops : List (SDOp κ ν)) := ops.map fun op => (DictSpec.step eqv (setOrder lt eqv) op (SD.dict s)).1
      pool.shared = s ∧ ∀ (i : Nat) ops, threads[i]? = some ops →
        (∀ x, pool.threads[i]? = some (.ret x) → x = .ok (answers ops)) ∧
        (n ≤ schedule.count i → pool.threads[i]? = some (.ret (.ok (answers ops)))) := by
  obtain ⟨n, hn⟩ := Pool.calls_still (s := s) (fun ops ho op hop =>
    (Threads.SD.query_asks (eqv := eqv) c.threaded_sound (hq ops ho op hop).1).quiet s hi)
  refine ⟨n, fun schedule => ⟨(hn schedule).1, fun i ops e => ?_⟩⟩
  obtain ⟨hx, ht⟩ := (hn schedule).2 i ops e
  have ea : (ops.map fun op => ((Threads.SD.query eqv c.threaded c.api op).alone s).1) =
      ops.map fun op => (DictSpec.step eqv (setOrder lt eqv) op (SD.dict s)).1 := by
    refine List.map_congr_left fun op hop => ?_
    have hop := hq ops (List.mem_of_getElem? e) op hop
    rw [C73_dict_alone hop.1, SD.answer hc he hs hop.2]
  rw [ea] at hx ht
  exact ⟨hx, ht⟩

end Dicts

/-! ## A set and a dict whose list has seven sublists and no positional index -/

namespace Demo

/-- `ss = SortedSet([50, 10, 30, 20, 70, 40, 60]); ss._reset(1)` -/
def coldSet : IntSet := (SS.step (iset false) intClass.api (.reset 1) (SS.step (iset false) intClass.api (.update [[50, 10, 30, 20, 70, 40, 60]]) cutSet0).2).2

theorem coldSet_reachable : SS.Reachable (iset false) intClass.api coldSet :=
  .step (.reset 1) (show 1 ≤ 1 by decide) (.step (.update [[50, 10, 30, 20, 70, 40, 60]]) trivial (.new (xs := none) (by rfl)))

/-- One thread evaluates `ss[4]`, `30 in ss`, `ss & [10, 80, 70]`, the other `ss[2:5]`, `list(ss)`. -/
def coldSetThreads : List (List (SSOp Int)) := [[.getInt 4, .contains 30, .intersection [[10, 80, 70]]], [.getSlice ⟨some 2, some 5, none⟩, .iter]]

theorem coldSetThreads_query : ∀ ops ∈ coldSetThreads, ∀ op ∈ ops, op.isQuery = true ∧ op.Valid := by
  intro ops h op h'
  simp only [coldSetThreads, List.mem_cons, List.not_mem_nil, or_false] at h
  rcases h with rfl | rfl <;> simp only [List.mem_cons, List.not_mem_nil, or_false] at h'
  · rcases h' with rfl | rfl | rfl <;> exact ⟨rfl, trivial⟩
  · rcases h' with rfl | rfl <;> exact ⟨rfl, trivial⟩

def coldSetPool (s : IntSet) : Pool IntSet (List (Except PyErr (Out Int))) :=
  ⟨s, coldSetThreads.map (Prog.calls (Threads.SS.query (iset false) intClass.threaded intClass.api))⟩

/-- The result of thread `i`, if it is finished. -/
def resultOf {σ β : Type} (p : Pool σ β) (i : Nat) : Option (Except PyErr β) :=
  match p.threads[i]? with
  | some (.ret x) => some x
  | _ => none

/-- One thread after the other: the right answers. -/
example : resultOf ((coldSetPool coldSet).run (List.replicate 30 0 ++ List.replicate 30 1)) 0 =
      some (.ok [.ok (.val 50), .ok (.bool true), .ok (.vals [10, 70])]) ∧
    resultOf ((coldSetPool coldSet).run (List.replicate 30 0 ++ List.replicate 30 1)) 1 =
      some (.ok [.ok (.vals [30, 40, 50]), .ok (.vals [10, 20, 30, 40, 50, 60, 70])]) := by decide +kernel

/-- The first thread is suspended before it writes the positional index: it gets IndexError for `ss[4]`; the queries that do not count positions are answered. -/
example : resultOf ((coldSetPool coldSet).run raceSchedule) 0 =
      some (.ok [.error .indexError, .ok (.bool true), .ok (.vals [10, 70])]) ∧
    resultOf ((coldSetPool coldSet).run raceSchedule) 1 =
      some (.ok [.ok (.vals [30, 40, 50]), .ok (.vals [10, 20, 30, 40, 50, 60, 70])]) := by decide +kernel

/-- The damage stays: `ss[4]`, `ss.pop(4)` and `del ss[4]` are IndexErrors; `ss.symmetric_difference_update([])` helps. -/
example : (runHist (SS.step (iset false) intClass.api) [.getInt 4, .pop 4, .delInt 4, .len, .symmetricDifferenceUpdate [], .getInt 4]
      ((coldSetPool coldSet).run raceSchedule).shared).1 =
    [.error .indexError, .error .indexError, .error .indexError, .ok (.int 7), .ok .none, .ok (.val 50)] := by decide +kernel

example := C73_set_alone (c := intClass) (S := iset false) (op := .getInt 4) rfl coldSet
example := C73_set_any (c := intClass) (S := iset false) coldSet coldSetThreads (fun ops h op h' => (coldSetThreads_query ops h op h').1)
example := C73_set_plain intClass_orders (iset_lawful false) ieq_decide ilt_total coldSet_reachable coldSetThreads coldSetThreads_query
example := C73_set_warm intClass_orders (iset_lawful false) ieq_decide ilt_total coldSet_reachable coldSetThreads.flatten
  (fun op h => by obtain ⟨ops, h1, h2⟩ := List.mem_flatten.1 h; exact coldSetThreads_query ops h1 op h2) coldSetThreads
  (fun ops h op h' => List.mem_flatten.2 ⟨ops, h, h'⟩)

/-- The set once `ss[4]` has been evaluated. -/
def warmSet : IntSet := (SS.step (iset false) intClass.api (.getInt 4) coldSet).2

theorem warmSet_indexed : intClass.Indexed warmSet.list := by
  show warmSet.list.index ≠ []
  decide +kernel

example := C73_set_indexed (s := warmSet) intClass_orders (iset_lawful false) ieq_decide ilt_total (.step (.getInt 4) trivial coldSet_reachable) warmSet_indexed
  coldSetThreads coldSetThreads_query

/-- Now the threads may alternate. -/
example : resultOf ((coldSetPool warmSet).run (List.flatten (List.replicate 30 [0, 1]))) 0 =
      some (.ok [.ok (.val 50), .ok (.bool true), .ok (.vals [10, 70])]) ∧
    resultOf ((coldSetPool warmSet).run (List.flatten (List.replicate 30 [0, 1]))) 1 =
      some (.ok [.ok (.vals [30, 40, 50]), .ok (.vals [10, 20, 30, 40, 50, 60, 70])]) := by decide +kernel

/-- `sd = SortedDict({50: 'e', 10: 'a', 30: 'c', 20: 'b', 70: 'g', 40: 'd', 60: 'f'}); sd._reset(1)` -/
def coldDict : IntDict := (SD.step (equiv ilt) intClass.api (.reset 1) (SD.step (equiv ilt) intClass.api
  (.update (.dict [(50, "e"), (10, "a"), (30, "c"), (20, "b"), (70, "g"), (40, "d"), (60, "f")])) cutDict0).2).2

theorem coldDict_reachable : SD.Reachable (equiv ilt) intClass.api coldDict :=
  .step (.reset 1) (show 1 ≤ 1 by decide) (.step (.update _) rfl (.new (arg := .dict []) rfl (by rfl)))

/-- One thread evaluates `sd.peekitem(4)`, `sd[30]`, the other `sd.values()[2:5]`, `len(sd)`. -/
def coldDictThreads : List (List (SDOp Int String)) := [[.peekitem 4, .getitem 30], [.valuesSlice ⟨some 2, some 5, none⟩, .len]]

theorem coldDictThreads_query : ∀ ops ∈ coldDictThreads, ∀ op ∈ ops, op.isQuery = true ∧ op.Valid := by
  intro ops h op h'
  simp only [coldDictThreads, List.mem_cons, List.not_mem_nil, or_false] at h
  rcases h with rfl | rfl <;> simp only [List.mem_cons, List.not_mem_nil, or_false] at h' <;> rcases h' with rfl | rfl <;> exact ⟨rfl, trivial⟩

def coldDictPool (s : IntDict) : Pool IntDict (List (Except PyErr (DOut Int String))) :=
  ⟨s, coldDictThreads.map (Prog.calls (Threads.SD.query (equiv ilt) intClass.threaded intClass.api))⟩

/-- One thread after the other: the right answers. -/
example : resultOf ((coldDictPool coldDict).run (List.replicate 30 0 ++ List.replicate 30 1)) 0 = some (.ok [.ok (.item 50 "e"), .ok (.val "c")]) ∧
    resultOf ((coldDictPool coldDict).run (List.replicate 30 0 ++ List.replicate 30 1)) 1 =
      some (.ok [.ok (.vals ["c", "d", "e"]), .ok (.int 7)]) := by decide +kernel

/-- The first thread is suspended before it writes the positional index: `sd.peekitem(4)` is an IndexError. -/
example : resultOf ((coldDictPool coldDict).run raceSchedule) 0 = some (.ok [.error .indexError, .ok (.val "c")]) ∧
    resultOf ((coldDictPool coldDict).run raceSchedule) 1 = some (.ok [.ok (.vals ["c", "d", "e"]), .ok (.int 7)]) := by decide +kernel

example := C73_dict_alone (c := intClass) (eqv := equiv ilt) (op := .peekitem 4) rfl coldDict
example := C73_dict_any (c := intClass) (eqv := equiv ilt) coldDict coldDictThreads (fun ops h op h' => (coldDictThreads_query ops h op h').1)
example := C73_dict_plain intClass_orders ieqv_equiv coldDict_reachable coldDictThreads coldDictThreads_query
example := C73_dict_warm intClass_orders ieqv_equiv coldDict_reachable coldDictThreads.flatten
  (fun op h => by obtain ⟨ops, h1, h2⟩ := List.mem_flatten.1 h; exact coldDictThreads_query ops h1 op h2) coldDictThreads
  (fun ops h op h' => List.mem_flatten.2 ⟨ops, h, h'⟩)

/-- The dict once `sd.peekitem(4)` has been evaluated. -/
def warmDict : IntDict := (SD.step (equiv ilt) intClass.api (.peekitem 4) coldDict).2

theorem warmDict_indexed : intClass.Indexed warmDict.list := by
  show warmDict.list.index ≠ []
  decide +kernel

example := C73_dict_indexed (s := warmDict) intClass_orders ieqv_equiv (.step (.peekitem 4) trivial coldDict_reachable) warmDict_indexed coldDictThreads
  coldDictThreads_query

end Demo
end Verif
