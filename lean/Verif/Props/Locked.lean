import Verif.Proofs.RaceSets
import Verif.Props.Race
/-!
# C89: threads that share a sorted list and a lock

`Guarded` (Model/Locked.lean): as in C88, but each thread makes its calls as `with lock: answer = sl.method(...)`.  Then nothing of what goes wrong in C88 goes wrong: whatever the
schedule, the calls answer what a plain sorted list answers to the same calls in the order in which the lock was given back, each thread's calls are in that order as the thread makes them, and all
calls end.

`given` counts the values that calls bring with them; `fuel` bounds the rounds of loops (Model/Race.lean) and is at least two more than the values there can ever be.
-/

namespace Verif
variable {α κ : Type}
open Race

/-- The number of values that the threads pass to the list, all in all. -/
def Op.brought (threads : List (List (Op α))) : Nat := (threads.map fun cs => (cs.map fun op => op.given.length).sum).sum

/-- How often their calls double the number of its values, at most. -/
def Op.doublings (threads : List (List (Op α))) : Nat := (threads.map fun cs => (cs.map Op.doubles).sum).sum

/-- The same of calls on a SortedKeyList. -/
def KOp.brought (threads : List (List (KOp α κ))) : Nat := (threads.map fun cs => (cs.map fun op => op.given.length).sum).sum

def KOp.doublings (threads : List (List (KOp α κ))) : Nat := (threads.map fun cs => (cs.map KOp.doubles).sum).sum

namespace Race

theorem ended_all {γ β σ : Type} {p : Guarded σ γ β} {step : γ → Task σ β} {s0 : σ} {threads : List (List γ)} (h : Guarded.Orderly step s0 threads p) (hd : p.Done) (i : Nat) :
    p.ended i = threads[i]?.getD [] := by
  by_cases hi : i < threads.length
  · have hw : i < p.waiting.length := by rw [h.count]; exact hi
    have := h.calls i _ (List.getElem?_eq_getElem hw)
    rw [this, hd.2 _ (List.getElem_mem hw)]
    simp [Guarded.current, hd.1]
  · rw [List.getElem?_eq_none (by omega)]
    simp only [Guarded.ended, Option.getD_none, List.map_eq_nil_iff, List.filter_eq_nil_iff]
    intro e he hb
    have := h.inside e he
    simp at hb; omega

theorem fair_end {γ β σ : Type} {step : γ → Task σ β} {s0 : σ} {threads : List (List γ)} (schedule : Nat → Nat) (fair : ∀ i, i < threads.length → ∀ n, ∃ m, n ≤ m ∧ schedule m = i)
    (hh : ∀ is, let p := ({ shared := s0, holder := none, waiting := threads, log := [] } : Guarded σ γ β).run step is
      ∀ j c m, p.holder = some (j, c, m) → (m.alone p.shared).isSome) :
    ∃ n, (({ shared := s0, holder := none, waiting := threads, log := [] } : Guarded σ γ β).run step ((List.range n).map schedule)).Done := by
  have ho := fun is => (Guarded.Orderly.start (step := step) s0 threads).run is
  refine Guarded.all_end (step := step) (sch := schedule) (at' := fun n => ({ shared := s0, holder := none, waiting := threads, log := [] } : Guarded σ γ β).run step ((List.range n).map schedule))
    (fun n => ?_) (k := threads.length) (fun i hi n => ?_) (fun n => (ho _).count) (fun n h e => ⟨(ho _).holding h e, hh _ h.1 h.2.1 h.2.2 e⟩) _ 0 rfl rfl
  · simp [Guarded.run, List.range_succ, List.foldl_append]
  · obtain ⟨m, h1, h2⟩ := fair i hi n
    exact ⟨m - n, by rw [show n + (m - n) = m by omega]; exact h2⟩

end Race

/-- C89: threads use a SortedList under a lock.  At every point of every schedule: the calls that have ended have answered what the plain sorted list with the same values answers to them, one
after the other in the order of the log; if nobody is in a call, the list holds what the plain one holds; and the calls of each thread that have ended, the one it is in, and those it has yet
to begin are, in this order, its calls. -/
theorem C89_list {E : Env α} {lt : α → α → Bool} (hE : E.Lawful lt) {s : St α α} (hs : (SL.api E).Reachable s) (threads : List (List (Op α))) (hcalls : ∀ cs ∈ threads, ∀ op ∈ cs, op.Valid) (fuel : Nat)
    (hf : ((Core.iter s).length + Op.brought threads) * 2 ^ Op.doublings threads < fuel) (schedule : List Nat) :
    let p := (SL.guarded s threads).run (SL.step E fuel) schedule
    let plain := runHist (Spec.step (Spec.Order.ofValues lt)) (p.log.map fun e => e.2.1) (Core.iter s)
    (p.log.map fun e => e.2.2) = plain.1 ∧ (p.holder = none → p.shared.contents = plain.2) ∧
    ∀ i calls, p.waiting[i]? = some calls → threads[i]? = some (p.ended i ++ p.current i ++ calls) := by
  intro p plain
  obtain ⟨h1, h2, -, h4⟩ := Guarded.orderly_grows (SL.follows hE fuel) ⟨s, .of s, ((SL.api_lawful hE).reachable hs), rfl⟩ threads hcalls hf schedule
  exact ⟨h1, fun e => (h2 e).contents, h4.calls⟩

/-- C89: the same for a SortedKeyList. -/
theorem C89_key_list {K : KEnv α κ} {key : α → κ} {klt : κ → κ → Bool} {veq : α → α → Bool} (hK : K.Lawful key klt veq) {s : St α κ}
    (hs : SKL.Reachable K s) (threads : List (List (KOp α κ))) (hcalls : ∀ cs ∈ threads, ∀ op ∈ cs, op.Valid) (fuel : Nat)
    (hf : ((Core.iter s).length + KOp.brought threads) * 2 ^ KOp.doublings threads + 1 < fuel) (schedule : List Nat) :
    let p := (SKL.guarded s threads).run (SKL.call K fuel) schedule
    let plain := runHist (Spec.kstep key klt (Spec.Order.ofKey key klt veq K.vcmp)) (p.log.map fun e => e.2.1) (Core.iter s)
    (p.log.map fun e => e.2.2) = plain.1 ∧ (p.holder = none → p.shared.contents = plain.2) ∧
    ∀ i calls, p.waiting[i]? = some calls → threads[i]? = some (p.ended i ++ p.current i ++ calls) := by
  intro p plain
  obtain ⟨h1, h2, -, h4⟩ := Guarded.orderly_grows (SKL.follows hK fuel) ⟨s, .of s, (SKL.reachable_inv hK hs), rfl⟩ threads hcalls (by show ((Core.iter s).length + KOp.brought threads) * 2 ^ KOp.doublings threads < fuel - 1; omega) schedule
  exact ⟨h1, fun e => (h2 e).contents, h4.calls⟩

/-- C89: a call always ends: at every point of every schedule, the thread that is in a call, given enough turns in a row, comes to the end of it, and its answer will be that of the plain list. -/
theorem C89_list_answer {E : Env α} {lt : α → α → Bool} (hE : E.Lawful lt) {s : St α α} (hs : (SL.api E).Reachable s) (threads : List (List (Op α))) (hcalls : ∀ cs ∈ threads, ∀ op ∈ cs, op.Valid) (fuel : Nat)
    (hf : ((Core.iter s).length + Op.brought threads) * 2 ^ Op.doublings threads < fuel) (schedule : List Nat) :
    let p := (SL.guarded s threads).run (SL.step E fuel) schedule
    let plain := runHist (Spec.step (Spec.Order.ofValues lt)) (p.log.map fun e => e.2.1) (Core.iter s)
    ∀ i op rest, p.holder = some (i, op, rest) → ∃ s', rest.alone p.shared = some ((Spec.step (Spec.Order.ofValues lt) op plain.2).1, s') := by
  intro p plain
  obtain ⟨-, -, h3, -⟩ := Guarded.orderly_grows (SL.follows hE fuel) ⟨s, .of s, ((SL.api_lawful hE).reachable hs), rfl⟩ threads hcalls hf schedule
  exact h3

/-- C89: the same for a SortedKeyList. -/
theorem C89_key_list_answer {K : KEnv α κ} {key : α → κ} {klt : κ → κ → Bool} {veq : α → α → Bool} (hK : K.Lawful key klt veq) {s : St α κ}
    (hs : SKL.Reachable K s) (threads : List (List (KOp α κ))) (hcalls : ∀ cs ∈ threads, ∀ op ∈ cs, op.Valid) (fuel : Nat)
    (hf : ((Core.iter s).length + KOp.brought threads) * 2 ^ KOp.doublings threads + 1 < fuel) (schedule : List Nat) :
    let p := (SKL.guarded s threads).run (SKL.call K fuel) schedule
    let plain := runHist (Spec.kstep key klt (Spec.Order.ofKey key klt veq K.vcmp)) (p.log.map fun e => e.2.1) (Core.iter s)
    ∀ i op rest, p.holder = some (i, op, rest) → ∃ s', rest.alone p.shared = some ((Spec.kstep key klt (Spec.Order.ofKey key klt veq K.vcmp) op plain.2).1, s') := by
  intro p plain
  obtain ⟨-, -, h3, -⟩ := Guarded.orderly_grows (SKL.follows hK fuel) ⟨s, .of s, (SKL.reachable_inv hK hs), rfl⟩ threads hcalls (by show ((Core.iter s).length + KOp.brought threads) * 2 ^ KOp.doublings threads < fuel - 1; omega) schedule
  exact h3

/-- C89: if every thread has turns again and again, there is a time at which all calls of all threads have ended. -/
theorem C89_list_ends {E : Env α} {lt : α → α → Bool} (hE : E.Lawful lt) {s : St α α} (hs : (SL.api E).Reachable s) (threads : List (List (Op α))) (hcalls : ∀ cs ∈ threads, ∀ op ∈ cs, op.Valid) (fuel : Nat)
    (hf : ((Core.iter s).length + Op.brought threads) * 2 ^ Op.doublings threads < fuel) (schedule : Nat → Nat) (fair : ∀ i, i < threads.length → ∀ n, ∃ m, n ≤ m ∧ schedule m = i) :
    ∃ n, let p := (SL.guarded s threads).run (SL.step E fuel) ((List.range n).map schedule)
      p.Done ∧ ∀ i, p.ended i = threads[i]?.getD [] := by
  obtain ⟨n, hn⟩ := fair_end (step := SL.step E fuel) (s0 := Shared.of s) schedule fair fun is j c m e => by
    obtain ⟨-, -, h3, -⟩ := Guarded.orderly_grows (SL.follows hE fuel) ⟨s, .of s, ((SL.api_lawful hE).reachable hs), rfl⟩ threads hcalls hf is
    obtain ⟨s', h⟩ := h3 j c m e
    rw [h]; rfl
  exact ⟨n, hn, ended_all ((Guarded.Orderly.start _ threads).run _) hn⟩

/-- C89: the same for a SortedKeyList. -/
theorem C89_key_list_ends {K : KEnv α κ} {key : α → κ} {klt : κ → κ → Bool} {veq : α → α → Bool} (hK : K.Lawful key klt veq) {s : St α κ}
    (hs : SKL.Reachable K s) (threads : List (List (KOp α κ))) (hcalls : ∀ cs ∈ threads, ∀ op ∈ cs, op.Valid) (fuel : Nat)
    (hf : ((Core.iter s).length + KOp.brought threads) * 2 ^ KOp.doublings threads + 1 < fuel) (schedule : Nat → Nat) (fair : ∀ i, i < threads.length → ∀ n, ∃ m, n ≤ m ∧ schedule m = i) :
    ∃ n, let p := (SKL.guarded s threads).run (SKL.call K fuel) ((List.range n).map schedule)
      p.Done ∧ ∀ i, p.ended i = threads[i]?.getD [] := by
  obtain ⟨n, hn⟩ := fair_end (step := SKL.call K fuel) (s0 := Shared.of s) schedule fair fun is j c m e => by
    obtain ⟨-, -, h3, -⟩ := Guarded.orderly_grows (SKL.follows hK fuel) ⟨s, .of s, (SKL.reachable_inv hK hs), rfl⟩ threads hcalls (by show ((Core.iter s).length + KOp.brought threads) * 2 ^ KOp.doublings threads < fuel - 1; omega) is
    obtain ⟨s', h⟩ := h3 j c m e
    rw [h]; rfl
  exact ⟨n, hn, ended_all ((Guarded.Orderly.start _ threads).run _) hn⟩

/-- C89: once nobody is in a call, the list is as any list with its values: the answers of all calls that follow are those of the plain sorted list. -/
theorem C89_list_later {E : Env α} {lt : α → α → Bool} (hE : E.Lawful lt) {s : St α α} (hs : (SL.api E).Reachable s) (threads : List (List (Op α))) (hcalls : ∀ cs ∈ threads, ∀ op ∈ cs, op.Valid) (fuel : Nat)
    (hf : ((Core.iter s).length + Op.brought threads) * 2 ^ Op.doublings threads < fuel) (schedule : List Nat) (ops : List (Op α)) (hops : ∀ op ∈ ops, op.Valid) :
    let p := (SL.guarded s threads).run (SL.step E fuel) schedule
    let plain := runHist (Spec.step (Spec.Order.ofValues lt)) ops p.shared.contents
    p.holder = none → (runHist (SL.api E).step ops p.shared.view).1 = plain.1 ∧ Core.iter (runHist (SL.api E).step ops p.shared.view).2 = plain.2 := by
  intro p plain hn
  obtain ⟨-, h2, -, -⟩ := Guarded.orderly_grows (SL.follows hE fuel) ⟨s, .of s, ((SL.api_lawful hE).reachable hs), rfl⟩ threads hcalls hf schedule
  obtain ⟨t, hM, hi, -⟩ := h2 hn
  obtain ⟨k1, k2, -⟩ := (SL.api_lawful hE).hist ops hops hi
  have hv : p.shared.view = t := hM.view
  have hc : p.shared.contents = Core.iter t := hM.contents
  show (runHist _ ops p.shared.view).1 = (runHist _ ops p.shared.contents).1 ∧ Core.iter (runHist _ ops p.shared.view).2 = (runHist _ ops p.shared.contents).2
  rw [hv, hc]
  exact ⟨k1, k2⟩

/-- C89: the same for a SortedKeyList. -/
theorem C89_key_list_later {K : KEnv α κ} {key : α → κ} {klt : κ → κ → Bool} {veq : α → α → Bool} (hK : K.Lawful key klt veq) {s : St α κ}
    (hs : SKL.Reachable K s) (threads : List (List (KOp α κ))) (hcalls : ∀ cs ∈ threads, ∀ op ∈ cs, op.Valid) (fuel : Nat)
    (hf : ((Core.iter s).length + KOp.brought threads) * 2 ^ KOp.doublings threads + 1 < fuel) (schedule : List Nat) (ops : List (KOp α κ)) (hops : ∀ op ∈ ops, op.Valid) :
    let p := (SKL.guarded s threads).run (SKL.call K fuel) schedule
    let plain := runHist (Spec.kstep key klt (Spec.Order.ofKey key klt veq K.vcmp)) ops p.shared.contents
    p.holder = none → (runHist (SKL.kstep K) ops p.shared.view).1 = plain.1 ∧ Core.iter (runHist (SKL.kstep K) ops p.shared.view).2 = plain.2 := by
  intro p plain hn
  obtain ⟨-, h2, -, -⟩ := Guarded.orderly_grows (SKL.follows hK fuel) ⟨s, .of s, (SKL.reachable_inv hK hs), rfl⟩ threads hcalls (by show ((Core.iter s).length + KOp.brought threads) * 2 ^ KOp.doublings threads < fuel - 1; omega) schedule
  obtain ⟨t, hM, hi, -⟩ := h2 hn
  obtain ⟨k1, k2, -⟩ := Refines.hist ops (fun op ho => SKL.kstep_refines hK op (hops op ho)) hi
  have hv : p.shared.view = t := hM.view
  have hc : p.shared.contents = Core.iter t := hM.contents
  show (runHist _ ops p.shared.view).1 = (runHist _ ops p.shared.contents).1 ∧ Core.iter (runHist _ ops p.shared.view).2 = (runHist _ ops p.shared.contents).2
  rw [hv, hc]
  exact ⟨k1, k2⟩

/-- C89: a call that no other thread interrupts answers and leaves what the method does (Model/SortedList.lean): the programs of Model/Race.lean and the methods are the same code. -/
theorem C89_list_alone {E : Env α} {lt : α → α → Bool} (hE : E.Lawful lt) {s : St α α} (hs : (SL.api E).Reachable s) (op : Op α) (fuel : Nat)
    (hop : op.Valid) (hf : ((Core.iter s).length + op.given.length) * 2 ^ op.doubles < fuel) :
    ∃ s', (SL.step E fuel op).alone (Shared.of s) = some (((SL.api E).step op s).1, s') ∧ s'.view = ((SL.api E).step op s).2 := by
  have hi := ((SL.api_lawful hE).reachable hs)
  obtain ⟨s', e, hM⟩ := Agrees.SL_ends hE op (.of s) hi hop hf
  exact ⟨s', e, hM.view⟩

/-- C89: the same for a SortedKeyList (Model/SortedKeyList.lean). -/
theorem C89_key_list_alone {K : KEnv α κ} {key : α → κ} {klt : κ → κ → Bool} {veq : α → α → Bool} (hK : K.Lawful key klt veq) {s : St α κ}
    (hs : SKL.Reachable K s) (op : KOp α κ) (fuel : Nat)
    (hop : op.Valid) (hf : ((Core.iter s).length + op.given.length) * 2 ^ op.doubles + 1 < fuel) :
    ∃ s', (SKL.call K fuel op).alone (Shared.of s) = some ((SKL.kstep K op s).1, s') ∧ s'.view = (SKL.kstep K op s).2 := by
  have hi := (SKL.reachable_inv hK hs)
  obtain ⟨s', e, hM⟩ := Agrees.SKL_call_ends hK (fuel := fuel) op (.of s) hi hop (by omega)
  exact ⟨s', e, hM.view⟩

/-! ## The hypotheses are met -/

namespace Demo

/-- The same calls on a SortedKeyList. -/
def onKeys (threads : List (List (Op Int))) : List (List (KOp Int Int)) := threads.map (·.map .op)

/-- Three threads that change a list; their turns come one after the other, so that each finds the lock taken again and again. -/
def lockThreads : List (List (Op Int)) := [[.add 9, .pop (-1)], [.clear, .update [5, 6, 7], .getInt 2], [.remove 3, .count 3]]
def lockSchedule : List Nat := (List.range 700).map (· % 3)

example := C89_list intEnv_lawful sl_reachable lockThreads (by simp [lockThreads, Op.Valid]) 30 (by decide +kernel) lockSchedule
example := C89_list_answer intEnv_lawful sl_reachable lockThreads (by simp [lockThreads, Op.Valid]) 30 (by decide +kernel) lockSchedule
example := C89_list_later intEnv_lawful sl_reachable lockThreads (by simp [lockThreads, Op.Valid]) 30 (by decide +kernel) lockSchedule [.add 4, .iter] (by simp [Op.Valid])
example := C89_list_ends intEnv_lawful sl_reachable lockThreads (by simp [lockThreads, Op.Valid]) 30 (by decide +kernel) (· % 3) fun i hi n => ⟨n * 3 + i, by omega, by simp [lockThreads] at hi; omega⟩
example := C89_list_alone intEnv_lawful sl_reachable (.update [4, 2]) 30 trivial (by decide +kernel)
example := C89_key_list tensEnv_lawful skl_reachable (onKeys lockThreads) (by simp [onKeys, lockThreads, KOp.Valid, Op.Valid]) 30 (by decide +kernel) lockSchedule
example := C89_key_list_ends tensEnv_lawful skl_reachable (onKeys lockThreads) (by simp [onKeys, lockThreads, KOp.Valid, Op.Valid]) 30 (by decide +kernel) (· % 3) fun i hi n => ⟨n * 3 + i, by omega, by simp [onKeys, lockThreads] at hi; omega⟩
example := C89_key_list_alone tensEnv_lawful skl_reachable (.op (.update [4, 2])) 30 trivial (by decide +kernel)

/-- What comes of it: `remove(3)` and `pop()` find the list empty. -/
example : let p := (SL.guarded sl lockThreads).run (SL.step intEnv 30) lockSchedule
    p.log.map (fun e => (e.1, e.2.2)) = [(0, .ok .none), (1, .ok .none), (2, .error .valueError), (0, .error .indexError), (1, .ok .none), (2, .ok (.int 0)), (1, .ok (.val 7))] ∧
    p.shared.contents = [5, 6, 7] := by decide +kernel

/-- Slices, ranges and searches. -/
def lockSlices : List (List (Op Int)) :=
  [[.getSlice { start := some 1, stop := some 7 }, .delSlice { start := some 2, stop := some 4 }, .reversed], [.index 7 none none, .iadd [6], .irange (some 4) (some 7) true false false],
   [.islice (some 1) (some (-1)) true, .getSlice { step := some (-2) }, .delSlice { step := some 2 }]]

example := C89_list intEnv_lawful sl_reachable lockSlices (by simp [lockSlices, Op.Valid]) 30 (by decide +kernel) lockSchedule
example := C89_key_list tensEnv_lawful skl_reachable (onKeys lockSlices) (by simp [onKeys, lockSlices, KOp.Valid, Op.Valid]) 30 (by decide +kernel) lockSchedule
example := C89_list_alone intEnv_lawful sl_reachable (.delSlice { start := some 2, stop := some 7 }) 30 trivial (by decide +kernel)
example := C89_key_list_alone tensEnv_lawful skl_reachable (.op (.index 7 (some 1) none)) 30 trivial (by decide +kernel)

/-- What comes of it. -/
example : let p := (SL.guarded sl lockSlices).run (SL.step intEnv 30) ((List.range 1600).map (· % 3))
    p.log.map (fun e => (e.1, e.2.2)) = [(0, .ok (.vals [3, 3, 4, 5, 7, 8])), (1, .ok (.int 5)), (2, .ok (.vals [8, 7, 5, 4, 3, 3])), (0, .ok .none), (1, .ok .none), (2, .ok (.vals [9, 7, 5, 3])),
      (0, .ok (.vals [9, 8, 7, 6, 5, 3, 3])), (1, .ok (.vals [5, 6])), (2, .ok .none)] ∧
    p.shared.contents = [3, 6, 8] := by decide +kernel

/-- Comparisons, new lists, `*=`, and another load factor. -/
def lockCopies : List (List (Op Int)) :=
  [[.compare .lt [3, 3, 3, 5], .copy, .compare .eq [3, 3, 9, 9]], [.delSlice { start := some 2, stop := some 7 }, .imul 2, .concat [4, 1]], [.mul 2, .reset 3, .compare .ge [3, 3, 8]]]

example := C89_list intEnv_lawful sl_reachable lockCopies (by simp [lockCopies, Op.Valid]) 60 (by decide +kernel) lockSchedule
example := C89_key_list tensEnv_lawful skl_reachable (onKeys lockCopies) (by simp [onKeys, lockCopies, KOp.Valid, Op.Valid]) 60 (by decide +kernel) lockSchedule
example := C89_list_alone intEnv_lawful sl_reachable (.compare .le [3, 3, 4]) 30 trivial (by decide +kernel)
example := C89_list_alone intEnv_lawful sl_reachable (.imul 3) 90 trivial (by decide +kernel)
example := C89_key_list_alone tensEnv_lawful skl_reachable (.op (.concat [7, 1])) 30 trivial (by decide +kernel)
example := C89_key_list_alone tensEnv_lawful skl_reachable (.op (.reset 2)) 30 (by simp [KOp.Valid, Op.Valid]) (by decide +kernel)

/-- What comes of it. -/
example : let p := (SL.guarded sl lockCopies).run (SL.step intEnv 60) lockSchedule
    p.log.map (fun e => (e.1, e.2.2)) = [(0, .ok (.bool true)), (1, .ok .none), (2, .ok (.vals [3, 3, 3, 3, 9, 9])), (0, .ok (.vals [3, 3, 9])), (1, .ok .none), (2, .ok .none), (0, .ok (.bool false)),
      (1, .ok (.vals [1, 3, 3, 3, 3, 4, 9, 9])), (2, .ok (.bool false))] ∧
    p.shared.contents = [3, 3, 3, 3, 9, 9] ∧ p.shared.load = 3 := by decide +kernel

/-- Searches by key, and methods that a sorted list refuses. -/
def lockKeys : List (List (KOp Int Int)) :=
  [[.bisectKeyLeft 7, .op (.add 13), .irangeKey (some 1) (some 9) true false true], [.op (.unsupported .reverse), .bisectKeyRight 7, .op (.remove 99)], [.irangeKey (some 3) none false true false, .op (.pop 0)]]

example := C89_key_list tensEnv_lawful skl_reachable lockKeys (by simp [lockKeys, KOp.Valid, Op.Valid]) 60 (by decide +kernel) lockSchedule
example := C89_key_list_answer tensEnv_lawful skl_reachable lockKeys (by simp [lockKeys, KOp.Valid, Op.Valid]) 60 (by decide +kernel) lockSchedule
example := C89_key_list_later tensEnv_lawful skl_reachable lockKeys (by simp [lockKeys, KOp.Valid, Op.Valid]) 60 (by decide +kernel) lockSchedule [.bisectKeyLeft 2, .op .iter] (by simp [KOp.Valid, Op.Valid])
example := C89_key_list_alone tensEnv_lawful skl_reachable (.irangeKey (some 1) (some 4) false true true) 60 trivial (by decide +kernel)
example := C89_list_alone intEnv_lawful sl_reachable (.unsupported (.append 4)) 60 trivial (by decide +kernel)

/-- What comes of it: 13 is added and popped again; the other keys are 3, 4, 5 and 9. -/
example : let p := (SKL.guarded skl lockKeys).run (SKL.call tensEnv 60) ((List.range 900).map (· % 3))
    p.log.map (fun e => (e.1, e.2.2)) = [(0, .ok (.int 7)), (1, .error .notImplementedError), (2, .ok (.vals [44, 52, 97])), (0, .ok .none), (1, .ok (.int 8)), (2, .ok (.val 13)),
      (0, .ok (.vals [52, 44, 38, 33, 31, 35, 31])), (1, .error .valueError)] ∧
    p.shared.contents = [31, 35, 31, 33, 38, 44, 52, 97] := by decide +kernel

end Demo

end Verif
