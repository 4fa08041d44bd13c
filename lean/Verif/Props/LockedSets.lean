import Verif.Proofs.LockedDicts
import Verif.Props.Locked
import Verif.Props.ThreadsSets
/-!
# C90: threads that share a sorted set or dict and a lock

As C89, for SortedSet and SortedDict (Model/RaceSets.lean): each thread makes its calls as `with lock: answer = ss.method(...)`, and can be suspended between any two accesses to the built-in
set or dict and to `_list`.  Whatever the schedule, the calls answer what a plain set or dict answers to the same calls in the order in which the lock was given back, and all calls end.
-/

namespace Verif
variable {α τ κ ν : Type}
open Race

/-- The number of values that the threads pass to the set, all in all. -/
def SSOp.brought (threads : List (List (SSOp α))) : Nat := (threads.map fun cs => (cs.map fun op => op.given.length).sum).sum

/-- The number of items that the threads pass to the dict, all in all. -/
def SDOp.brought (threads : List (List (SDOp κ ν))) : Nat := (threads.map fun cs => (cs.map fun op => op.given.length).sum).sum

/-- The set in memory as the other modules see it. -/
def Race.SS.view (c : ListClass α) (s : Verif.SS τ c.Memory) : Verif.SS τ c.State := { set := s.set, list := c.view s.list }

/-- The dict in memory as the other modules see it. -/
def Race.SD.view (c : ListClass κ) (s : Verif.SD κ ν c.Memory) : Verif.SD κ ν c.State := { dict := s.dict, list := c.view s.list }

section sets
variable {c : ListClass α} {lt eqv : α → α → Bool} {S : SetOps τ α}

/-- What the proofs below share. -/
private theorem set_orderly [DecidableEq α] (hc : c.Orders lt eqv) (hS : S.Lawful eqv) (heq : ∀ a b, eqv a b = decide (a = b)) (htotal : ∀ a b, lt a b = false → lt b a = false → a = b)
    {s : Verif.SS τ c.State} (hs : Verif.SS.Reachable S c.api s) (threads : List (List (SSOp α))) (hok : ∀ cs ∈ threads, ∀ op ∈ cs, op.Valid) (fuel : Nat)
    (hf : (Verif.SS.iter c.api s).length + SSOp.brought threads + 1 < fuel) (schedule : List Nat) :
    let p := (Race.SS.guarded c s threads).run (Race.SS.step S (c.race fuel) c.api) schedule
    let plain := runHist (SetSpec.step (setOrder lt eqv)) (p.log.map fun e => e.2.1) (Verif.SS.iter c.api s)
    (p.log.map fun e => e.2.2) = plain.1 ∧
    (p.holder = none → c.contents p.shared.list = plain.2 ∧ (S.toList p.shared.set).Perm plain.2 ∧
      ∀ ops : List (SSOp α), (∀ op ∈ ops, op.Valid) →
        (runHist (Verif.SS.step S c.api) ops (Race.SS.view c p.shared)).1 = (runHist (SetSpec.step (setOrder lt eqv)) ops plain.2).1 ∧
        Verif.SS.iter c.api (runHist (Verif.SS.step S c.api) ops (Race.SS.view c p.shared)).2 = (runHist (SetSpec.step (setOrder lt eqv)) ops plain.2).2) ∧
    (∀ i op rest, p.holder = some (i, op, rest) → ∃ s', rest.alone p.shared = some ((SetSpec.step (setOrder lt eqv) op plain.2).1, s')) ∧
    Guarded.Orderly (Race.SS.step S (c.race fuel) c.api) (Race.SS.of c s) threads p := by
  obtain ⟨O, I, R, ⟨hL, hlt, hsame⟩, hT, hof, hR⟩ := Race.tracks hc fuel
  have h : Verif.SS.Good S c.api O eqv I := ⟨hS, hL, hsame⟩
  have ht : Verif.SS.Total O eqv := ⟨heq, fun a b hab => by
    simp only [equiv, Bool.and_eq_true, Bool.not_eq_true', hlt] at hab
    exact htotal a b hab.1 hab.2⟩
  have hstep : SetSpec.step (setOrder lt eqv) = SetSpec.step O := by
    funext op; exact (SetSpec.step_congr O hlt (by funext a b; exact hsame a b) op).symm
  have hi := Verif.SS.reachable_inv h hs
  intro p plain
  obtain ⟨h1, h2, h3, h4⟩ := Guarded.orderly (Race.SS.follows hT h ht) (s0 := Race.SS.of c s) ⟨s, ⟨rfl, hof _ hi.list⟩, hi, rfl⟩ threads hok
    (by show (Verif.SS.iter c.api s).length + SSOp.brought threads < fuel - 1; omega) schedule
  rw [← hstep] at h1 h2 h3
  refine ⟨h1, fun e => ?_, h3, h4⟩
  obtain ⟨t, hP, hi', e'⟩ := h2 e
  obtain ⟨-, k2, k3⟩ := hR _ _ hP.2
  have k2' : c.contents p.shared.list = c.api.iter t.list := k2
  have k3' : c.view p.shared.list = t.list := k3
  have k1' : p.shared.set = t.set := hP.1
  have e'' : c.api.iter t.list = plain.2 := e'
  have hv : Race.SS.view c p.shared = t := by rw [Race.SS.view, k3', k1']
  refine ⟨k2'.trans e'', by rw [k1', ← e'']; exact hi'.perm, fun ops hops => ?_⟩
  obtain ⟨r1, r2, -⟩ := Refines.hist ops (fun op ho => Verif.SS.step_refines h ht op (hops op ho)) hi'
  rw [← hstep, show Verif.SS.iter c.api t = plain.2 from e''] at r1 r2
  rw [hv]
  exact ⟨r1, r2⟩

/-- C90: threads use a SortedSet under a lock.  At every point of every schedule: the calls that have ended have answered what the plain set with the same values answers to them, one after
the other in the order of the log; if nobody is in a call, iteration yields the values of the plain set in order, and the built-in set holds the same values; and the calls of each thread that
have ended, the one it is in, and those it has yet to begin are, in this order, its calls. -/
theorem C90_set [DecidableEq α] (hc : c.Orders lt eqv) (hS : S.Lawful eqv) (heq : ∀ a b, eqv a b = decide (a = b)) (htotal : ∀ a b, lt a b = false → lt b a = false → a = b)
    {s : Verif.SS τ c.State} (hs : Verif.SS.Reachable S c.api s) (threads : List (List (SSOp α))) (hok : ∀ cs ∈ threads, ∀ op ∈ cs, op.Valid) (fuel : Nat)
    (hf : (Verif.SS.iter c.api s).length + SSOp.brought threads + 1 < fuel) (schedule : List Nat) :
    let p := (Race.SS.guarded c s threads).run (Race.SS.step S (c.race fuel) c.api) schedule
    let plain := runHist (SetSpec.step (setOrder lt eqv)) (p.log.map fun e => e.2.1) (Verif.SS.iter c.api s)
    (p.log.map fun e => e.2.2) = plain.1 ∧
    (p.holder = none → c.contents p.shared.list = plain.2 ∧ (S.toList p.shared.set).Perm plain.2) ∧
    ∀ i calls, p.waiting[i]? = some calls → threads[i]? = some (p.ended i ++ p.current i ++ calls) := by
  intro p plain
  obtain ⟨h1, h2, -, h4⟩ := set_orderly hc hS heq htotal hs threads hok fuel hf schedule
  exact ⟨h1, fun e => ⟨(h2 e).1, (h2 e).2.1⟩, h4.calls⟩

/-- C90: a call always ends: at every point of every schedule, the thread that is in a call, given enough turns in a row, comes to the end of it, and its answer will be that of the plain set. -/
theorem C90_set_answer [DecidableEq α] (hc : c.Orders lt eqv) (hS : S.Lawful eqv) (heq : ∀ a b, eqv a b = decide (a = b)) (htotal : ∀ a b, lt a b = false → lt b a = false → a = b)
    {s : Verif.SS τ c.State} (hs : Verif.SS.Reachable S c.api s) (threads : List (List (SSOp α))) (hok : ∀ cs ∈ threads, ∀ op ∈ cs, op.Valid) (fuel : Nat)
    (hf : (Verif.SS.iter c.api s).length + SSOp.brought threads + 1 < fuel) (schedule : List Nat) :
    let p := (Race.SS.guarded c s threads).run (Race.SS.step S (c.race fuel) c.api) schedule
    let plain := runHist (SetSpec.step (setOrder lt eqv)) (p.log.map fun e => e.2.1) (Verif.SS.iter c.api s)
    ∀ i op rest, p.holder = some (i, op, rest) → ∃ s', rest.alone p.shared = some ((SetSpec.step (setOrder lt eqv) op plain.2).1, s') :=
  (set_orderly hc hS heq htotal hs threads hok fuel hf schedule).2.2.1

/-- C90: if every thread has turns again and again, there is a time at which all calls of all threads have ended. -/
theorem C90_set_ends [DecidableEq α] (hc : c.Orders lt eqv) (hS : S.Lawful eqv) (heq : ∀ a b, eqv a b = decide (a = b)) (htotal : ∀ a b, lt a b = false → lt b a = false → a = b)
    {s : Verif.SS τ c.State} (hs : Verif.SS.Reachable S c.api s) (threads : List (List (SSOp α))) (hok : ∀ cs ∈ threads, ∀ op ∈ cs, op.Valid) (fuel : Nat)
    (hf : (Verif.SS.iter c.api s).length + SSOp.brought threads + 1 < fuel) (schedule : Nat → Nat) (fair : ∀ i, i < threads.length → ∀ n, ∃ m, n ≤ m ∧ schedule m = i) :
    ∃ n, let p := (Race.SS.guarded c s threads).run (Race.SS.step S (c.race fuel) c.api) ((List.range n).map schedule)
      p.Done ∧ ∀ i, p.ended i = threads[i]?.getD [] := by
  obtain ⟨n, hn⟩ := fair_end (step := Race.SS.step S (c.race fuel) c.api) (s0 := Race.SS.of c s) schedule fair fun is j op m e => by
    obtain ⟨s', h⟩ := (set_orderly hc hS heq htotal hs threads hok fuel hf is).2.2.1 j op m e
    have h' : m.alone (({ shared := Race.SS.of c s, holder := none, waiting := threads, log := [] } : Guarded _ _ _).run (Race.SS.step S (c.race fuel) c.api) is).shared = _ := h
    rw [h']; rfl
  exact ⟨n, hn, ended_all ((Guarded.Orderly.start _ threads).run _) hn⟩

/-- C90: once nobody is in a call, the set is as any set with its values: the answers of all calls that follow, of any kind, are those of the plain set. -/
theorem C90_set_later [DecidableEq α] (hc : c.Orders lt eqv) (hS : S.Lawful eqv) (heq : ∀ a b, eqv a b = decide (a = b)) (htotal : ∀ a b, lt a b = false → lt b a = false → a = b)
    {s : Verif.SS τ c.State} (hs : Verif.SS.Reachable S c.api s) (threads : List (List (SSOp α))) (hok : ∀ cs ∈ threads, ∀ op ∈ cs, op.Valid) (fuel : Nat)
    (hf : (Verif.SS.iter c.api s).length + SSOp.brought threads + 1 < fuel) (schedule : List Nat) (ops : List (SSOp α)) (hops : ∀ op ∈ ops, op.Valid) :
    let p := (Race.SS.guarded c s threads).run (Race.SS.step S (c.race fuel) c.api) schedule
    let plain := runHist (SetSpec.step (setOrder lt eqv)) ops (c.contents p.shared.list)
    let real := runHist (Verif.SS.step S c.api) ops (Race.SS.view c p.shared)
    p.holder = none → real.1 = plain.1 ∧ Verif.SS.iter c.api real.2 = plain.2 := by
  intro p plain real e
  obtain ⟨h1, -, h3⟩ := (set_orderly hc hS heq htotal hs threads hok fuel hf schedule).2.1 e
  have := h3 ops hops
  rw [← h1] at this
  exact this

/-- C90: a call that no other thread interrupts answers and leaves what the method of Model/SortedSet.lean does. -/
theorem C90_set_alone [DecidableEq α] (hc : c.Orders lt eqv) (hS : S.Lawful eqv) (heq : ∀ a b, eqv a b = decide (a = b)) (htotal : ∀ a b, lt a b = false → lt b a = false → a = b)
    {s : Verif.SS τ c.State} (hs : Verif.SS.Reachable S c.api s) (op : SSOp α) (ho : op.Valid) (fuel : Nat) (hf : (Verif.SS.iter c.api s).length + op.given.length + 1 < fuel) :
    ∃ s', (Race.SS.step S (c.race fuel) c.api op).alone (Race.SS.of c s) = some ((Verif.SS.step S c.api op s).1, s') ∧ Race.SS.view c s' = (Verif.SS.step S c.api op s).2 := by
  obtain ⟨O, I, R, ⟨hL, hlt, hsame⟩, hT, hof, hR⟩ := Race.tracks hc fuel
  have h : Verif.SS.Good S c.api O eqv I := ⟨hS, hL, hsame⟩
  have ht : Verif.SS.Total O eqv := ⟨heq, fun a b hab => by
    simp only [equiv, Bool.and_eq_true, Bool.not_eq_true', hlt] at hab
    exact htotal a b hab.1 hab.2⟩
  have hi := Verif.SS.reachable_inv h hs
  obtain ⟨s', e, hP⟩ := Race.SS.same_step hT h (s := Race.SS.of c s) ⟨rfl, hof _ hi.list⟩ ht op ho hi (by have := hf; unfold Verif.SS.iter at this; omega)
  have hid : ∀ x : Except PyErr (Out α), Except.map id x = x := fun x => by cases x <;> rfl
  exact ⟨s', by rw [e, hid], by rw [Race.SS.view, (hR _ _ hP.2).2.2, hP.1]⟩

end sets

section dicts
variable {c : ListClass κ} {lt eqv : κ → κ → Bool}

private theorem dict_orderly (hc : c.Orders lt eqv) (he : IsEquiv eqv) {s : Verif.SD κ ν c.State} (hs : Verif.SD.Reachable eqv c.api s) (threads : List (List (SDOp κ ν)))
    (hok : ∀ cs ∈ threads, ∀ op ∈ cs, op.Valid) (fuel : Nat) (hf : s.dict.length + SDOp.brought threads + 1 < fuel) (schedule : List Nat) :
    let p := (Race.SD.guarded c s threads).run (Race.SD.step eqv (c.race fuel) c.api) schedule
    let plain := runHist (DictSpec.step eqv (setOrder lt eqv)) (p.log.map fun e => e.2.1) s.dict
    (p.log.map fun e => e.2.2) = plain.1 ∧
    (p.holder = none → p.shared.dict = plain.2 ∧ c.contents p.shared.list = DictSpec.sortedKeys (setOrder lt eqv) plain.2 ∧
      ∀ ops : List (SDOp κ ν), (∀ op ∈ ops, op.Valid) →
        (runHist (Verif.SD.step eqv c.api) ops (Race.SD.view c p.shared)).1 = (runHist (DictSpec.step eqv (setOrder lt eqv)) ops plain.2).1 ∧
        (runHist (Verif.SD.step eqv c.api) ops (Race.SD.view c p.shared)).2.dict = (runHist (DictSpec.step eqv (setOrder lt eqv)) ops plain.2).2) ∧
    (∀ i op rest, p.holder = some (i, op, rest) → ∃ s', rest.alone p.shared = some ((DictSpec.step eqv (setOrder lt eqv) op plain.2).1, s')) ∧
    Guarded.Orderly (Race.SD.step eqv (c.race fuel) c.api) (Race.SD.of c s) threads p := by
  obtain ⟨O, I, R, ⟨hL, rfl, hsame⟩, hT, hof, hR⟩ := Race.tracks hc fuel
  have h : Verif.SD.Good c.api O eqv I := ⟨he, hL, hsame⟩
  have hstep : DictSpec.step eqv (setOrder O.lt eqv) = DictSpec.step (ν := ν) eqv O := by
    funext op; exact (DictSpec.step_congr O rfl (by funext a b; exact hsame a b) op).symm
  have hi := Verif.SD.reachable_inv h hs
  intro p plain
  obtain ⟨h1, h2, h3, h4⟩ := Guarded.orderly (Race.SD.follows hT h) (s0 := Race.SD.of c s) ⟨s, ⟨rfl, hof _ hi.list⟩, hi, rfl⟩ threads hok
    (by show s.dict.length + SDOp.brought threads < fuel - 1; omega) schedule
  rw [← hstep] at h1 h2 h3
  refine ⟨h1, fun e => ?_, h3, h4⟩
  obtain ⟨t, hP, hi', e'⟩ := h2 e
  obtain ⟨-, k2, k3⟩ := hR _ _ hP.2
  have k2' : c.contents p.shared.list = c.api.iter t.list := k2
  have k3' : c.view p.shared.list = t.list := k3
  have k1' : p.shared.dict = t.dict := hP.1
  have e'' : t.dict = plain.2 := e'
  have hv : Race.SD.view c p.shared = t := by rw [Race.SD.view, k3', k1']
  refine ⟨k1'.trans e'', by rw [k2', hi'.iter, e'']; rfl, fun ops hops => ?_⟩
  obtain ⟨r1, r2, -⟩ := Refines.hist ops (fun op ho => Verif.SD.step_refines h op (hops op ho)) hi'
  rw [← hstep, e''] at r1 r2
  rw [hv]
  exact ⟨r1, r2⟩

/-- C90: threads use a SortedDict under a lock.  At every point of every schedule: the calls that have ended have answered what the plain dict with the same items (and `sorted(d, key=key)`
wherever an order is asked for) answers to them, one after the other in the order of the log; if nobody is in a call, the dict has the items of the plain one, and iteration yields its keys in
order; and the calls of each thread that have ended, the one it is in, and those it has yet to begin are, in this order, its calls. -/
theorem C90_dict (hc : c.Orders lt eqv) (he : IsEquiv eqv) {s : Verif.SD κ ν c.State} (hs : Verif.SD.Reachable eqv c.api s) (threads : List (List (SDOp κ ν)))
    (hok : ∀ cs ∈ threads, ∀ op ∈ cs, op.Valid) (fuel : Nat) (hf : s.dict.length + SDOp.brought threads + 1 < fuel) (schedule : List Nat) :
    let p := (Race.SD.guarded c s threads).run (Race.SD.step eqv (c.race fuel) c.api) schedule
    let plain := runHist (DictSpec.step eqv (setOrder lt eqv)) (p.log.map fun e => e.2.1) s.dict
    (p.log.map fun e => e.2.2) = plain.1 ∧
    (p.holder = none → p.shared.dict = plain.2 ∧ c.contents p.shared.list = DictSpec.sortedKeys (setOrder lt eqv) plain.2) ∧
    ∀ i calls, p.waiting[i]? = some calls → threads[i]? = some (p.ended i ++ p.current i ++ calls) := by
  intro p plain
  obtain ⟨h1, h2, -, h4⟩ := dict_orderly hc he hs threads hok fuel hf schedule
  exact ⟨h1, fun e => ⟨(h2 e).1, (h2 e).2.1⟩, h4.calls⟩

/-- C90: a call always ends, with the answer of the plain dict. -/
theorem C90_dict_answer (hc : c.Orders lt eqv) (he : IsEquiv eqv) {s : Verif.SD κ ν c.State} (hs : Verif.SD.Reachable eqv c.api s) (threads : List (List (SDOp κ ν)))
    (hok : ∀ cs ∈ threads, ∀ op ∈ cs, op.Valid) (fuel : Nat) (hf : s.dict.length + SDOp.brought threads + 1 < fuel) (schedule : List Nat) :
    let p := (Race.SD.guarded c s threads).run (Race.SD.step eqv (c.race fuel) c.api) schedule
    let plain := runHist (DictSpec.step eqv (setOrder lt eqv)) (p.log.map fun e => e.2.1) s.dict
    ∀ i op rest, p.holder = some (i, op, rest) → ∃ s', rest.alone p.shared = some ((DictSpec.step eqv (setOrder lt eqv) op plain.2).1, s') :=
  (dict_orderly hc he hs threads hok fuel hf schedule).2.2.1

/-- C90: if every thread has turns again and again, there is a time at which all calls of all threads have ended. -/
theorem C90_dict_ends (hc : c.Orders lt eqv) (he : IsEquiv eqv) {s : Verif.SD κ ν c.State} (hs : Verif.SD.Reachable eqv c.api s) (threads : List (List (SDOp κ ν)))
    (hok : ∀ cs ∈ threads, ∀ op ∈ cs, op.Valid) (fuel : Nat) (hf : s.dict.length + SDOp.brought threads + 1 < fuel)
    (schedule : Nat → Nat) (fair : ∀ i, i < threads.length → ∀ n, ∃ m, n ≤ m ∧ schedule m = i) :
    ∃ n, let p := (Race.SD.guarded c s threads).run (Race.SD.step eqv (c.race fuel) c.api) ((List.range n).map schedule)
      p.Done ∧ ∀ i, p.ended i = threads[i]?.getD [] := by
  obtain ⟨n, hn⟩ := fair_end (step := Race.SD.step eqv (c.race fuel) c.api) (s0 := Race.SD.of c s) schedule fair fun is j op m e => by
    obtain ⟨s', h⟩ := (dict_orderly hc he hs threads hok fuel hf is).2.2.1 j op m e
    have h' : m.alone (({ shared := Race.SD.of c s, holder := none, waiting := threads, log := [] } : Guarded _ _ _).run (Race.SD.step eqv (c.race fuel) c.api) is).shared = _ := h
    rw [h']; rfl
  exact ⟨n, hn, ended_all ((Guarded.Orderly.start _ threads).run _) hn⟩

/-- C90: once nobody is in a call, the dict is as any dict with its items: the answers of all calls that follow, of any kind, are those of the plain dict. -/
theorem C90_dict_later (hc : c.Orders lt eqv) (he : IsEquiv eqv) {s : Verif.SD κ ν c.State} (hs : Verif.SD.Reachable eqv c.api s) (threads : List (List (SDOp κ ν)))
    (hok : ∀ cs ∈ threads, ∀ op ∈ cs, op.Valid) (fuel : Nat) (hf : s.dict.length + SDOp.brought threads + 1 < fuel) (schedule : List Nat)
    (ops : List (SDOp κ ν)) (hops : ∀ op ∈ ops, op.Valid) :
    let p := (Race.SD.guarded c s threads).run (Race.SD.step eqv (c.race fuel) c.api) schedule
    let plain := runHist (DictSpec.step eqv (setOrder lt eqv)) ops p.shared.dict
    let real := runHist (Verif.SD.step eqv c.api) ops (Race.SD.view c p.shared)
    p.holder = none → real.1 = plain.1 ∧ real.2.dict = plain.2 := by
  intro p plain real e
  obtain ⟨h1, -, h3⟩ := (dict_orderly hc he hs threads hok fuel hf schedule).2.1 e
  have := h3 ops hops
  rw [← h1] at this
  exact this

/-- C90: a call that no other thread interrupts answers and leaves what the method of Model/SortedDict.lean does. -/
theorem C90_dict_alone (hc : c.Orders lt eqv) (he : IsEquiv eqv) {s : Verif.SD κ ν c.State} (hs : Verif.SD.Reachable eqv c.api s) (op : SDOp κ ν) (hv : op.Valid)
    (fuel : Nat) (hf : s.dict.length + op.given.length + 1 < fuel) :
    ∃ s', (Race.SD.step eqv (c.race fuel) c.api op).alone (Race.SD.of c s) = some ((Verif.SD.step eqv c.api op s).1, s') ∧ Race.SD.view c s' = (Verif.SD.step eqv c.api op s).2 := by
  obtain ⟨O, I, R, ⟨hL, rfl, hsame⟩, hT, hof, hR⟩ := Race.tracks hc fuel
  have h : Verif.SD.Good c.api O eqv I := ⟨he, hL, hsame⟩
  have hi := Verif.SD.reachable_inv h hs
  obtain ⟨s', e, hP⟩ := Race.SD.same_step hT h (s := Race.SD.of c s) ⟨rfl, hof _ hi.list⟩ op hv hi (by omega)
  have hid : ∀ x : Except PyErr (DOut κ ν), Except.map id x = x := fun x => by cases x <;> rfl
  exact ⟨s', by rw [e, hid], by rw [Race.SD.view, (hR _ _ hP.2).2.2, hP.1]⟩

end dicts

/-! ## The hypotheses are met -/

namespace Demo

def lockSetThreads : List (List (SSOp Int)) := [[.add 25, .pop (-1)], [.update [[5], [10, 6]], .contains 10, .symmetricDifference [5]], [.discard 10, .iter]]
def lockDictThreads : List (List (SDOp Int String)) := [[.setitem 25 "a", .popitem (-1)], [.update (.pairs [(5, "b"), (25, "c")] none), .get 25, .items], [.clear, .setdefault 5 "d"]]

def lockTensThreads : List (List (SDOp Int Int)) := [[.setitem 25 1, .popitem (-1)], [.update (.pairs [(5, 2), (25, 3)] none), .get 25, .items], [.clear, .setdefault 5 4]]

theorem lockSetThreads_ok : ∀ cs ∈ lockSetThreads, ∀ op ∈ cs, op.Valid := by simp [lockSetThreads, SSOp.Valid]
theorem lockDictThreads_ok : ∀ cs ∈ lockDictThreads, ∀ op ∈ cs, op.Valid := by simp [lockDictThreads, SDOp.Valid, DictArg.fail]

theorem lockTensThreads_ok : ∀ cs ∈ lockTensThreads, ∀ op ∈ cs, op.Valid := by simp [lockTensThreads, SDOp.Valid, DictArg.fail]

example := C90_set intClass_orders (iset_lawful false) ieq_decide ilt_total coldSet_reachable lockSetThreads lockSetThreads_ok 30 (by decide +kernel) lockSchedule
example := C90_set_answer intClass_orders (iset_lawful false) ieq_decide ilt_total coldSet_reachable lockSetThreads lockSetThreads_ok 30 (by decide +kernel) lockSchedule
example := C90_set_later intClass_orders (iset_lawful false) ieq_decide ilt_total coldSet_reachable lockSetThreads lockSetThreads_ok 30 (by decide +kernel) lockSchedule
  [.add 4, .getSlice ⟨none, some 3, none⟩] (by simp [SSOp.Valid])
example := C90_set_ends intClass_orders (iset_lawful false) ieq_decide ilt_total coldSet_reachable lockSetThreads lockSetThreads_ok 30 (by decide +kernel) (· % 3)
  fun i hi n => ⟨n * 3 + i, by omega, by simp [lockSetThreads] at hi; omega⟩
example := C90_set_alone intClass_orders (iset_lawful false) ieq_decide ilt_total coldSet_reachable (.update [[10, 15], [80]]) trivial 30 (by decide +kernel)
example := C90_dict intClass_orders ieqv_equiv coldDict_reachable lockDictThreads lockDictThreads_ok 30 (by decide +kernel) lockSchedule
example := C90_dict tensClass_orders ieqv_equiv dict2_reachable lockTensThreads lockTensThreads_ok 30 (by decide +kernel) lockSchedule
example := C90_dict_answer tensClass_orders ieqv_equiv dict2_reachable lockTensThreads lockTensThreads_ok 30 (by decide +kernel) lockSchedule
example := C90_dict_later tensClass_orders ieqv_equiv dict2_reachable lockTensThreads lockTensThreads_ok 30 (by decide +kernel) lockSchedule
  [.setitem 4 1, .keysSlice ⟨none, some 3, none⟩] (by simp [SDOp.Valid])
example := C90_dict_ends tensClass_orders ieqv_equiv dict2_reachable lockTensThreads lockTensThreads_ok 30 (by decide +kernel) (· % 3)
  fun i hi n => ⟨n * 3 + i, by omega, by simp [lockTensThreads] at hi; omega⟩
example := C90_dict_alone tensClass_orders ieqv_equiv dict2_reachable (.update (.pairs [(33, 7), (35, 8)] none)) rfl 30 (by decide +kernel)

/-- What comes of it. -/
example : let p := (Race.SS.guarded intClass coldSet lockSetThreads).run (Race.SS.step (iset false) (intClass.race 30) intClass.api) lockSchedule
    p.log.map (fun e => (e.1, e.2.2)) =
      [(0, .ok .none), (1, .ok .none), (2, .ok .none), (0, .ok (.val 70)), (1, .ok (.bool false)), (2, .ok (.vals [5, 6, 20, 25, 30, 40, 50, 60])), (1, .ok (.vals [6, 20, 25, 30, 40, 50, 60]))] ∧
    intClass.contents p.shared.list = [5, 6, 20, 25, 30, 40, 50, 60] := by decide +kernel

example : let p := (Race.SD.guarded intClass coldDict lockDictThreads).run (Race.SD.step (equiv ilt) (intClass.race 30) intClass.api) lockSchedule
    p.log.map (fun e => (e.1, e.2.2)) =
      [(0, .ok .none), (1, .ok .none), (2, .ok .none), (0, .error .keyError), (1, .ok .none), (2, .ok (.val "d")), (1, .ok (.items [(5, "d")]))] ∧
    p.shared.dict = [(5, "d")] := by decide +kernel

def lockSetSlices : List (List (SSOp Int)) := [[.delSlice ⟨none, some 2, none⟩, .index 40 none (some 5)], [.add 5, .getSlice ⟨some 1, none, some 2⟩], [.irange (some 20) none false true true, .islice (some (-3)) none false]]
def lockTensSlices : List (List (SDOp Int Int)) := [[.viewDelSlice ⟨none, some 1, none⟩, .index 35 none none], [.setitem 5 1, .itemsSlice ⟨none, none, some 2⟩], [.irange (some 20) none false true true, .valuesSlice ⟨some (-2), none, none⟩, .islice none (some 2) true]]

theorem lockSetSlices_ok : ∀ cs ∈ lockSetSlices, ∀ op ∈ cs, op.Valid := by simp [lockSetSlices, SSOp.Valid]
theorem lockTensSlices_ok : ∀ cs ∈ lockTensSlices, ∀ op ∈ cs, op.Valid := by simp [lockTensSlices, SDOp.Valid]

example := C90_set intClass_orders (iset_lawful false) ieq_decide ilt_total coldSet_reachable lockSetSlices lockSetSlices_ok 30 (by decide +kernel) lockSchedule
example := C90_dict tensClass_orders ieqv_equiv dict2_reachable lockTensSlices lockTensSlices_ok 30 (by decide +kernel) lockSchedule

example : let p := (Race.SS.guarded intClass coldSet lockSetSlices).run (Race.SS.step (iset false) (intClass.race 30) intClass.api) (lockSchedule ++ lockSchedule)
    p.log.map (fun e => (e.1, e.2.2)) =
      [(0, .ok .none), (1, .ok .none), (2, .ok (.vals [70, 60, 50, 40, 30])), (0, .ok (.int 2)), (1, .ok (.vals [30, 50, 70])), (2, .ok (.vals [50, 60, 70]))] ∧
    intClass.contents p.shared.list = [5, 30, 40, 50, 60, 70] := by decide +kernel

example : let p := (Race.SD.guarded tensClass dict2 lockTensSlices).run (Race.SD.step (equiv ilt) (tensClass.race 30) tensClass.api) (lockSchedule ++ lockSchedule)
    p.log.map (fun e => (e.1, e.2.2)) =
      [(0, .ok .none), (1, .ok .none), (2, .ok (.keys [97, 71, 52, 44, 30, 35, 38, 31])), (0, .ok (.int 3)), (1, .ok (.items [(5, 1), (38, 1), (30, 5), (52, 0), (97, 3)])), (2, .ok (.vals [4, 3])),
        (2, .ok (.keys [31, 5]))] := by decide +kernel

def lockSetResets : List (List (SSOp Int)) := [[.reset 4, .add 25], [.update [[5, 15]], .reset 2, .getInt 3]]
def lockTensResets : List (List (SDOp Int Int)) := [[.reset 4, .setitem 25 1], [.reset 2, .peekitem (-1), .keysAt 2]]

theorem lockSetResets_ok : ∀ cs ∈ lockSetResets, ∀ op ∈ cs, op.Valid := by simp [lockSetResets, SSOp.Valid]
theorem lockTensResets_ok : ∀ cs ∈ lockTensResets, ∀ op ∈ cs, op.Valid := by simp [lockTensResets, SDOp.Valid]

example := C90_set intClass_orders (iset_lawful false) ieq_decide ilt_total coldSet_reachable lockSetResets lockSetResets_ok 30 (by decide +kernel) lockSchedule
example := C90_dict tensClass_orders ieqv_equiv dict2_reachable lockTensResets lockTensResets_ok 30 (by decide +kernel) lockSchedule
example := C90_set_alone intClass_orders (iset_lawful false) ieq_decide ilt_total coldSet_reachable (.reset 3) (by simp [SSOp.Valid]) 30 (by decide +kernel)

example : let p := (Race.SS.guarded intClass coldSet lockSetResets).run (Race.SS.step (iset false) (intClass.race 30) intClass.api) (lockSchedule ++ lockSchedule)
    p.log.map (fun e => (e.1, e.2.2)) = [(0, .ok .none), (1, .ok .none), (0, .ok .none), (1, .ok .none), (1, .ok (.val 20))] ∧
    intClass.contents p.shared.list = [5, 10, 15, 20, 25, 30, 40, 50, 60, 70] := by decide +kernel

end Demo

end Verif
