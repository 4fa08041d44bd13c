import Verif.Proofs.OwnersAlone
import Verif.Proofs.OwnersAdds
import Verif.Props.WritersSets
/-!
# C84: threads that change one sorted set or dict

Several threads change one SortedSet with `add`, `discard` and `remove`, or one SortedDict with `sd[k] = v`, `del sd[k]`, `pop` and `setdefault`, and make queries
(`Model/WritersSets.lean`).  Each call changes the built-in set or dict by one step, and calls a method of the sorted list for the rest.  What other threads do to the sorted list in the
meantime is not coordinated, and may make such a call raise (the examples at the end: the list may be unsorted, or have a value twice, for good).  But:

* A thread that changes values or keys which no other thread changes (`own`) may rely on all it is told about them: `v in ss`, `k in sd`, `sd[k]`, `get`, `pop`, `setdefault`, and KeyErrors of `remove`
  and `del` are right.  A call that raises IndexError or ValueError because of other threads has had its effect on the set or dict, or, if it was `sd[k] = v` or `pop`, none.
* Threads that only `add` need not share out the values: when they have finished, the set has the values that it had and those that were added.
* `ss.symmetric_difference_update([])`, or `sd.update(other)` with a large `other`, repairs the object when the threads have finished.

The theorems hold for all programs `W` in place of the methods of the sorted list that change nothing but the sorted list, and raise nothing but `errs`.  So it does not matter at which points
the methods of the sorted list may be suspended.
-/

namespace Verif

section Sets
variable {α τ : Type} {c : ListClass α} {lt eqv : α → α → Bool} {S : SetOps τ α} {s : SS τ c.State}

/-- C84: the methods of the sorted list raise nothing but IndexError and ValueError, whatever other threads do to it, and leave the load factor alone. -/
theorem C84_list_raises (hc : c.Orders lt eqv) (v : α) :
    ((c.writers.add v).MayRaise listErr ∧ (c.writers.remove v).MayRaise listErr) ∧ (c.writers.add v).Leaves c.load ∧ (c.writers.remove v).Leaves c.load :=
  let ⟨h1, h2⟩ := ListClass.writers_mild hc v
  ⟨⟨h1.mayRaise, h2.mayRaise⟩, h1.leaves, h2.leaves⟩

/-- C84: a call that runs alone is the call of the other models. -/
theorem C84_set_alone [DecidableEq α] (hc : c.Orders lt eqv) (hS : S.Lawful eqv)
    (heq : ∀ a b, eqv a b = decide (a = b)) (htotal : ∀ a b, lt a b = false → lt b a = false → a = b) (hs : SS.Reachable S c.api s)
    (op : SSOp α) (hop : op.isQuery = true ∨ op.changed ≠ none) :
    (Threads.SS.change S c.writers c.threaded c.api op).alone s = SS.step S c.api op s := by
  obtain ⟨O, I, g1, rfl, g3, -⟩ := hc.loaded
  have h : SS.Good S c.api O eqv I := ⟨hS, g1, g3⟩
  have ht : SS.Total O eqv := ⟨heq, fun a b hab => by
    simp only [equiv, Bool.and_eq_true, Bool.not_eq_true'] at hab
    exact htotal a b hab.1 hab.2⟩
  have hi := SS.reachable_inv h hs
  have rest : op.isQuery = true → Threads.SS.change S c.writers c.threaded c.api op = Threads.SS.query S c.threaded c.api op →
      (Threads.SS.change S c.writers c.threaded c.api op).alone s = SS.step S c.api op s := fun hq e => by
    rw [e]; exact (Threads.SS.query_asks c.threaded_sound hq).alone s
  have out : ∀ {p : Prog (SS τ c.State) Unit} {m : Py (SS τ c.State) Unit}, SS.step S c.api op = Spec.out (fun _ => Out.none) m → op.Valid → p.Works m s →
      (∃ r, (SetSpec.step O op (SS.iter c.api s)).1 = .ok r) →
      ((fun _ => Out.none) <$> p : Prog _ (Out α)).alone s = SS.step S c.api op s := by
    intro p m e hv hp hr
    rw [← (SS.step_refines h ht op hv s hi).1, e] at hr
    rw [e]
    exact Prog.Works.bind (f := fun _ => (pure Out.none : Py _ (Out α))) (fp := fun _ => .ret (.ok Out.none)) hp (fun _ _ _ => .pure _) hr
  cases op with
  | add v => exact out rfl trivial (Threads.SS.add_works c.writers_works v s) ⟨_, rfl⟩
  | discard v => exact out rfl trivial (Threads.SS.discard_works c.writers_works v s) ⟨_, rfl⟩
  | remove v =>
    rcases hS.remove_cases v s.set with ⟨hm, -⟩ | ⟨-, e⟩
    · refine out rfl trivial (Threads.SS.remove_works c.writers_works v s) ⟨.none, ?_⟩
      have hm : v ∈ SS.iter c.api s := by
        have := hi.mem h v
        rw [hm, ht.any] at this
        exact of_decide_eq_true this.symm
      simp [SetSpec.step, Spec.out, SetSpec.remove, hm]
    · have e1 : SS.setRemove S v s = (.error .keyError, s) := by unfold SS.setRemove; rw [e]
      show ((fun _ => Out.none) <$> Threads.SS.remove S c.writers v : Prog _ (Out α)).alone s = Spec.out _ (SS.remove S c.api v) s
      have e2 : SS.remove S c.api v s = (.error .keyError, s) := Py.bind_error e1
      have e3 : (Threads.SS.remove S c.writers v).alone s = (.error .keyError, s) := by
        unfold Threads.SS.remove
        rw [Prog.alone_bind]
        exact Py.bind_error ((Threads.SS.setRemove_alone v).trans e1)
      unfold Spec.out
      rw [e2]
      show (Threads.SS.remove S c.writers v >>= fun _ => .ret (.ok Out.none)).alone s = _
      rw [Prog.alone_bind]
      exact Py.bind_error e3
  | _ => first | exact rest rfl rfl | (rcases hop with h | h <;> first | (cases h; done) | exact absurd rfl h)

/-- C84: whatever the schedule, a finished thread has been told the truth about all values that no other thread puts in or takes out, and they are in the set or not as its own calls want it.
(A call may raise an exception of `errs` because of the other threads; but it has had its effect on the set.)  The values that no thread puts in or takes out are in the set if they were. -/
theorem C84_set_own [DecidableEq α] (hc : c.Orders lt eqv) (hS : S.Lawful eqv)
    (heq : ∀ a b, eqv a b = decide (a = b)) (htotal : ∀ a b, lt a b = false → lt b a = false → a = b) (hs : SS.Reachable S c.api s)
    (W : WListAPI c.State α) (errs : PyErr → Prop) (hW : ∀ v, (W.add v).MayRaise errs ∧ (W.remove v).MayRaise errs)
    (threads : List (List (SSOp α))) (hops : ∀ cs ∈ threads, ∀ op ∈ cs, op.isQuery = true ∨ op.changed ≠ none) (schedule : List Nat) :
    let spec := SetSpec.step (setOrder lt eqv)
    let start := SS.iter c.api s
    let pool := (Pool.mk s (threads.map (Prog.calls (Threads.SS.change S W c.threaded c.api)))).run schedule
    (∀ v, (∀ cs ∈ threads, ∀ op ∈ cs, op.changed ≠ some v) → SS.contains S v pool.shared = decide (v ∈ start)) ∧
    ∀ i cs x, threads[i]? = some cs → pool.result i = some x →
      let plain := (runHist spec cs start).2
      ∃ answers, x = .ok answers ∧
        Mishaps spec (fun op => ∃ v, op.about = some v ∧ SSOp.OnlyBy threads i v) (fun _ => False) (fun op => op.changed ≠ none) errs start cs answers plain ∧
        ∀ v, SSOp.OnlyBy threads i v → SS.contains S v pool.shared = decide (v ∈ plain) := by
  obtain ⟨O, I, g1, rfl, g3, -⟩ := hc.loaded
  intro spec start pool
  have h : SS.Good S c.api O eqv I := ⟨hS, g1, g3⟩
  have ht : SS.Total O eqv := ⟨heq, fun a b hab => by
    simp only [equiv, Bool.and_eq_true, Bool.not_eq_true'] at hab
    exact htotal a b hab.1 hab.2⟩
  have hsame : O.same = eqv := by funext a b; exact g3 a b
  have hi := SS.reachable_inv h hs
  have mem : ∀ v, S.mem v s.set = decide (v ∈ start) := fun v => by rw [hi.mem h, ht.any]; rfl
  let mine : Nat → α → Prop := fun i v => ∃ cs, threads[i]? = some cs ∧ ∃ op ∈ cs, op.changed = some v
  obtain ⟨k1, k2⟩ := Pool.own (view := fun i => Threads.SS.View S (SSOp.OnlyBy threads i)) (mine := fun i => Threads.SS.Mine S (mine i))
    (J := fun s' => ∀ v, (∀ i, ¬ mine i v) → S.mem v s'.set = decide (v ∈ start))
    (P := fun i g x => ∀ cs, threads[i]? = some cs → ∃ xs, x = .ok xs ∧
      Mishaps spec (fun op => ∃ v, op.about = some v ∧ SSOp.OnlyBy threads i v) (fun _ => False) (fun op => ∃ v, op.changed = some v) errs start cs xs g)
    (fun i f s' hf hJ v hv => by rw [hf s' v (hv i)]; exact hJ v hv)
    (fun i j f s' g hij hf hg => ⟨hg.1, fun v hv => by
      rw [hf s' v fun ⟨cs, h1, op, h2, h3⟩ => hv j cs (fun e => hij e.symm) h1 op h2 h3]; exact hg.2 v hv⟩)
    (Pool.mk s (threads.map (Prog.calls (Threads.SS.change S W c.threaded c.api)))) (fun v _ => mem v) (fun _ => start)
    (fun i m hm => by
      rw [List.getElem?_map, Option.map_eq_some_iff] at hm
      obtain ⟨cs, hcs, rfl⟩ := hm
      refine ⟨⟨ht.nodup (hi.distinct' h), fun v _ => mem v⟩, ?_⟩
      refine (Prog.Own.calls (step := spec) (sure := fun op => ∃ v, op.about = some v ∧ SSOp.OnlyBy threads i v) (before := fun _ => False) (after := fun op => ∃ v, op.changed = some v) (errs := errs)
        (fun op ho g => Threads.SS.change_own c.threaded_sound hS heq hW op ?_ g) start).mono ?_
      · rcases hops cs (List.mem_of_getElem? hcs) op ho with hq | hq
        · exact .inl hq
        · rcases e : op.changed with _ | v
          · exact absurd e hq
          · exact .inr ⟨v, rfl, cs, hcs, op, ho, e⟩
      · rintro g x hx cs' hcs'
        rw [hcs] at hcs'; cases hcs'
        exact hx)
    schedule
  refine ⟨fun v hv => k1 v fun i ⟨cs, h1, op, h2, h3⟩ => hv cs (List.mem_of_getElem? h1) op h2 h3, fun i cs x hcs hx => ?_⟩
  obtain ⟨g, hg, hP⟩ := k2 i x hx
  obtain ⟨xs, rfl, hxs⟩ := hP cs hcs
  have e := hxs.plain fun _ h => h
  subst e
  exact ⟨xs, rfl, hxs.mono (fun _ h => h) (fun op ⟨v, h⟩ => by rw [h]; exact Option.some_ne_none v), fun v hv => hg.2 v hv⟩

/-- C84: threads that only put values in, and make queries.  At all times the set has what it had, and nothing but that and what the threads add; a finished thread has added all it wanted to, and
`v in ss` has told it the truth: True if `v` was there at the start or it has itself added it before, False if nobody adds it. -/
theorem C84_set_adds [DecidableEq α] (hc : c.Orders lt eqv) (hS : S.Lawful eqv)
    (heq : ∀ a b, eqv a b = decide (a = b)) (htotal : ∀ a b, lt a b = false → lt b a = false → a = b) (hs : SS.Reachable S c.api s)
    (W : WListAPI c.State α) (errs : PyErr → Prop) (hW : ∀ v, (W.add v).MayRaise errs)
    (threads : List (List (SSOp α))) (hops : ∀ cs ∈ threads, ∀ op ∈ cs, op.isQuery = true ∨ ∃ v, op = .add v) (schedule : List Nat) :
    let start := SS.iter c.api s
    let pool := (Pool.mk s (threads.map (Prog.calls (Threads.SS.change S W c.threaded c.api)))).run schedule
    (∀ v, v ∈ start → SS.contains S v pool.shared = true) ∧
    (∀ v, SS.contains S v pool.shared = true → v ∈ start ∨ ∃ cs ∈ threads, .add v ∈ cs) ∧
    ∀ i cs x, threads[i]? = some cs → pool.result i = some x →
      (∀ v, .add v ∈ cs → SS.contains S v pool.shared = true) ∧
      ∃ answers, x = .ok answers ∧ answers.length = cs.length ∧
        ∀ (k : Nat) a, answers[k]? = some a →
          (∀ v, cs[k]? = some (.add v) → a = .ok .none ∨ ∃ e, errs e ∧ a = .error e) ∧
          ∀ v, cs[k]? = some (.contains v) → ∃ b, a = .ok (.bool b) ∧
            (v ∈ start ∨ .add v ∈ cs.take k → b = true) ∧ (b = true → v ∈ start ∨ ∃ cs ∈ threads, .add v ∈ cs) := by
  obtain ⟨O, I, g1, rfl, g3, -⟩ := hc.loaded
  intro start pool
  have h : SS.Good S c.api O eqv I := ⟨hS, g1, g3⟩
  have ht : SS.Total O eqv := ⟨heq, fun a b hab => by
    simp only [equiv, Bool.and_eq_true, Bool.not_eq_true'] at hab
    exact htotal a b hab.1 hab.2⟩
  have hi := SS.reachable_inv h hs
  have mem : ∀ v, S.mem v s.set = decide (v ∈ start) := fun v => by rw [hi.mem h, ht.any]; rfl
  let U : α → Prop := fun v => v ∈ start ∨ ∃ cs ∈ threads, .add v ∈ cs
  have first : Threads.SS.Grows S U s start := ⟨fun v hv => by rw [mem]; exact decide_eq_true hv, fun v hv => by rw [mem] at hv; exact .inl (of_decide_eq_true hv)⟩
  have grow : ∀ f (s' : SS τ c.State) g, Threads.SS.Growing S U f → Threads.SS.Grows S U s' g → Threads.SS.Grows S U (f s') g := fun f s' g hf hg =>
    ⟨fun v hv => (hf s' v).1 (hg.1 v hv), fun v hv => ((hf s' v).2 hv).elim (hg.2 v) id⟩
  obtain ⟨k1, k2⟩ := Pool.own (view := fun _ => Threads.SS.Grows S U) (mine := fun _ => Threads.SS.Growing S U) (J := fun s' => Threads.SS.Grows S U s' start)
    (P := fun i g x => ∀ cs, threads[i]? = some cs → ∃ xs, x = .ok xs ∧ xs.length = cs.length ∧
      (∀ (k : Nat) op a, cs[k]? = some op → xs[k]? = some a → ∃ gk, (∀ v, v ∈ start ∨ .add v ∈ cs.take k → v ∈ gk) ∧ Threads.SS.Told errs U gk op a) ∧
      ∀ v, v ∈ start ∨ .add v ∈ cs → v ∈ g)
    (fun _ f s' hf hJ => grow f s' _ hf hJ) (fun _ _ f s' g _ hf hg => grow f s' g hf hg)
    (Pool.mk s (threads.map (Prog.calls (Threads.SS.change S W c.threaded c.api)))) first (fun _ => start)
    (fun i m hm => by
      rw [List.getElem?_map, Option.map_eq_some_iff] at hm
      obtain ⟨cs, hcs, rfl⟩ := hm
      refine ⟨first, (Threads.SS.calls_grows (errs := errs) (fun op ho g => Threads.SS.change_grows c.threaded_sound hS heq hW op ?_ g) start).mono ?_⟩
      · rcases hops cs (List.mem_of_getElem? hcs) op ho with hq | ⟨v, rfl⟩
        · exact .inl hq
        · exact .inr ⟨v, rfl, .inr ⟨cs, List.mem_of_getElem? hcs, ho⟩⟩
      · rintro g x hx cs' hcs'
        rw [hcs] at hcs'; cases hcs'
        exact hx)
    schedule
  refine ⟨k1.1, k1.2, fun i cs x hcs hx => ?_⟩
  obtain ⟨g, hg, hP⟩ := k2 i x hx
  obtain ⟨xs, rfl, m1, m2, m3⟩ := hP cs hcs
  refine ⟨fun v hv => hg.1 v (m3 v (.inr hv)), xs, rfl, m1, fun k a ha => ⟨fun v hv => ?_, fun v hv => ?_⟩⟩
  · obtain ⟨gk, -, n2⟩ := m2 k _ a hv ha
    exact n2.1 v rfl
  · obtain ⟨gk, n1, n2⟩ := m2 k _ a hv ha
    obtain ⟨b, e, b1, b2⟩ := n2.2 v rfl
    exact ⟨b, e, fun h => b1 (n1 v h), b2⟩

/-- C84: when the threads have stopped, wherever they are, `ss.symmetric_difference_update([])` repairs the set, and loses no member: from then on it is the plain sorted set of its members. -/
theorem C84_set_repair [DecidableEq α] (hc : c.Orders lt eqv) (hS : S.Lawful eqv)
    (heq : ∀ a b, eqv a b = decide (a = b)) (htotal : ∀ a b, lt a b = false → lt b a = false → a = b) (hs : SS.Reachable S c.api s)
    (W : WListAPI c.State α) (hW : ∀ v, (W.add v).Leaves c.load ∧ (W.remove v).Leaves c.load)
    (threads : List (List (SSOp α))) (hops : ∀ cs ∈ threads, ∀ op ∈ cs, op.isQuery = true ∨ op.changed ≠ none) (schedule : List Nat)
    (ops : List (SSOp α)) (hv : ∀ op ∈ ops, op.Valid) :
    let pool := (Pool.mk s (threads.map (Prog.calls (Threads.SS.change S W c.threaded c.api)))).run schedule
    ∃ plain, Sorted lt plain ∧ plain.Nodup ∧ (∀ v, v ∈ plain ↔ SS.contains S v pool.shared = true) ∧
      let spec := runHist (SetSpec.step (setOrder lt eqv)) ops plain
      let real := runHist (SS.step S c.api) (.symmetricDifferenceUpdate [] :: ops) pool.shared
      real.1 = .ok .none :: spec.1 ∧ SS.iter c.api real.2 = spec.2 := by
  obtain ⟨O, I, g1, rfl, g3, g4⟩ := hc.loaded
  intro pool
  have h : SS.Good S c.api O eqv I := ⟨hS, g1, g3⟩
  exact SS.repair_of_load hc hS heq htotal (Pool.run_keeps (J := fun s : SS τ c.State => 1 ≤ c.load s.list) _ (fun m hm => by
    obtain ⟨cs, hcs, rfl⟩ := List.mem_map.1 hm
    exact Prog.Writes.calls cs fun op ho => Threads.SS.change_load hW op (hops cs hcs op ho)) (g4 _ (SS.reachable_inv h hs).list) schedule) ops hv

end Sets

section Dicts
variable {κ ν : Type} {c : ListClass κ} {lt eqv : κ → κ → Bool} {s : SD κ ν c.State}

/-- C84: a call that runs alone is the call of the other models. -/
theorem C84_dict_alone (hc : c.Orders lt eqv) (he : IsEquiv eqv) (hs : SD.Reachable eqv c.api s) (op : SDOp κ ν) (hop : op.isQuery = true ∨ op.changed ≠ none) :
    (Threads.SD.change eqv c.writers c.threaded c.api op).alone s = SD.step eqv c.api op s := by
  obtain ⟨O, I, g1, rfl, g3, -⟩ := hc.loaded
  have h : SD.Good c.api O eqv I := ⟨he, g1, g3⟩
  have hi := SD.reachable_inv h hs
  have rest : op.isQuery = true → Threads.SD.change eqv c.writers c.threaded c.api op = Threads.SD.query eqv c.threaded c.api op →
      (Threads.SD.change eqv c.writers c.threaded c.api op).alone s = SD.step eqv c.api op s := fun hq e => by
    rw [e]; exact (Threads.SD.query_asks c.threaded_sound hq).alone s
  have out : ∀ {β : Type} {f : β → DOut κ ν} {p : Prog (SD κ ν c.State) β} {m : Py (SD κ ν c.State) β}, SD.step eqv c.api op = SD.out f m → op.Valid → p.Works m s →
      (∃ r, (DictSpec.step eqv O op s.dict).1 = .ok r) → (f <$> p : Prog _ (DOut κ ν)).alone s = SD.step eqv c.api op s := by
    intro β f p m e hv hp hr
    rw [← (SD.step_refines h op hv s hi).1, e] at hr
    rw [e]
    exact Prog.Works.bind (f := fun b => (pure (f b) : Py _ (DOut κ ν))) (fp := fun b => .ret (.ok (f b))) hp (fun _ _ _ => .pure _) hr
  cases op with
  | setitem k v => exact out rfl trivial (Threads.SD.setitem_works c.writers_works k v s) ⟨_, rfl⟩
  | delitem k =>
    rcases el : PyDict.lookup eqv s.dict k with _ | v
    · have eg : PyDict.getitem eqv s.dict k = .error .keyError := by unfold PyDict.getitem; rw [el]
      obtain ⟨e1, e2⟩ := Threads.SD.dictPop_delitem (eqv := eqv) (s := s) k
      rw [eg] at e1 e2
      have e3 : SD.delitem eqv c.api k s = (.error .keyError, _) := Py.bind_error (show SD.dictDelitem eqv k s = (.error .keyError, _) from Prod.ext e2 rfl)
      have e4 : (Threads.SD.delitem eqv c.writers k).alone s = (.error .keyError, (SD.dictDelitem eqv k s).2) := by
        unfold Threads.SD.delitem
        rw [Prog.alone_bind]
        exact Py.bind_error e1
      show (Threads.SD.delitem eqv c.writers k >>= fun _ => .ret (.ok DOut.none)).alone s = SD.out (fun _ => .none) (SD.delitem eqv c.api k) s
      rw [Prog.alone_bind]
      refine (Py.bind_error e4).trans ?_
      unfold SD.out
      exact (Py.bind_error e3).symm
    · refine out rfl trivial (Threads.SD.delitem_works c.writers_works k s) ⟨.none, ?_⟩
      simp only [DictSpec.step, DictSpec.out, DictSpec.delitem, Py.bind_apply, PyDict.has_eq_lookup, el]; rfl
  | pop k default =>
    have ok : (∃ r, (DictSpec.step eqv O (.pop k default) s.dict).1 = .ok r) ∨ (PyDict.lookup eqv s.dict k = none ∧ default = none) := by
      simp only [DictSpec.step, DictSpec.out, DictSpec.pop, Py.bind_apply]
      rcases PyDict.lookup eqv s.dict k with _ | v
      · rcases default with _ | v
        · exact .inr ⟨rfl, rfl⟩
        · exact .inl ⟨.val v, rfl⟩
      · exact .inl ⟨.val v, rfl⟩
    rcases ok with ok | ⟨el, rfl⟩
    · exact out rfl trivial (Threads.SD.pop_works c.writers_works k default s) ok
    · have eh : PyDict.has eqv s.dict k = false := by rw [PyDict.has_eq_lookup, el]; rfl
      have e1 : SD.pop eqv c.api k none s = (.error .keyError, s) := by
        unfold SD.pop SD.contains
        rw [Py.get_bind, eh]; rfl
      have e2 : (Threads.SD.pop eqv c.writers k none).alone s = (.error .keyError, s) := by
        show (if PyDict.has eqv s.dict k = true then _ else _ : Prog _ _).alone s = _
        rw [eh]; rfl
      show (Threads.SD.pop eqv c.writers k none >>= fun v => .ret (.ok (DOut.val v))).alone s = SD.out .val (SD.pop eqv c.api k none) s
      rw [Prog.alone_bind]
      refine (Py.bind_error e2).trans ?_
      unfold SD.out
      exact (Py.bind_error e1).symm
  | setdefault k v =>
    refine out rfl trivial (Threads.SD.setdefault_works c.writers_works k v s) ?_
    simp only [DictSpec.step, DictSpec.out, DictSpec.setdefault, Py.bind_apply]
    rcases PyDict.lookup eqv s.dict k with _ | v <;> exact ⟨_, rfl⟩
  | _ => first | exact rest rfl rfl | (rcases hop with h | h <;> first | (cases h; done) | exact absurd rfl h)

/-- C84: whatever the schedule, a finished thread has been told the truth about all keys that no other thread puts in or takes out, and their items are as its own calls want it.
(A call may raise an exception of `errs` because of the other threads; `del sd[k]` and `setdefault` have then had their effect on the dict, `sd[k] = v` and `pop` have had none.)
The items whose keys no thread puts in or takes out are as they were. -/
theorem C84_dict_own (hc : c.Orders lt eqv) (he : IsEquiv eqv)
    (W : WListAPI c.State κ) (errs : PyErr → Prop) (hW : ∀ v, (W.add v).MayRaise errs ∧ (W.remove v).MayRaise errs)
    (threads : List (List (SDOp κ ν))) (hops : ∀ cs ∈ threads, ∀ op ∈ cs, op.isQuery = true ∨ op.changed ≠ none) (schedule : List Nat) :
    let spec := DictSpec.step (ν := ν) eqv (setOrder lt eqv)
    let pool := (Pool.mk s (threads.map (Prog.calls (Threads.SD.change eqv W c.threaded c.api)))).run schedule
    (∀ k, (∀ cs ∈ threads, ∀ op ∈ cs, ∀ k', op.changed = some k' → eqv k k' = false) → SD.get eqv k pool.shared = PyDict.lookup eqv s.dict k) ∧
    ∀ i cs x, threads[i]? = some cs → pool.result i = some x →
      ∃ answers plain, x = .ok answers ∧
        Mishaps spec (fun op => ∃ k, op.about = some k ∧ SDOp.OnlyBy eqv threads i k) SDOp.listFirst SDOp.dictFirst errs s.dict cs answers plain ∧
        ∀ k, SDOp.OnlyBy eqv threads i k → SD.get eqv k pool.shared = PyDict.lookup eqv plain k := by
  obtain ⟨O, I, g1, rfl, g3, -⟩ := hc.loaded
  intro spec pool
  let mine : Nat → κ → Prop := fun i k => ∃ cs, threads[i]? = some cs ∧ ∃ op ∈ cs, ∃ k', op.changed = some k' ∧ eqv k k' = true
  obtain ⟨k1, k2⟩ := Pool.own (view := fun i => Threads.SD.View (ν := ν) eqv (SDOp.OnlyBy eqv threads i)) (mine := fun i => Threads.SD.Mine eqv (mine i))
    (J := fun s' => ∀ k, (∀ i, ¬ mine i k) → PyDict.lookup eqv s'.dict k = PyDict.lookup eqv s.dict k)
    (P := fun i g x => ∀ cs, threads[i]? = some cs → ∃ xs, x = .ok xs ∧
      Mishaps spec (fun op => ∃ k, op.about = some k ∧ SDOp.OnlyBy eqv threads i k) SDOp.listFirst SDOp.dictFirst errs s.dict cs xs g)
    (fun i f s' hf hJ v hv => by rw [hf s' v (hv i)]; exact hJ v hv)
    (fun i j f s' g hij hf hg k hk => by
      rw [hf s' k fun ⟨cs, h1, op, h2, k', h3, h4⟩ => by rw [hk j cs (fun e => hij e.symm) h1 op h2 k' h3] at h4; cases h4]; exact hg k hk)
    (Pool.mk s (threads.map (Prog.calls (Threads.SD.change eqv W c.threaded c.api)))) (fun v _ => rfl) (fun _ => s.dict)
    (fun i m hm => by
      rw [List.getElem?_map, Option.map_eq_some_iff] at hm
      obtain ⟨cs, hcs, rfl⟩ := hm
      refine ⟨fun v _ => rfl, ?_⟩
      refine (Prog.Own.calls (step := spec) (sure := fun op => ∃ k, op.about = some k ∧ SDOp.OnlyBy eqv threads i k) (before := SDOp.listFirst) (after := SDOp.dictFirst) (errs := errs)
        (fun op ho g => Threads.SD.change_own c.threaded_sound he ?_ ?_ hW op ?_ g) s.dict).mono ?_
      · rintro k k' ⟨cs, h1, op, h2, k2, h3, h4⟩ e
        exact ⟨cs, h1, op, h2, k2, h3, he.trans _ _ _ (he.symm k k' ▸ e) h4⟩
      · intro k k' hk e j cs hj h1 op h2 k2 h3
        rcases e2 : eqv k' k2 with _ | _
        · rfl
        · rw [← hk j cs hj h1 op h2 k2 h3, he.trans _ _ _ e e2]
      · rcases hops cs (List.mem_of_getElem? hcs) op ho with hq | hq
        · exact .inl hq
        · rcases e : op.changed with _ | v
          · exact absurd e hq
          · exact .inr ⟨v, rfl, cs, hcs, op, ho, v, e, he.refl v⟩
      · rintro g x hx cs' hcs'
        rw [hcs] at hcs'; cases hcs'
        exact hx)
    schedule
  refine ⟨(fun k hk => k1 k fun i ⟨cs, h1, op, h2, k', h3, h4⟩ => by rw [hk cs (List.mem_of_getElem? h1) op h2 k' h3] at h4; cases h4), fun i cs x hcs hx => ?_⟩
  obtain ⟨g, hg, hP⟩ := k2 i x hx
  obtain ⟨xs, rfl, hxs⟩ := hP cs hcs
  exact ⟨xs, g, rfl, hxs, fun k hk => hg k hk⟩

/-- C84: when the threads have stopped, wherever they are, `sd.update(other)` repairs a non-empty dict if `other` is not much smaller: from then on it is the plain sorted dict of its items, updated by `other`. -/
theorem C84_dict_repair (hc : c.Orders lt eqv) (he : IsEquiv eqv) (hs : SD.Reachable eqv c.api s)
    (W : WListAPI c.State κ) (hW : ∀ v, (W.add v).Leaves c.load ∧ (W.remove v).Leaves c.load)
    (threads : List (List (SDOp κ ν))) (hops : ∀ cs ∈ threads, ∀ op ∈ cs, op.isQuery = true ∨ op.changed ≠ none) (schedule : List Nat)
    (ops : List (SDOp κ ν)) (hv : ∀ op ∈ ops, op.Valid) (other : List (κ × ν)) :
    let pool := (Pool.mk s (threads.map (Prog.calls (Threads.SD.change eqv W c.threaded c.api)))).run schedule
    pool.shared.dict ≠ [] → SD.length pool.shared < 10 * other.length →
      let spec := runHist (DictSpec.step eqv (setOrder lt eqv)) ops (PyDict.update eqv pool.shared.dict other)
      let real := runHist (SD.step eqv c.api) (.update (.dict other) :: ops) pool.shared
      real.1 = .ok .none :: spec.1 ∧ real.2.dict = spec.2 ∧ SD.iter c.api real.2 = DictSpec.sortedKeys (setOrder lt eqv) spec.2 := by
  obtain ⟨O, I, g1, rfl, g3, g4⟩ := hc.loaded
  intro pool h0 hbig
  have h : SD.Good c.api O eqv I := ⟨he, g1, g3⟩
  have hi := SD.reachable_inv h hs
  obtain ⟨k1, k2⟩ := Pool.run_keeps (J := Threads.SD.Kept eqv c) (Pool.mk s (threads.map (Prog.calls (Threads.SD.change eqv W c.threaded c.api)))) (fun m hm => by
    obtain ⟨cs, hcs, rfl⟩ := List.mem_map.1 hm
    exact Prog.Writes.calls cs fun op ho => Threads.SD.change_kept hW op (hops cs hcs op ho)) ⟨g4 _ hi.list, hi.keyed⟩ schedule
  exact SD.repair_of_load hc he k1 k2 h0 other hbig ops hv

end Dicts

/-! ## Threads that change a set or dict -/

namespace Demo

def ownPool (threads : List (List (SSOp Int))) (s : IntSet) : Pool IntSet (List (Except PyErr (Out Int))) :=
  Pool.mk s (threads.map (Prog.calls (Threads.SS.change (iset false) intClass.writers intClass.threaded intClass.api)))

theorem intClass_writers (v : Int) : ((intClass.writers.add v).MayRaise listErr ∧ (intClass.writers.remove v).MayRaise listErr) ∧
    (intClass.writers.add v).Leaves intClass.load ∧ (intClass.writers.remove v).Leaves intClass.load := C84_list_raises intClass_orders v

/-- `add` alone -/
example : (Threads.SS.change (iset false) intClass.writers intClass.threaded intClass.api (.add 25)).alone coldSet = SS.step (iset false) intClass.api (.add 25) coldSet :=
  C84_set_alone intClass_orders (iset_lawful false) ieq_decide ilt_total coldSet_reachable (.add 25) (.inr nofun)

/-- Both threads change the set.  35 is a matter of thread 0 alone, 10 to 40 of thread 1; both add 80. -/
def ownThreads : List (List (SSOp Int)) := [[.add 35, .contains 35, .discard 70, .add 80, .count 70], [.discard 30, .discard 40, .remove 10, .discard 20, .contains 30, .remove 99, .add 80]]

theorem ownThreads_ok : ∀ cs ∈ ownThreads, ∀ op ∈ cs, op.isQuery = true ∨ op.changed ≠ none := by decide

/-- Thread 0 is suspended in `add 35`, after it has looked where 35 belongs in the list. -/
def ownSchedule : List Nat := List.replicate 3 0 ++ List.replicate 64 1 ++ List.replicate 40 0 ++ List.replicate 40 1

example := C84_set_own intClass_orders (iset_lawful false) ieq_decide ilt_total coldSet_reachable intClass.writers listErr (fun v => (intClass_writers v).1) ownThreads ownThreads_ok ownSchedule
example := C84_set_repair intClass_orders (iset_lawful false) ieq_decide ilt_total coldSet_reachable intClass.writers (fun v => (intClass_writers v).2) ownThreads ownThreads_ok ownSchedule
  [.iter, .add 1, .getInt 0] (by intro op h; simp only [List.mem_cons, List.not_mem_nil, or_false] at h; rcases h with rfl | rfl | rfl <;> trivial)

/-- `add(35)` raises IndexError, but 35 is in the set, as the thread is told; the list does not have it. -/
example : ((ownPool ownThreads coldSet).run ownSchedule).result 0 = some (.ok [.error .indexError, .ok (.bool true), .ok .none, .ok .none, .ok (.int 0)]) := by decide +kernel
example : ((ownPool ownThreads coldSet).run ownSchedule).result 1 =
    some (.ok [.ok .none, .ok .none, .ok .none, .ok .none, .ok (.bool false), .error .keyError, .ok .none]) := by decide +kernel
example : (iset false).mem 35 ((ownPool ownThreads coldSet).run ownSchedule).shared.set = true ∧ SS.iter intClass.api ((ownPool ownThreads coldSet).run ownSchedule).shared = [50, 60, 80] := by decide +kernel

/-- Repaired -/
example : SS.iter intClass.api (SS.step (iset false) intClass.api (.symmetricDifferenceUpdate []) ((ownPool ownThreads coldSet).run ownSchedule).shared).2 = [35, 50, 60, 80] := by decide +kernel

/-- Two threads `add(5)`: the set has 5 once, the list twice. -/
example : (((ownPool [[.add 5], [.add 5]] cutSet0).run ([0, 1] ++ List.replicate 20 0 ++ List.replicate 20 1)).shared.set.1 = [5]) ∧
    SS.iter intClass.api ((ownPool [[.add 5], [.add 5]] cutSet0).run ([0, 1] ++ List.replicate 20 0 ++ List.replicate 20 1)).shared = [5, 5] := by decide +kernel

/-- Two threads add 5 and 3 to an empty set: the list is not sorted. -/
example : SS.iter intClass.api ((ownPool [[.add 5], [.add 3]] cutSet0).run ([0, 0, 0, 1, 1, 1] ++ List.replicate 20 0 ++ List.replicate 20 1)).shared = [5, 3] := by decide +kernel

/-- Two threads `discard(10)`: one of them gets KeyError.  So nothing is promised about values that two threads take out. -/
example : ((ownPool [[.discard 10], [.discard 10]] coldSet).run ([0, 1] ++ List.replicate 20 0 ++ List.replicate 20 1)).result 1 = some (.ok [.error .keyError]) := by decide +kernel

/-- Threads that add; both add 25. -/
def addThreads : List (List (SSOp Int)) := [[.add 25, .contains 25, .contains 5], [.contains 99, .add 25, .add 5, .contains 10]]

theorem addThreads_ok : ∀ cs ∈ addThreads, ∀ op ∈ cs, op.isQuery = true ∨ ∃ v, op = .add v := by
  intro cs h op ho
  simp only [addThreads, List.mem_cons, List.not_mem_nil, or_false] at h
  rcases h with rfl | rfl <;> simp only [List.mem_cons, List.not_mem_nil, or_false] at ho
  · rcases ho with rfl | rfl | rfl <;> simp [SSOp.isQuery]
  · rcases ho with rfl | rfl | rfl | rfl <;> simp [SSOp.isQuery]

example := C84_set_adds intClass_orders (iset_lawful false) ieq_decide ilt_total coldSet_reachable intClass.writers listErr (fun v => (intClass_writers v).1.1) addThreads addThreads_ok [0, 1, 1, 0, 1, 0]

example : ((ownPool addThreads coldSet).run ([0, 1, 1, 0] ++ List.replicate 40 1 ++ List.replicate 40 0)).result 0 = some (.ok [.ok .none, .ok (.bool true), .ok (.bool true)]) := by decide +kernel

def ownDPool (threads : List (List (SDOp Int String))) (s : IntDict) : Pool IntDict (List (Except PyErr (DOut Int String))) :=
  Pool.mk s (threads.map (Prog.calls (Threads.SD.change (equiv ilt) intClass.writers intClass.threaded intClass.api)))

/-- Both threads change the dict. -/
def ownDThreads : List (List (SDOp Int String)) := [[.setitem 35 "x", .get 35, .setdefault 35 "y", .pop 70 none, .setitem 80 "z"], [.delitem 30, .pop 40 none, .delitem 10, .pop 20 (some "w"), .delitem 99, .setitem 80 "u"]]

theorem ownDThreads_ok : ∀ cs ∈ ownDThreads, ∀ op ∈ cs, op.isQuery = true ∨ op.changed ≠ none := by decide

example := C84_dict_own (s := coldDict) intClass_orders ieqv_equiv intClass.writers listErr (fun v => (intClass_writers v).1) ownDThreads ownDThreads_ok ownSchedule
example := C84_dict_repair intClass_orders ieqv_equiv coldDict_reachable intClass.writers (fun v => (intClass_writers v).2) ownDThreads ownDThreads_ok ownSchedule
  [.iter, .setitem 1 "q"] (by intro op h; simp only [List.mem_cons, List.not_mem_nil, or_false] at h; rcases h with rfl | rfl <;> trivial) [(80, "t")]
example : (Threads.SD.change (equiv ilt) intClass.writers intClass.threaded intClass.api (.setdefault 25 "x")).alone coldDict = SD.step (equiv ilt) intClass.api (.setdefault 25 "x") coldDict :=
  C84_dict_alone intClass_orders ieqv_equiv coldDict_reachable (.setdefault 25 "x") (.inr nofun)

/-- `sd[35] = "x"` raises IndexError, and has no effect; all later answers are right. -/
example : ((ownDPool ownDThreads coldDict).run ownSchedule).result 0 = some (.ok [.error .indexError, .ok .none, .ok (.val "y"), .ok (.val "g"), .ok .none]) := by decide +kernel
example : ((ownDPool ownDThreads coldDict).run ownSchedule).result 1 = some (.ok [.ok .none, .ok (.val "d"), .ok .none, .ok (.val "b"), .error .keyError, .ok .none]) := by decide +kernel
example : ((ownDPool ownDThreads coldDict).run ownSchedule).shared.dict = [(50, "e"), (60, "f"), (35, "y"), (80, "u")] := by decide +kernel

end Demo
end Verif
