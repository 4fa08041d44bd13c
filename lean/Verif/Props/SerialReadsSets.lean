import Verif.Props.SerialReads
/-!
# C93: calls on sets and dicts that only read
-/

namespace Verif
variable {α κ ν τ σ β : Type}
open Race

/-- The calls on a SortedSet that only read: `in`, `len`, `count`, iteration both ways, `irange`, comparisons with sets, `copy`, `|`, `&`, `-`, `^`. -/
def SSOp.OnlyReads : SSOp α → Prop
  | .contains _ | .len | .count _ | .isdisjoint _ | .issubset _ | .issuperset _ | .compare .. | .iter | .reversed | .irange .. | .copy | .intersection _ | .difference _ | .symmetricDifference _ | .union _ => True
  | _ => False

/-- The calls on a SortedDict that only read: `sd[key]`, `get`, `in`, `len`, iteration over keys (both ways), items and values, `irange`, `copy`, `|`. -/
def SDOp.OnlyReads : SDOp κ ν → Prop
  | .getitem _ | .get _ | .contains _ | .len | .iter | .reversed | .items | .values | .irange .. | .copy | .or _ | .ror _ => True
  | _ => False

instance : DecidablePred (SSOp.OnlyReads (α := α)) := fun o => by cases o <;> (dsimp only [SSOp.OnlyReads]; infer_instance)
instance : DecidablePred (SDOp.OnlyReads (κ := κ) (ν := ν)) := fun o => by cases o <;> (dsimp only [SDOp.OnlyReads]; infer_instance)

theorem Race.looks_race_toList (c : ListClass α) (fuel : Nat) : (c.race fuel).toList.Looks := by cases c <;> exact .see _

theorem Race.looks_race_irange (c : ListClass α) (fuel : Nat) (lo hi : Option α) (a b r : Bool) : ((c.race fuel).irange lo hi a b r).Looks := by
  cases c with
  | plain E => exact SL.looks_irange E _ _ _ _ _
  | keyed K => exact SKL.looks_irange K _ _ _ _ _

theorem Race.SS.looks_onList {m : Task σ β} (h : m.Looks) : (SS.onList m : Task (Verif.SS τ σ) β).Looks := by
  intro s x s' he
  rw [SS.alone_onList] at he
  cases hm : m.alone s.list with
  | none => rw [hm] at he; cases he
  | some y =>
    obtain ⟨y, t⟩ := y
    rw [hm] at he
    cases he
    rw [h _ _ _ hm]

theorem Race.SD.looks_onList {m : Task σ β} (h : m.Looks) : (SD.onList m : Task (Verif.SD κ ν σ) β).Looks := by
  intro s x s' he
  rw [SD.alone_onList] at he
  cases hm : m.alone s.list with
  | none => rw [hm] at he; cases he
  | some y =>
    obtain ⟨y, t⟩ := y
    rw [hm] at he
    cases he
    rw [h _ _ _ hm]

theorem Race.SD.looks_mapEach {f : κ → Task (Verif.SD κ ν σ) β} (h : ∀ k, (f k).Looks) : ∀ ks, (SD.mapEach f ks).Looks
  | [] => .pure _
  | k :: ks => .bind (h k) fun _ => .bind (looks_mapEach h ks) fun _ => .pure _

theorem Race.SD.looks_items (eqv : κ → κ → Bool) (c : ListClass κ) (fuel : Nat) : (SD.items eqv (c.race fuel) : Task (Verif.SD κ ν c.Memory) (List (κ × ν))).Looks :=
  .bind (SD.looks_onList (looks_race_toList c fuel)) fun _ => looks_mapEach (fun _ => .bind (.see _) fun _ => .pure _) _

/-- C93: calls on a SortedSet that only read leave no trace, whether they raise or not: without any of them, the calls that are kept have the answers that they have one after the other, and the set is
as they leave it. -/
theorem C93_set_only_reads (S : SetOps τ α) (c : ListClass α) (s : Verif.SS τ c.State) (threads : List (List (SSOp α))) (fuel : Nat) (schedule : List Nat)
    (keep : Nat × SSOp α × Except PyErr (Out α) → Bool) :
    let step := Race.SS.step S (c.race fuel) c.api
    let p := (Race.SS.guarded c s threads).run step schedule
    (∀ e ∈ p.log, keep e = false → e.2.1.OnlyReads) →
      ∃ now, Task.serially step ((p.log.filter keep).map fun e => e.2.1) (Race.SS.of c s) = some ((p.log.filter keep).map fun e => e.2.2, now) ∧ (p.holder = none → p.shared = now) := by
  intro step p hk
  obtain ⟨now, hs, hn, -⟩ := C93_set S c s threads fuel schedule
  refine ⟨now, Task.serially_filter keep (fun e he h => ?_) hs, hn⟩
  have hr := hk e he h
  generalize e.2.1 = call at hr
  cases call <;> first
    | exact hr.elim
    | exact Task.Looks.map _ (.see _)
    | exact Task.Looks.map _ (Race.SS.looks_onList (looks_race_toList c fuel))
    | exact Task.Looks.map _ (Race.SS.looks_onList (looks_race_irange c fuel _ _ _ _ _))
    | exact Task.Looks.bind (.see _) fun _ => .map _ (.lift _)
    | exact Task.Looks.bind (Race.SS.looks_onList (looks_race_toList c fuel)) fun _ => .map _ (.lift _)

/-- C93: the same for a SortedDict. -/
theorem C93_dict_only_reads (eqv : κ → κ → Bool) (c : ListClass κ) (s : Verif.SD κ ν c.State) (threads : List (List (SDOp κ ν))) (fuel : Nat) (schedule : List Nat)
    (keep : Nat × SDOp κ ν × Except PyErr (DOut κ ν) → Bool) :
    let step := Race.SD.step eqv (c.race fuel) c.api
    let p := (Race.SD.guarded c s threads).run step schedule
    (∀ e ∈ p.log, keep e = false → e.2.1.OnlyReads) →
      ∃ now, Task.serially step ((p.log.filter keep).map fun e => e.2.1) (Race.SD.of c s) = some ((p.log.filter keep).map fun e => e.2.2, now) ∧ (p.holder = none → p.shared = now) := by
  intro step p hk
  obtain ⟨now, hs, hn, -⟩ := C93_dict eqv c s threads fuel schedule
  refine ⟨now, Task.serially_filter keep (fun e he h => ?_) hs, hn⟩
  have hr := hk e he h
  generalize e.2.1 = call at hr
  cases call <;> first
    | exact hr.elim
    | exact Task.Looks.map _ (.see _)
    | exact Task.Looks.map _ (Race.SD.looks_onList (looks_race_toList c fuel))
    | exact Task.Looks.map _ (Race.SD.looks_onList (looks_race_irange c fuel _ _ _ _ _))
    | exact Task.Looks.map _ (Race.SD.looks_items eqv c fuel)
    | exact Task.Looks.map _ (Task.Looks.bind (Race.SD.looks_onList (looks_race_toList c fuel)) fun _ => Race.SD.looks_mapEach (fun _ => .see _) _)
    | exact Task.Looks.bind (Race.SD.looks_items eqv c fuel) fun _ => .map _ (.lift _)

theorem Race.whole_race_bisect (c : ListClass α) (fuel : Nat) (v : α) :
    ((c.race fuel).bisectLeft v).Whole (fun e => e = .indexError ∨ e = .valueError) ∧ ((c.race fuel).bisectRight v).Whole (fun e => e = .indexError ∨ e = .valueError) := by
  cases c with
  | plain E => exact ⟨SL.whole_bisect E false v, SL.whole_bisect E true v⟩
  | keyed K => exact ⟨SKL.whole_bisect K false v, SKL.whole_bisect K true v⟩

theorem Race.SS.whole_onList {late : PyErr → Prop} {m : Task σ β} (h : m.Whole late) : (SS.onList m : Task (Verif.SS τ σ) β).Whole late := by
  intro s e s' he
  rw [SS.alone_onList] at he
  cases hm : m.alone s.list with
  | none => rw [hm] at he; cases he
  | some y =>
    obtain ⟨y, t⟩ := y
    rw [hm] at he
    cases he
    exact (h _ _ _ hm).imp id fun e => by rw [e]

/-- C93: a `bisect_left` or `bisect_right` of a SortedSet in which a comparison raises leaves no trace. -/
theorem C93_set_bisect (S : SetOps τ α) (c : ListClass α) (s : Verif.SS τ c.State) (threads : List (List (SSOp α))) (fuel : Nat) (schedule : List Nat) :
    let step := Race.SS.step S (c.race fuel) c.api
    let p := (Race.SS.guarded c s threads).run step schedule
    ∀ before after i call v e, call = .bisectLeft v ∨ call = .bisectRight v → p.log = before ++ (i, call, .error e) :: after → e ≠ .indexError → e ≠ .valueError →
      ∃ now, Task.serially step ((before ++ after).map fun e => e.2.1) (Race.SS.of c s) = some ((before ++ after).map fun e => e.2.2, now) ∧ (p.holder = none → p.shared = now) := by
  intro step p before after i call v e hc hl h1 h2
  obtain ⟨now, hs, hn, -⟩ := C93_set S c s threads fuel schedule
  refine ⟨now, ?_, hn⟩
  rw [show ((Race.SS.guarded c s threads).run (Race.SS.step S (c.race fuel) c.api) schedule).log = _ from hl] at hs
  simp only [List.map_append, List.map_cons] at hs ⊢
  refine Task.serially_skip (step := Race.SS.step S (c.race fuel) c.api) (c := call) (late := fun e => e = .indexError ∨ e = .valueError) ?_ (fun h => h.elim h1 h2) (by simp) hs
  rcases hc with rfl | rfl
  · exact Task.Whole.map _ (Race.SS.whole_onList (whole_race_bisect c fuel v).1)
  · exact Task.Whole.map _ (Race.SS.whole_onList (whole_race_bisect c fuel v).2)

/-- C93: nor does one of a SortedDict. -/
theorem C93_dict_bisect (eqv : κ → κ → Bool) (c : ListClass κ) (s : Verif.SD κ ν c.State) (threads : List (List (SDOp κ ν))) (fuel : Nat) (schedule : List Nat) :
    let step := Race.SD.step eqv (c.race fuel) c.api
    let p := (Race.SD.guarded c s threads).run step schedule
    ∀ before after i call v e, call = .bisectLeft v ∨ call = .bisectRight v → p.log = before ++ (i, call, .error e) :: after → e ≠ .indexError → e ≠ .valueError →
      ∃ now, Task.serially step ((before ++ after).map fun e => e.2.1) (Race.SD.of c s) = some ((before ++ after).map fun e => e.2.2, now) ∧ (p.holder = none → p.shared = now) := by
  intro step p before after i call v e hc hl h1 h2
  obtain ⟨now, hs, hn, -⟩ := C93_dict eqv c s threads fuel schedule
  refine ⟨now, ?_, hn⟩
  rw [show ((Race.SD.guarded c s threads).run (Race.SD.step eqv (c.race fuel) c.api) schedule).log = _ from hl] at hs
  simp only [List.map_append, List.map_cons] at hs ⊢
  refine Task.serially_skip (step := Race.SD.step eqv (c.race fuel) c.api) (c := call) (late := fun e => e = .indexError ∨ e = .valueError) ?_ (fun h => h.elim h1 h2) (by simp) hs
  rcases hc with rfl | rfl
  · exact Task.Whole.map _ (Race.SD.whole_onList (whole_race_bisect c fuel v).1)
  · exact Task.Whole.map _ (Race.SD.whole_onList (whole_race_bisect c fuel v).2)

/-! ## The hypotheses can be met -/

namespace Demo

/-- Of the calls of three threads, two of which raise (`union` and `irange`), only the `add` and the `remove` are kept. -/
def setReadCalls : List (List (SSOp Int)) := [[.add 25, .union [[3], [-4, 12]]], [.contains 30, .irange (some (-5)) none true true false], [.remove 20, .iter]]
def keepChanges (e : Nat × SSOp Int × Except PyErr (Out Int)) : Bool := match e.2.1 with | .add _ | .remove _ => true | _ => false
abbrev setReadRun := (Race.SS.guarded (.plain mixedEnv) coldSet setReadCalls).run (Race.SS.step (iset false) ((ListClass.plain mixedEnv).race 30) (ListClass.plain mixedEnv).api) lockSchedule
example := C93_set_only_reads (iset false) (.plain mixedEnv) coldSet setReadCalls 30 lockSchedule keepChanges (by decide +kernel)
example : setReadRun.log.map (fun e => (keepChanges e, e.2.2)) = [(true, .ok .none), (false, .ok (.bool true)), (true, .ok .none), (false, .error .typeError), (false, .error .typeError),
    (false, .ok (.vals [10, 25, 30, 40, 50, 60, 70]))] := by decide +kernel

/-- Of the calls of three threads, two of which raise (`sd[99]` and `irange`), only the assignments are kept. -/
def dictReadCalls : List (List (SDOp Int String)) := [[.setitem 25 "x", .items], [.getitem 99, .irange (some (-5)) none true true false], [.setitem 20 "y", .get 20]]
def keepAssignments (e : Nat × SDOp Int String × Except PyErr (DOut Int String)) : Bool := match e.2.1 with | .setitem .. => true | _ => false
abbrev dictReadRun := (Race.SD.guarded (.plain mixedEnv) coldDict dictReadCalls).run (Race.SD.step (equiv ilt) ((ListClass.plain mixedEnv).race 30) (ListClass.plain mixedEnv).api) lockSchedule
example := C93_dict_only_reads (equiv ilt) (.plain mixedEnv) coldDict dictReadCalls 30 lockSchedule keepAssignments (by decide +kernel)
example : dictReadRun.log.map (fun e => (keepAssignments e, e.2.2)) = [(true, .ok .none), (false, .error .keyError), (true, .ok .none),
    (false, .ok (.items [(10, "a"), (20, "y"), (25, "x"), (30, "c"), (40, "d"), (50, "e"), (60, "f"), (70, "g")])), (false, .error .typeError), (false, .ok (.val "y"))] := by decide +kernel

deriving instance DecidableEq for SSOp

/-- Without the `bisect` that raise. -/
example := C93_set_bisect (iset false) (.plain mixedEnv) coldSet [[.add 25], [.bisectRight (-6)], [.iter]] 30 lockSchedule [(0, .add 25, .ok .none)]
  [(2, .iter, .ok (.vals [10, 20, 25, 30, 40, 50, 60, 70]))] 1 (.bisectRight (-6)) (-6) .typeError (.inr rfl) (by decide +kernel) (by decide) (by decide)
example := C93_dict_bisect (equiv ilt) (.plain mixedEnv) coldDict [[.setitem 25 "x"], [.bisectLeft (-6)], [.iter]] 30 lockSchedule [(0, .setitem 25 "x", .ok .none)]
  [(2, .iter, .ok (.keys [10, 20, 25, 30, 40, 50, 60, 70]))] 1 (.bisectLeft (-6)) (-6) .typeError (.inl rfl) (by decide +kernel) (by decide) (by decide)

end Demo
end Verif
