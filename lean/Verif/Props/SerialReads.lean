import Verif.Props.SerialRemove
import Verif.Proofs.SerialReads
/-!
# C93: calls that only read
-/

namespace Verif
variable {α κ : Type}
open Race

/-- The calls on sorted lists of both classes that only read: `in`, `len`, iteration both ways, `irange`, comparison with a sequence, `copy`, `+`, `*`, and the methods that sorted lists refuse. -/
def Op.OnlyReads : Op α → Prop
  | .contains _ | .len | .iter | .reversed | .irange .. | .compare .. | .copy | .concat _ | .mul _ | .unsupported _ => True
  | _ => False

/-- Those of a SortedKeyList: also `count`, `irange_key`. -/
def KOp.OnlyReads : KOp α κ → Prop
  | .op (.count _) | .irangeKey .. => True
  | .op o => o.OnlyReads
  | _ => False

instance : DecidablePred (Op.OnlyReads (α := α)) := fun o => by cases o <;> (unfold Op.OnlyReads; infer_instance)
instance : DecidablePred (KOp.OnlyReads (α := α) (κ := κ)) := fun o => by
  rcases o with o | _ | _ | _
  · cases o <;> (dsimp only [KOp.OnlyReads, Op.OnlyReads]; infer_instance)
  all_goals dsimp only [KOp.OnlyReads]; infer_instance

/-- C93: calls that only read leave no trace, whether they raise or not: without any of them, the calls that are kept have the answers that they have one after the other, and the list is as they leave it. -/
theorem C93_list_reads (E : Env α) (s : St α α) (threads : List (List (Op α))) (fuel : Nat) (schedule : List Nat) (keep : Nat × Op α × Except PyErr (Out α) → Bool) :
    let p := (SL.guarded s threads).run (SL.step E fuel) schedule
    (∀ e ∈ p.log, keep e = false → e.2.1.OnlyReads) →
      ∃ now, Task.serially (SL.step E fuel) ((p.log.filter keep).map fun e => e.2.1) (Shared.of s) = some ((p.log.filter keep).map fun e => e.2.2, now) ∧ (p.holder = none → p.shared = now) := by
  intro p hk
  obtain ⟨now, hs, hn, -⟩ := C93_list E s threads fuel schedule
  refine ⟨now, Task.serially_filter keep (fun e he h => ?_) hs, hn⟩
  have hr := hk e he h
  generalize e.2.1 = call at hr
  cases call <;> first | exact hr.elim | skip
  · exact .map _ (SL.looks_contains E _)
  · exact .map _ (SL.looks_irange E _ _ _ _ _)
  · exact .map _ (.see _)
  · exact .map _ (.see _)
  · exact .map _ (.see _)
  · exact .map _ (looks_compare _ _ _)
  · exact .map _ (.bind (.see _) fun _ => .lift _)
  · exact .map _ (.bind (.see _) fun _ => .lift _)
  · exact .map _ (.bind (.see _) fun _ => .lift _)
  · exact .raise _

/-- C93: the same for a SortedKeyList. -/
theorem C93_key_list_reads (K : KEnv α κ) (s : St α κ) (threads : List (List (KOp α κ))) (fuel : Nat) (schedule : List Nat) (keep : Nat × KOp α κ × Except PyErr (Out α) → Bool) :
    let p := (SKL.guarded s threads).run (SKL.call K fuel) schedule
    (∀ e ∈ p.log, keep e = false → e.2.1.OnlyReads) →
      ∃ now, Task.serially (SKL.call K fuel) ((p.log.filter keep).map fun e => e.2.1) (Shared.of s) = some ((p.log.filter keep).map fun e => e.2.2, now) ∧ (p.holder = none → p.shared = now) := by
  intro p hk
  obtain ⟨now, hs, hn, -⟩ := C93_key_list K s threads fuel schedule
  refine ⟨now, Task.serially_filter keep (fun e he h => ?_) hs, hn⟩
  have hr := hk e he h
  generalize e.2.1 = call at hr
  rcases call with o | _ | _ | _
  · cases o <;> first | exact hr.elim | skip
    · exact .map _ (SKL.looks_contains K fuel _)
    · exact .map _ (SKL.looks_count K fuel _)
    · exact .map _ (SKL.looks_irange K _ _ _ _ _)
    · exact .map _ (.see _)
    · exact .map _ (.see _)
    · exact .map _ (.see _)
    · exact .map _ (looks_compare _ _ _)
    · exact .map _ (.bind (.see _) fun _ => .lift _)
    · exact .map _ (.bind (.see _) fun _ => .lift _)
    · exact .map _ (.bind (.see _) fun _ => .lift _)
    · exact .raise _
  · exact hr.elim
  · exact hr.elim
  · exact .map _ (SKL.looks_irangeKey K _ _ _ _ _)

/-- C93: an `update` or `+=` with values that Python's `sorted` cannot sort, as two of them cannot be compared, leaves no trace; the exception is that of `sorted`. -/
theorem C93_list_update (E : Env α) (s : St α α) (threads : List (List (Op α))) (fuel : Nat) (schedule : List Nat) :
    let p := (SL.guarded s threads).run (SL.step E fuel) schedule
    ∀ before after i call xs x e, call = .update xs ∨ call = .iadd xs → p.log = before ++ (i, call, x) :: after → E.sorted xs = .error e →
      x = .error e ∧
      ∃ now, Task.serially (SL.step E fuel) ((before ++ after).map fun e => e.2.1) (Shared.of s) = some ((before ++ after).map fun e => e.2.2, now) ∧ (p.holder = none → p.shared = now) := by
  intro p before after i call xs x e hc hl he
  obtain ⟨now, hs, hn, -⟩ := C93_list E s threads fuel schedule
  have hu : SL.step E fuel call = Task.raise e := by
    rcases hc with rfl | rfl <;> (change (fun _ => Out.none) <$> Race.SL.update E fuel xs = _; unfold Race.SL.update; rw [he]; rfl)
  rw [show ((SL.guarded s threads).run (SL.step E fuel) schedule).log = _ from hl] at hs
  simp only [List.map_append, List.map_cons] at hs ⊢
  obtain rfl : x = .error e := Task.serially_raise hu (by simp) hs
  refine ⟨rfl, now, ?_, hn⟩
  exact Task.serially_skip (step := SL.step E fuel) (c := call) (late := fun _ => False) (by rw [hu]; exact (Task.Looks.raise e).whole) id (by simp) hs

/-- C93: the same for a SortedKeyList, where the key function may raise, too. -/
theorem C93_key_list_update (K : KEnv α κ) (s : St α κ) (threads : List (List (KOp α κ))) (fuel : Nat) (schedule : List Nat) :
    let p := (SKL.guarded s threads).run (SKL.call K fuel) schedule
    ∀ before after i call xs x e, call = .op (.update xs) ∨ call = .op (.iadd xs) → p.log = before ++ (i, call, x) :: after → K.sortedByKey xs = .error e →
      x = .error e ∧
      ∃ now, Task.serially (SKL.call K fuel) ((before ++ after).map fun e => e.2.1) (Shared.of s) = some ((before ++ after).map fun e => e.2.2, now) ∧ (p.holder = none → p.shared = now) := by
  intro p before after i call xs x e hc hl he
  obtain ⟨now, hs, hn, -⟩ := C93_key_list K s threads fuel schedule
  have hu : SKL.call K fuel call = Task.raise e := by
    rcases hc with rfl | rfl <;> (change (fun _ => Out.none) <$> Race.SKL.update K fuel xs = _; unfold Race.SKL.update; rw [he]; rfl)
  rw [show ((SKL.guarded s threads).run (SKL.call K fuel) schedule).log = _ from hl] at hs
  simp only [List.map_append, List.map_cons] at hs ⊢
  obtain rfl : x = .error e := Task.serially_raise hu (by simp) hs
  refine ⟨rfl, now, ?_, hn⟩
  exact Task.serially_skip (step := SKL.call K fuel) (c := call) (late := fun _ => False) (by rw [hu]; exact (Task.Looks.raise e).whole) id (by simp) hs

open Demo in
/-- C93: an `update` with values that can be compared with each other but not with those in the list does leave a trace: the threads that come after it see its values in iteration, while `len` does not
count them. -/
theorem C93_list_update_trace : ((SL.guarded sl [[.update [-5, -6, -7]], [.len, .iter], [.add 9, .iter]]).run (SL.step mixedEnv 30) lockSchedule).log.map (fun e => (e.1, e.2.2)) =
    [(0, .error .typeError), (1, .ok (.int 8)), (2, .ok .none), (1, .ok (.vals [3, 3, 3, 4, 5, 7, 8, 9, 9, -7, -6, -5])), (2, .ok (.vals [3, 3, 3, 4, 5, 7, 8, 9, 9, -7, -6, -5]))] := by
  decide +kernel

/-! ## The hypotheses can be met -/

namespace Demo

/-- Of the calls of three threads, one an `in` that raises, only the `add` and the `bisect_left` are kept. -/
def readCalls : List (List (Op Int)) := [[.add 8, .irange (some 4) none true true true], [.contains (-6), .iter], [.add 9, .bisectLeft 8]]
def keepSome (e : Nat × Op Int × Except PyErr (Out Int)) : Bool := match e.2.1 with | .add _ | .bisectLeft _ => true | _ => false
example := C93_list_reads mixedEnv sl readCalls 30 lockSchedule keepSome (by decide +kernel)
example : ((SL.guarded sl readCalls).run (SL.step mixedEnv 30) lockSchedule).log.map (fun e => (keepSome e, e.2.2)) = [(true, .ok .none), (false, .error .typeError), (true, .ok .none), (false, .ok (.vals [9, 9, 8, 8, 7, 5, 4])),
    (false, .ok (.vals [3, 3, 3, 4, 5, 7, 8, 8, 9, 9])), (true, .ok (.int 6))] := by decide +kernel

/-- Of the calls of three threads, one a `count` that raises, only the `add` are kept. -/
def keyReadCalls : List (List (KOp Int Int)) := [[.op (.add 8), .op .len], [.op (.count (-6)), .irangeKey (some 1) none true true false], [.op (.add 9), .op .reversed]]
def keepAdds (e : Nat × KOp Int Int × Except PyErr (Out Int)) : Bool := match e.2.1 with | .op (.add _) => true | _ => false
example := C93_key_list_reads mixedKEnv skl keyReadCalls 30 lockSchedule keepAdds (by decide +kernel)
example : ((SKL.guarded skl keyReadCalls).run (SKL.call mixedKEnv 30) lockSchedule).log.map (fun e => (keepAdds e, e.2.2)) = [(true, .ok .none), (false, .error .typeError), (true, .ok .none), (false, .ok (.int 10)),
    (false, .ok (.vals [31, 35, 31, 33, 38, 44, 52, 97])), (false, .ok (.vals [97, 52, 44, 38, 33, 31, 35, 31, 9, 8]))] := by decide +kernel

/-- Without the `update` that cannot be sorted. -/
example := C93_list_update mixedEnv sl [[.add 8], [.update [4, -6]], [.iter]] 30 lockSchedule [(0, .add 8, .ok .none)] [(2, .iter, .ok (.vals [3, 3, 3, 4, 5, 7, 8, 8, 9]))]
  1 (.update [4, -6]) [4, -6] (.error .typeError) .typeError (.inl rfl) (by decide +kernel) (by decide +kernel)
example := C93_key_list_update mixedKEnv skl [[.op (.add 8)], [.op (.iadd [4, -6])], [.op (.add 9), .op .len]] 30 lockSchedule [(0, .op (.add 8), .ok .none)]
  [(2, .op (.add 9), .ok .none), (2, .op .len, .ok (.int 10))] 1 (.op (.iadd [4, -6])) [4, -6] (.error .typeError) .typeError (.inr rfl) (by decide +kernel) (by decide +kernel)

end Demo
end Verif
