import Verif.Props.Serial
import Verif.Proofs.SerialRemove
/-!
# C93: `remove`, `discard`, `in`, `bisect`, `count` and `sd.pop` that raise
-/

namespace Verif
variable {α κ ν τ : Type}
open Race

/-- C93: a `remove`, `discard` or `in` in which a comparison raises leaves no trace: the other calls, those of all threads, before it and after it, have the answers that they have one after the other
without it, and the list is as they leave it.  (IndexError and ValueError are left out: they may also come from the list itself, if comparisons have contradicted each other; `remove` raises ValueError
if the value is not there.) -/
theorem C93_list_remove (E : Env α) (s : St α α) (threads : List (List (Op α))) (fuel : Nat) (schedule : List Nat) :
    let p := (SL.guarded s threads).run (SL.step E fuel) schedule
    ∀ before after i call v e, call = .remove v ∨ call = .discard v ∨ call = .contains v → p.log = before ++ (i, call, .error e) :: after → e ≠ .indexError → e ≠ .valueError →
      ∃ now, Task.serially (SL.step E fuel) ((before ++ after).map fun e => e.2.1) (Shared.of s) = some ((before ++ after).map fun e => e.2.2, now) ∧ (p.holder = none → p.shared = now) := by
  intro p before after i call v e hc hl h1 h2
  obtain ⟨now, hs, hn, -⟩ := C93_list E s threads fuel schedule
  refine ⟨now, ?_, hn⟩
  rw [show ((SL.guarded s threads).run (SL.step E fuel) schedule).log = _ from hl] at hs
  simp only [List.map_append, List.map_cons] at hs ⊢
  refine Task.serially_skip (step := SL.step E fuel) (c := call) (late := fun e => e = .indexError ∨ e = .valueError) ?_ (fun h => h.elim h1 h2) (by simp) hs
  rcases hc with rfl | rfl | rfl
  · exact Task.Whole.map _ (SL.whole_remove E fuel v)
  · exact Task.Whole.map _ (SL.whole_discard E fuel v)
  · exact Task.Whole.map _ (SL.looks_contains E v).whole

/-- C93: the same for a SortedKeyList; the key function may raise, too. -/
theorem C93_key_list_remove (K : KEnv α κ) (s : St α κ) (threads : List (List (KOp α κ))) (fuel : Nat) (schedule : List Nat) :
    let p := (SKL.guarded s threads).run (SKL.call K fuel) schedule
    ∀ before after i call v e, call = .op (.remove v) ∨ call = .op (.discard v) ∨ call = .op (.contains v) → p.log = before ++ (i, call, .error e) :: after → e ≠ .indexError → e ≠ .valueError →
      ∃ now, Task.serially (SKL.call K fuel) ((before ++ after).map fun e => e.2.1) (Shared.of s) = some ((before ++ after).map fun e => e.2.2, now) ∧ (p.holder = none → p.shared = now) := by
  intro p before after i call v e hc hl h1 h2
  obtain ⟨now, hs, hn, -⟩ := C93_key_list K s threads fuel schedule
  refine ⟨now, ?_, hn⟩
  rw [show ((SKL.guarded s threads).run (SKL.call K fuel) schedule).log = _ from hl] at hs
  simp only [List.map_append, List.map_cons] at hs ⊢
  refine Task.serially_skip (step := SKL.call K fuel) (c := call) (late := fun e => e = .indexError ∨ e = .valueError) ?_ (fun h => h.elim h1 h2) (by simp) hs
  rcases hc with rfl | rfl | rfl
  · exact Task.Whole.map _ (SKL.whole_remove K fuel v)
  · exact Task.Whole.map _ (SKL.whole_discard K fuel v)
  · exact Task.Whole.map _ (SKL.looks_contains K fuel v).whole

/-- C93: so do `bisect_left`, `bisect_right` and `count` in which a comparison raises: not even the positional index has been built. -/
theorem C93_list_bisect (E : Env α) (s : St α α) (threads : List (List (Op α))) (fuel : Nat) (schedule : List Nat) :
    let p := (SL.guarded s threads).run (SL.step E fuel) schedule
    ∀ before after i call v e, call = .bisectLeft v ∨ call = .bisectRight v ∨ call = .count v → p.log = before ++ (i, call, .error e) :: after → e ≠ .indexError → e ≠ .valueError →
      ∃ now, Task.serially (SL.step E fuel) ((before ++ after).map fun e => e.2.1) (Shared.of s) = some ((before ++ after).map fun e => e.2.2, now) ∧ (p.holder = none → p.shared = now) := by
  intro p before after i call v e hc hl h1 h2
  obtain ⟨now, hs, hn, -⟩ := C93_list E s threads fuel schedule
  refine ⟨now, ?_, hn⟩
  rw [show ((SL.guarded s threads).run (SL.step E fuel) schedule).log = _ from hl] at hs
  simp only [List.map_append, List.map_cons] at hs ⊢
  refine Task.serially_skip (step := SL.step E fuel) (c := call) (late := fun e => e = .indexError ∨ e = .valueError) ?_ (fun h => h.elim h1 h2) (by simp) hs
  rcases hc with rfl | rfl | rfl
  · exact Task.Whole.map _ (SL.whole_bisect E false v)
  · exact Task.Whole.map _ (SL.whole_bisect E true v)
  · exact Task.Whole.map _ (SL.whole_count E v)

/-- C93: the same for a SortedKeyList, and for `bisect_key_left` and `bisect_key_right`; the key function may raise, too. -/
theorem C93_key_list_bisect (K : KEnv α κ) (s : St α κ) (threads : List (List (KOp α κ))) (fuel : Nat) (schedule : List Nat) :
    let p := (SKL.guarded s threads).run (SKL.call K fuel) schedule
    ∀ before after i call v k e, call = .op (.bisectLeft v) ∨ call = .op (.bisectRight v) ∨ call = .op (.count v) ∨ call = .bisectKeyLeft k ∨ call = .bisectKeyRight k →
      p.log = before ++ (i, call, .error e) :: after → e ≠ .indexError → e ≠ .valueError →
      ∃ now, Task.serially (SKL.call K fuel) ((before ++ after).map fun e => e.2.1) (Shared.of s) = some ((before ++ after).map fun e => e.2.2, now) ∧ (p.holder = none → p.shared = now) := by
  intro p before after i call v k e hc hl h1 h2
  obtain ⟨now, hs, hn, -⟩ := C93_key_list K s threads fuel schedule
  refine ⟨now, ?_, hn⟩
  rw [show ((SKL.guarded s threads).run (SKL.call K fuel) schedule).log = _ from hl] at hs
  simp only [List.map_append, List.map_cons] at hs ⊢
  refine Task.serially_skip (step := SKL.call K fuel) (c := call) (late := fun e => e = .indexError ∨ e = .valueError) ?_ (fun h => h.elim h1 h2) (by simp) hs
  rcases hc with rfl | rfl | rfl | rfl | rfl
  · exact Task.Whole.map _ (SKL.whole_bisect K false v)
  · exact Task.Whole.map _ (SKL.whole_bisect K true v)
  · exact Task.Whole.map _ (SKL.looks_count K fuel v).whole
  · exact Task.Whole.map _ (SKL.whole_bisectKey K false k)
  · exact Task.Whole.map _ (SKL.whole_bisectKey K true k)

/-- C93: the same for `sd.pop(key)` on a SortedDict.  (KeyError is left out, too: it is what `sd.pop` raises if the key is not there.) -/
theorem C93_dict_pop (eqv : κ → κ → Bool) (c : ListClass κ) (s : Verif.SD κ ν c.State) (threads : List (List (SDOp κ ν))) (fuel : Nat) (schedule : List Nat) :
    let p := (Race.SD.guarded c s threads).run (Race.SD.step eqv (c.race fuel) c.api) schedule
    ∀ before after i k default e, p.log = before ++ (i, .pop k default, .error e) :: after → e ≠ .indexError → e ≠ .valueError → e ≠ .keyError →
      ∃ now, Task.serially (Race.SD.step eqv (c.race fuel) c.api) ((before ++ after).map fun e => e.2.1) (Race.SD.of c s) = some ((before ++ after).map fun e => e.2.2, now) ∧
        (p.holder = none → p.shared = now) := by
  intro p before after i k default e hl h1 h2 h3
  obtain ⟨now, hs, hn, -⟩ := C93_dict eqv c s threads fuel schedule
  refine ⟨now, ?_, hn⟩
  rw [show ((Race.SD.guarded c s threads).run (Race.SD.step eqv (c.race fuel) c.api) schedule).log = _ from hl] at hs
  simp only [List.map_append, List.map_cons] at hs ⊢
  exact Task.serially_skip (step := Race.SD.step eqv (c.race fuel) c.api) (c := .pop k default) (Task.Whole.map _ (Race.SD.whole_pop eqv c fuel k default))
    (fun h => h.elim h1 fun h => h.elim h2 h3) (by simp) hs

open Demo in
/-- C93: but an `ss.remove(value)` or `ss.discard(value)` in which a comparison raises does leave a trace: the value is not a member any more.  (Values below 0 cannot be compared with the others.) -/
theorem C93_set_remove_trace : let p := (Race.SS.guarded (.plain mixedEnv) coldSet [[.add (-5), .contains (-5)], [.remove (-5), .contains (-5)], [.add (-6)], [.discard (-6), .contains (-6)]]).run (Race.SS.step (iset false) ((ListClass.plain mixedEnv).race 30) (ListClass.plain mixedEnv).api) (List.replicate 60 0 ++ List.replicate 60 1 ++ List.replicate 60 2 ++ List.replicate 60 3)
    p.log.map (fun e => (e.1, e.2.2)) = [(0, .error .typeError), (0, .ok (.bool true)), (1, .error .typeError), (1, .ok (.bool false)), (2, .error .typeError), (3, .error .typeError), (3, .ok (.bool false))] := by decide +kernel

open Demo in
/-- C93: so does `del sd[key]`: the key is gone. -/
theorem C93_dict_delitem_trace : let p := (Race.SD.guarded (.plain mixedEnv) coldDict [[.setdefault (-5) "x", .get (-5)], [.delitem (-5), .contains (-5)], [.setdefault (-6) "y"], [.pop (-6) none, .contains (-6)]]).run (Race.SD.step (equiv ilt) ((ListClass.plain mixedEnv).race 30) (ListClass.plain mixedEnv).api) (List.replicate 60 0 ++ List.replicate 60 1 ++ List.replicate 60 2 ++ List.replicate 60 3)
    p.log.map (fun e => (e.1, e.2.2)) = [(0, .error .typeError), (0, .ok (.val "x")), (1, .error .typeError), (1, .ok (.bool false)), (2, .error .typeError), (3, .error .typeError), (3, .ok (.bool true))] := by decide +kernel

/-! ## The hypotheses are met -/

namespace Demo

/-- Without the `remove` that raises. -/
example := C93_list_remove mixedEnv sl [[.add 8], [.remove (-6)], [.iter]] 30 lockSchedule [(0, .add 8, .ok .none)] [(2, .iter, .ok (.vals [3, 3, 3, 4, 5, 7, 8, 8, 9]))]
  1 (.remove (-6)) (-6) .typeError (.inl rfl) (by decide +kernel) (by decide) (by decide)

/-- Without the `discard` for whose value there is no key. -/
example := C93_key_list_remove mixedKEnv skl [[.op (.add 8)], [.op (.discard 7)], [.op (.add 9), .op .len]] 30 lockSchedule [(0, .op (.add 8), .ok .none)]
  [(2, .op (.add 9), .ok .none), (2, .op .len, .ok (.int 10))] 1 (.op (.discard 7)) 7 (.other 7) (.inr (.inl rfl)) (by decide +kernel) (by decide) (by decide)

/-- Without the `count` and the `bisect_key_right` that raise. -/
example := C93_list_bisect mixedEnv sl [[.add 8], [.count (-6)], [.iter]] 30 lockSchedule [(0, .add 8, .ok .none)] [(2, .iter, .ok (.vals [3, 3, 3, 4, 5, 7, 8, 8, 9]))]
  1 (.count (-6)) (-6) .typeError (.inr (.inr rfl)) (by decide +kernel) (by decide) (by decide)
example := C93_key_list_bisect mixedKEnv skl [[.op (.add 8)], [.bisectKeyRight (-1)], [.op (.add 9), .op .len]] 30 lockSchedule [(0, .op (.add 8), .ok .none)]
  [(2, .op (.add 9), .ok .none), (2, .op .len, .ok (.int 10))] 1 (.bisectKeyRight (-1)) 0 (-1) .typeError (.inr (.inr (.inr (.inr rfl)))) (by decide +kernel) (by decide) (by decide)

/-- Without the `sd.pop` that raises; the `setdefault` that raised before it did leave its trace. -/
example := C93_dict_pop (equiv ilt) (.plain mixedEnv) coldDict [[.setdefault (-5) "x"], [.pop (-5) none, .len], [.len]] 30 lockSchedule [(0, .setdefault (-5) "x", .error .typeError)]
  [(2, .len, .ok (.int 8)), (1, .len, .ok (.int 8))] 1 (-5) none .typeError (by decide +kernel) (by decide) (by decide) (by decide)

end Demo

end Verif
