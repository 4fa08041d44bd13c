import Verif.Props.RaceSets

/-! C91: threads that share a sorted set or dict without a lock may hang.

As `C88_list_hangs`, for the calls of sets and dicts: `update` clears the list and fills it again while another thread is inside `add`.  The schedules are followed turn by turn. -/

namespace Verif
open Race

theorem Task.Never.onSetList {τ σ β : Type} {I : σ → Prop} {n : Nat} {m : Task σ β} (h : Task.Never I n m) : Task.Never (fun s : Verif.SS τ σ => I s.list) n (Race.SS.onList m) := by
  induction m generalizing n with
  | ret x => exact (by cases n <;> exact h : False).elim
  | spin => cases n <;> trivial
  | act g k ih =>
    cases n with
    | zero => trivial
    | succ n => exact fun s hs => ⟨(h s.list hs).1, ih s.list (h s.list hs).2⟩

namespace Demo

/-- `ss = SortedSet([5, 6, 7]); ss._reset(1)` -/
def hangSet : IntSet := (SS.step (iset false) intClass.api (.reset 1) (SS.step (iset false) intClass.api (.update [[5, 6, 7]]) cutSet0).2).2

/-- One thread calls `ss.add(9)`, the other `ss.update([6, 7])` and `ss[2]`. -/
def hangSetThreads : List (List (SSOp Int)) := [[.add 9], [.update [[6, 7]], .getInt 2]]
def hangSetTurns : List Nat := List.replicate 3 0 ++ List.replicate 10 1 ++ List.replicate 2 0 ++ List.replicate 34 1 ++ List.replicate 8 0 ++ List.replicate 7 1

/-- The list of the set in the end, and what the first thread goes on with: the loop of `_expand(-1)`. -/
def hungSetList : Shared Int Int := ⟨[[5], [6], [7], [5], [6], [7], [9, 9]], [], [3, 4, 5, 6], [], [5, 6, 7, 9], [4, 2, 2, 1, 1, 1, 1], 3, 4, 1⟩
def hangSetWaits (fuel : Nat) : Task (Verif.SS { l : List Int // Distinct (equiv ilt) l } (Shared Int Int)) (List (Except PyErr (Out Int))) :=
  Task.bind (Task.attempt (Task.bind (Race.SS.onList (Task.bind (sink (fuel + 8) (-1)) fun _ => addLen 1)) fun _ => .ret (.ok .none))) fun x => Task.bind (.ret (.ok [])) fun xs => .ret (.ok (x :: xs))

def three : { l : List Int // Distinct (equiv ilt) l } := ⟨[5, 6, 7], by simp [Distinct, equiv, ilt]⟩
def four : { l : List Int // Distinct (equiv ilt) l } := ⟨[5, 6, 7, 9], by simp [Distinct, equiv, ilt]⟩

set_option maxRecDepth 20000 in
theorem hangSet_follow (fuel : Nat) : (Crowd.mk (β := List (Except PyErr (Out Int))) (σ := Verif.SS { l : List Int // Distinct (equiv ilt) l } (Shared Int Int)) ⟨three, ⟨[[5], [6], [7]], [], [0, 1, 2], [], [5, 6, 7], [], 0, 3, 1⟩⟩
    [Task.calls (Race.SS.step (iset false) (intClass.race (fuel + 8)) intClass.api) [.add 9], Task.calls (Race.SS.step (iset false) (intClass.race (fuel + 8)) intClass.api) [.update [[6, 7]], .getInt 2]]).run hangSetTurns =
    { shared := ⟨four, hungSetList⟩, threads := [hangSetWaits fuel, .ret (.ok [.ok .none, .ok (.val 7)])] } := by
  refine Crowd.run_zero (s' := ⟨three, ⟨[[5], [6], [7]], [], [0, 1, 2], [], [5, 6, 7], [], 0, 3, 1⟩⟩) rfl rfl ?_
  refine Crowd.run_zero (s' := ⟨four, ⟨[[5], [6], [7]], [], [0, 1, 2], [], [5, 6, 7], [], 0, 3, 1⟩⟩) rfl rfl ?_
  refine Crowd.run_zero (s' := ⟨four, ⟨[[5], [6], [7]], [], [0, 1, 2], [], [5, 6, 7], [], 0, 3, 1⟩⟩) rfl rfl ?_
  refine Crowd.run_one (s' := ⟨four, ⟨[[5], [6], [7]], [], [0, 1, 2], [], [5, 6, 7], [], 0, 3, 1⟩⟩) rfl rfl ?_
  refine Crowd.run_one (s' := ⟨four, ⟨[[5], [6], [7]], [], [0, 1, 2], [], [5, 6, 7], [], 0, 3, 1⟩⟩) rfl rfl ?_
  refine Crowd.run_one (s' := ⟨four, ⟨[[5], [6], [7]], [], [0, 1, 2], [], [5, 6, 7], [], 0, 0, 1⟩⟩) rfl rfl ?_
  refine Crowd.run_one (s' := ⟨four, ⟨[[5], [6], [7]], [], [], [], [5, 6, 7], [], 0, 0, 1⟩⟩) rfl rfl ?_
  refine Crowd.run_one (s' := ⟨four, ⟨[[5], [6], [7]], [], [], [], [], [], 0, 0, 1⟩⟩) rfl rfl ?_
  refine Crowd.run_one (s' := ⟨four, ⟨[[5], [6], [7]], [], [], [], [], [], 0, 0, 1⟩⟩) rfl rfl ?_
  refine Crowd.run_one (s' := ⟨four, ⟨[[5], [6], [7]], [], [], [], [], [], 0, 0, 1⟩⟩) rfl rfl ?_
  refine Crowd.run_one (s' := ⟨four, ⟨[[5], [6], [7]], [], [], [], [], [], 0, 0, 1⟩⟩) rfl rfl ?_
  refine Crowd.run_one (s' := ⟨four, ⟨[[5], [6], [7]], [], [], [], [], [], 0, 0, 1⟩⟩) rfl rfl ?_
  refine Crowd.run_one (s' := ⟨four, ⟨[[5], [6], [7]], [], [], [], [], [], 0, 0, 1⟩⟩) rfl rfl ?_
  refine Crowd.run_zero (s' := ⟨four, ⟨[[5], [6], [7]], [], [], [], [], [], 0, 0, 1⟩⟩) rfl rfl ?_
  refine Crowd.run_zero (s' := ⟨four, ⟨[[5], [6], [7]], [], [], [], [], [], 0, 0, 1⟩⟩) rfl rfl ?_
  refine Crowd.run_one (s' := ⟨four, ⟨[[5], [6], [7], [5]], [], [], [], [], [], 0, 0, 1⟩⟩) rfl rfl ?_
  refine Crowd.run_one (s' := ⟨four, ⟨[[5], [6], [7], [5]], [], [3], [], [], [], 0, 0, 1⟩⟩) rfl rfl ?_
  refine Crowd.run_one (s' := ⟨four, ⟨[[5], [6], [7], [5], [6]], [], [3], [], [], [], 0, 0, 1⟩⟩) rfl rfl ?_
  refine Crowd.run_one (s' := ⟨four, ⟨[[5], [6], [7], [5], [6]], [], [3, 4], [], [], [], 0, 0, 1⟩⟩) rfl rfl ?_
  refine Crowd.run_one (s' := ⟨four, ⟨[[5], [6], [7], [5], [6], [7]], [], [3, 4], [], [], [], 0, 0, 1⟩⟩) rfl rfl ?_
  refine Crowd.run_one (s' := ⟨four, ⟨[[5], [6], [7], [5], [6], [7]], [], [3, 4, 5], [], [], [], 0, 0, 1⟩⟩) rfl rfl ?_
  refine Crowd.run_one (s' := ⟨four, ⟨[[5], [6], [7], [5], [6], [7], [9]], [], [3, 4, 5], [], [], [], 0, 0, 1⟩⟩) rfl rfl ?_
  refine Crowd.run_one (s' := ⟨four, ⟨[[5], [6], [7], [5], [6], [7], [9]], [], [3, 4, 5, 6], [], [], [], 0, 0, 1⟩⟩) rfl rfl ?_
  refine Crowd.run_one (s' := ⟨four, ⟨[[5], [6], [7], [5], [6], [7], [9]], [], [3, 4, 5, 6], [], [], [], 0, 0, 1⟩⟩) rfl rfl ?_
  refine Crowd.run_one (s' := ⟨four, ⟨[[5], [6], [7], [5], [6], [7], [9]], [], [3, 4, 5, 6], [], [], [], 0, 0, 1⟩⟩) rfl rfl ?_
  refine Crowd.run_one (s' := ⟨four, ⟨[[5], [6], [7], [5], [6], [7], [9]], [], [3, 4, 5, 6], [], [5], [], 0, 0, 1⟩⟩) rfl rfl ?_
  refine Crowd.run_one (s' := ⟨four, ⟨[[5], [6], [7], [5], [6], [7], [9]], [], [3, 4, 5, 6], [], [5], [], 0, 0, 1⟩⟩) rfl rfl ?_
  refine Crowd.run_one (s' := ⟨four, ⟨[[5], [6], [7], [5], [6], [7], [9]], [], [3, 4, 5, 6], [], [5], [], 0, 0, 1⟩⟩) rfl rfl ?_
  refine Crowd.run_one (s' := ⟨four, ⟨[[5], [6], [7], [5], [6], [7], [9]], [], [3, 4, 5, 6], [], [5, 6], [], 0, 0, 1⟩⟩) rfl rfl ?_
  refine Crowd.run_one (s' := ⟨four, ⟨[[5], [6], [7], [5], [6], [7], [9]], [], [3, 4, 5, 6], [], [5, 6], [], 0, 0, 1⟩⟩) rfl rfl ?_
  refine Crowd.run_one (s' := ⟨four, ⟨[[5], [6], [7], [5], [6], [7], [9]], [], [3, 4, 5, 6], [], [5, 6], [], 0, 0, 1⟩⟩) rfl rfl ?_
  refine Crowd.run_one (s' := ⟨four, ⟨[[5], [6], [7], [5], [6], [7], [9]], [], [3, 4, 5, 6], [], [5, 6, 7], [], 0, 0, 1⟩⟩) rfl rfl ?_
  refine Crowd.run_one (s' := ⟨four, ⟨[[5], [6], [7], [5], [6], [7], [9]], [], [3, 4, 5, 6], [], [5, 6, 7], [], 0, 0, 1⟩⟩) rfl rfl ?_
  refine Crowd.run_one (s' := ⟨four, ⟨[[5], [6], [7], [5], [6], [7], [9]], [], [3, 4, 5, 6], [], [5, 6, 7], [], 0, 0, 1⟩⟩) rfl rfl ?_
  refine Crowd.run_one (s' := ⟨four, ⟨[[5], [6], [7], [5], [6], [7], [9]], [], [3, 4, 5, 6], [], [5, 6, 7, 9], [], 0, 0, 1⟩⟩) rfl rfl ?_
  refine Crowd.run_one (s' := ⟨four, ⟨[[5], [6], [7], [5], [6], [7], [9]], [], [3, 4, 5, 6], [], [5, 6, 7, 9], [], 0, 0, 1⟩⟩) rfl rfl ?_
  refine Crowd.run_one (s' := ⟨four, ⟨[[5], [6], [7], [5], [6], [7], [9]], [], [3, 4, 5, 6], [], [5, 6, 7, 9], [], 0, 4, 1⟩⟩) rfl rfl ?_
  refine Crowd.run_one (s' := ⟨four, ⟨[[5], [6], [7], [5], [6], [7], [9]], [], [3, 4, 5, 6], [], [5, 6, 7, 9], [], 0, 4, 1⟩⟩) rfl rfl ?_
  refine Crowd.run_one (s' := ⟨four, ⟨[[5], [6], [7], [5], [6], [7], [9]], [], [3, 4, 5, 6], [], [5, 6, 7, 9], [], 0, 4, 1⟩⟩) rfl rfl ?_
  refine Crowd.run_one (s' := ⟨four, ⟨[[5], [6], [7], [5], [6], [7], [9]], [], [3, 4, 5, 6], [], [5, 6, 7, 9], [], 0, 4, 1⟩⟩) rfl rfl ?_
  refine Crowd.run_one (s' := ⟨four, ⟨[[5], [6], [7], [5], [6], [7], [9]], [], [3, 4, 5, 6], [], [5, 6, 7, 9], [], 0, 4, 1⟩⟩) rfl rfl ?_
  refine Crowd.run_one (s' := ⟨four, ⟨[[5], [6], [7], [5], [6], [7], [9]], [], [3, 4, 5, 6], [], [5, 6, 7, 9], [], 0, 4, 1⟩⟩) rfl rfl ?_
  refine Crowd.run_one (s' := ⟨four, ⟨[[5], [6], [7], [5], [6], [7], [9]], [], [3, 4, 5, 6], [], [5, 6, 7, 9], [], 0, 4, 1⟩⟩) rfl rfl ?_
  refine Crowd.run_one (s' := ⟨four, ⟨[[5], [6], [7], [5], [6], [7], [9]], [], [3, 4, 5, 6], [], [5, 6, 7, 9], [], 0, 4, 1⟩⟩) rfl rfl ?_
  refine Crowd.run_one (s' := ⟨four, ⟨[[5], [6], [7], [5], [6], [7], [9]], [], [3, 4, 5, 6], [], [5, 6, 7, 9], [], 0, 4, 1⟩⟩) rfl rfl ?_
  refine Crowd.run_one (s' := ⟨four, ⟨[[5], [6], [7], [5], [6], [7], [9]], [], [3, 4, 5, 6], [], [5, 6, 7, 9], [], 0, 4, 1⟩⟩) rfl rfl ?_
  refine Crowd.run_one (s' := ⟨four, ⟨[[5], [6], [7], [5], [6], [7], [9]], [], [3, 4, 5, 6], [], [5, 6, 7, 9], [], 0, 4, 1⟩⟩) rfl rfl ?_
  refine Crowd.run_one (s' := ⟨four, ⟨[[5], [6], [7], [5], [6], [7], [9]], [], [3, 4, 5, 6], [], [5, 6, 7, 9], [], 0, 4, 1⟩⟩) rfl rfl ?_
  refine Crowd.run_one (s' := ⟨four, ⟨[[5], [6], [7], [5], [6], [7], [9]], [], [3, 4, 5, 6], [], [5, 6, 7, 9], [4, 2, 2, 1, 1, 1, 1], 0, 4, 1⟩⟩) rfl (by decide +kernel) ?_
  refine Crowd.run_zero (s' := ⟨four, ⟨[[5], [6], [7], [5], [6], [7], [9]], [], [3, 4, 5, 6], [], [5, 6, 7, 9], [4, 2, 2, 1, 1, 1, 1], 0, 4, 1⟩⟩) rfl rfl ?_
  refine Crowd.run_zero (s' := ⟨four, ⟨[[5], [6], [7], [5], [6], [7], [9, 9]], [], [3, 4, 5, 6], [], [5, 6, 7, 9], [4, 2, 2, 1, 1, 1, 1], 0, 4, 1⟩⟩) rfl rfl ?_
  refine Crowd.run_zero (s' := ⟨four, ⟨[[5], [6], [7], [5], [6], [7], [9, 9]], [], [3, 4, 5, 6], [], [5, 6, 7, 9], [4, 2, 2, 1, 1, 1, 1], 0, 4, 1⟩⟩) rfl rfl ?_
  refine Crowd.run_zero (s' := ⟨four, ⟨[[5], [6], [7], [5], [6], [7], [9, 9]], [], [3, 4, 5, 6], [], [5, 6, 7, 9], [4, 2, 2, 1, 1, 1, 1], 0, 4, 1⟩⟩) rfl rfl ?_
  refine Crowd.run_zero (s' := ⟨four, ⟨[[5], [6], [7], [5], [6], [7], [9, 9]], [], [3, 4, 5, 6], [], [5, 6, 7, 9], [4, 2, 2, 1, 1, 1, 1], 0, 4, 1⟩⟩) rfl rfl ?_
  refine Crowd.run_zero (s' := ⟨four, ⟨[[5], [6], [7], [5], [6], [7], [9, 9]], [], [3, 4, 5, 6], [], [5, 6, 7, 9], [4, 2, 2, 1, 1, 1, 1], 0, 4, 1⟩⟩) rfl rfl ?_
  refine Crowd.run_zero (s' := ⟨four, ⟨[[5], [6], [7], [5], [6], [7], [9, 9]], [], [3, 4, 5, 6], [], [5, 6, 7, 9], [4, 2, 2, 1, 1, 1, 1], 0, 4, 1⟩⟩) rfl rfl ?_
  refine Crowd.run_zero (s' := ⟨four, ⟨[[5], [6], [7], [5], [6], [7], [9, 9]], [], [3, 4, 5, 6], [], [5, 6, 7, 9], [4, 2, 2, 1, 1, 1, 1], 0, 4, 1⟩⟩) rfl rfl ?_
  refine Crowd.run_one (s' := ⟨four, ⟨[[5], [6], [7], [5], [6], [7], [9, 9]], [], [3, 4, 5, 6], [], [5, 6, 7, 9], [4, 2, 2, 1, 1, 1, 1], 3, 4, 1⟩⟩) rfl rfl ?_
  refine Crowd.run_one (s' := ⟨four, ⟨[[5], [6], [7], [5], [6], [7], [9, 9]], [], [3, 4, 5, 6], [], [5, 6, 7, 9], [4, 2, 2, 1, 1, 1, 1], 3, 4, 1⟩⟩) rfl rfl ?_
  refine Crowd.run_one (s' := ⟨four, ⟨[[5], [6], [7], [5], [6], [7], [9, 9]], [], [3, 4, 5, 6], [], [5, 6, 7, 9], [4, 2, 2, 1, 1, 1, 1], 3, 4, 1⟩⟩) rfl rfl ?_
  refine Crowd.run_one (s' := ⟨four, ⟨[[5], [6], [7], [5], [6], [7], [9, 9]], [], [3, 4, 5, 6], [], [5, 6, 7, 9], [4, 2, 2, 1, 1, 1, 1], 3, 4, 1⟩⟩) rfl rfl ?_
  refine Crowd.run_one (s' := ⟨four, ⟨[[5], [6], [7], [5], [6], [7], [9, 9]], [], [3, 4, 5, 6], [], [5, 6, 7, 9], [4, 2, 2, 1, 1, 1, 1], 3, 4, 1⟩⟩) rfl rfl ?_
  refine Crowd.run_one (s' := ⟨four, ⟨[[5], [6], [7], [5], [6], [7], [9, 9]], [], [3, 4, 5, 6], [], [5, 6, 7, 9], [4, 2, 2, 1, 1, 1, 1], 3, 4, 1⟩⟩) rfl rfl ?_
  refine Crowd.run_one (s' := ⟨four, ⟨[[5], [6], [7], [5], [6], [7], [9, 9]], [], [3, 4, 5, 6], [], [5, 6, 7, 9], [4, 2, 2, 1, 1, 1, 1], 3, 4, 1⟩⟩) rfl rfl ?_
  rfl

theorem hangSet_reachable : SS.Reachable (iset false) intClass.api hangSet :=
  .step (.reset 1) (show 1 ≤ 1 by decide) (.step (.update _) trivial (.new (xs := none) rfl))

end Demo

open Demo in
/-- C91: two threads share `SortedSet([5, 6, 7])`.  One has made its calls, `ss.update([6, 7])` and `ss[2]`, and was told that they succeeded; the other goes on for any number of turns and never
returns from `ss.add(9)`. -/
theorem C91_set_hangs (fuel n : Nat) : SS.Reachable (iset false) intClass.api hangSet ∧ SS.iter intClass.api hangSet = [5, 6, 7] ∧
    let crowd := (Race.SS.crowd (iset false) intClass (fuel + 8) hangSet hangSetThreads).run (hangSetTurns ++ List.replicate n 0)
    crowd.result 1 = some (.ok [.ok .none, .ok (.val 7)]) ∧ crowd.result 0 = none := by
  refine ⟨hangSet_reachable, by decide +kernel, ?_⟩
  rw [Crowd.run_append]
  have start : Race.SS.of intClass hangSet = (⟨three, ⟨[[5], [6], [7]], [], [0, 1, 2], [], [5, 6, 7], [], 0, 3, 1⟩⟩ : Verif.SS _ (Shared Int Int)) := by rfl
  have follow : (Race.SS.crowd (iset false) intClass (fuel + 8) hangSet hangSetThreads).run hangSetTurns =
      { shared := ⟨four, hungSetList⟩, threads := [hangSetWaits fuel, .ret (.ok [.ok .none, .ok (.val 7)])] } := by
    unfold Race.SS.crowd; rw [start]; exact hangSet_follow fuel
  obtain ⟨a, b⟩ := Crowd.never (fun s : Verif.SS { l : List Int // Distinct (equiv ilt) l } (Shared Int Int) => s.list.index ≠ []) (n := n) (i := 0)
    (p := { shared := ⟨four, hungSetList⟩, threads := [hangSetWaits fuel, .ret (.ok [.ok .none, .ok (.val 7)])] })
    (by simp [hungSetList]) rfl (Task.Never.bind (Task.Never.attempt (Task.Never.bind (Task.Never.onSetList (Task.Never.bind (sink_never _ n))))))
  rw [follow]
  exact ⟨(b 1 (by omega)).trans rfl, a⟩

theorem Task.Never.onDictList {κ ν σ β : Type} {I : σ → Prop} {n : Nat} {m : Task σ β} (h : Task.Never I n m) : Task.Never (fun s : Verif.SD κ ν σ => I s.list) n (Race.SD.onList m) := by
  induction m generalizing n with
  | ret x => exact (by cases n <;> exact h : False).elim
  | spin => cases n <;> trivial
  | act g k ih =>
    cases n with
    | zero => trivial
    | succ n => exact fun s hs => ⟨(h s.list hs).1, ih s.list (h s.list hs).2⟩

namespace Demo

/-- `sd = SortedDict({5: 'a', 6: 'b', 7: 'c'}); sd._reset(1)` -/
def hangDict : IntDict := (SD.step (equiv ilt) intClass.api (.reset 1) (SD.step (equiv ilt) intClass.api (.update (.dict [(5, "a"), (6, "b"), (7, "c")])) cutDict0).2).2

theorem hangDict_reachable : SD.Reachable (equiv ilt) intClass.api hangDict :=
  .step (.reset 1) (show 1 ≤ 1 by decide) (.step (.update _) rfl (.new (arg := .dict []) rfl (by rfl)))

/-- One thread calls `sd[9] = 'd'`, the other `sd.update({7: 'e'})` and `sd.peekitem(2)`. -/
def hangThreads : List (List (SDOp Int String)) := [[.setitem 9 "d"], [.update (.dict [(7, "e")]), .peekitem 2]]
def hangTurns : List Nat := List.replicate 2 0 ++ List.replicate 11 1 ++ List.replicate 2 0 ++ List.replicate 29 1 ++ List.replicate 8 0 ++ List.replicate 8 1

/-- The dict in the end, and what the first thread goes on with: the loop of `_expand(-1)`. -/
def hungDict : Verif.SD Int String (Shared Int Int) := ⟨[(5, "a"), (6, "b"), (7, "e")], ⟨[[5], [6], [7], [5], [6], [7, 9]], [], [3, 4, 5], [], [5, 6, 9], [3, 2, 1, 1, 1, 1], 3, 3, 1⟩⟩
def hangWaits (fuel : Nat) : Task (Verif.SD Int String (Shared Int Int)) (List (Except PyErr (DOut Int String))) :=
  Task.bind (Task.attempt (Task.bind (Task.bind (Race.SD.onList (Task.bind (sink (fuel + 8) (-1)) fun _ => addLen 1)) fun _ => Race.SD.onDict fun d => PyDict.set (equiv ilt) d 9 "d") fun _ => .ret (.ok .none)))
    fun x => Task.bind (.ret (.ok [])) fun xs => .ret (.ok (x :: xs))

set_option maxRecDepth 20000 in
theorem hang_follow (fuel : Nat) : (Crowd.mk (β := List (Except PyErr (DOut Int String))) (σ := Verif.SD Int String (Shared Int Int)) ⟨[(5, "a"), (6, "b"), (7, "c")], ⟨[[5], [6], [7]], [], [0, 1, 2], [], [5, 6, 7], [], 0, 3, 1⟩⟩
    [Task.calls (Race.SD.step (equiv ilt) (intClass.race (fuel + 8)) intClass.api) [.setitem 9 "d"], Task.calls (Race.SD.step (equiv ilt) (intClass.race (fuel + 8)) intClass.api) [.update (.dict [(7, "e")]), .peekitem 2]]).run hangTurns =
    { shared := hungDict, threads := [hangWaits fuel, .ret (.ok [.ok .none, .ok (.item 7 "e")])] } := by
  refine Crowd.run_zero (s' := ⟨[(5, "a"), (6, "b"), (7, "c")], ⟨[[5], [6], [7]], [], [0, 1, 2], [], [5, 6, 7], [], 0, 3, 1⟩⟩) rfl rfl ?_
  refine Crowd.run_zero (s' := ⟨[(5, "a"), (6, "b"), (7, "c")], ⟨[[5], [6], [7]], [], [0, 1, 2], [], [5, 6, 7], [], 0, 3, 1⟩⟩) rfl rfl ?_
  refine Crowd.run_one (s' := ⟨[(5, "a"), (6, "b"), (7, "c")], ⟨[[5], [6], [7]], [], [0, 1, 2], [], [5, 6, 7], [], 0, 3, 1⟩⟩) rfl rfl ?_
  refine Crowd.run_one (s' := ⟨[(5, "a"), (6, "b"), (7, "c")], ⟨[[5], [6], [7]], [], [0, 1, 2], [], [5, 6, 7], [], 0, 3, 1⟩⟩) rfl rfl ?_
  refine Crowd.run_one (s' := ⟨[(5, "a"), (6, "b"), (7, "e")], ⟨[[5], [6], [7]], [], [0, 1, 2], [], [5, 6, 7], [], 0, 3, 1⟩⟩) rfl rfl ?_
  refine Crowd.run_one (s' := ⟨[(5, "a"), (6, "b"), (7, "e")], ⟨[[5], [6], [7]], [], [0, 1, 2], [], [5, 6, 7], [], 0, 0, 1⟩⟩) rfl rfl ?_
  refine Crowd.run_one (s' := ⟨[(5, "a"), (6, "b"), (7, "e")], ⟨[[5], [6], [7]], [], [], [], [5, 6, 7], [], 0, 0, 1⟩⟩) rfl rfl ?_
  refine Crowd.run_one (s' := ⟨[(5, "a"), (6, "b"), (7, "e")], ⟨[[5], [6], [7]], [], [], [], [], [], 0, 0, 1⟩⟩) rfl rfl ?_
  refine Crowd.run_one (s' := ⟨[(5, "a"), (6, "b"), (7, "e")], ⟨[[5], [6], [7]], [], [], [], [], [], 0, 0, 1⟩⟩) rfl rfl ?_
  refine Crowd.run_one (s' := ⟨[(5, "a"), (6, "b"), (7, "e")], ⟨[[5], [6], [7]], [], [], [], [], [], 0, 0, 1⟩⟩) rfl rfl ?_
  refine Crowd.run_one (s' := ⟨[(5, "a"), (6, "b"), (7, "e")], ⟨[[5], [6], [7]], [], [], [], [], [], 0, 0, 1⟩⟩) rfl rfl ?_
  refine Crowd.run_one (s' := ⟨[(5, "a"), (6, "b"), (7, "e")], ⟨[[5], [6], [7]], [], [], [], [], [], 0, 0, 1⟩⟩) rfl rfl ?_
  refine Crowd.run_one (s' := ⟨[(5, "a"), (6, "b"), (7, "e")], ⟨[[5], [6], [7]], [], [], [], [], [], 0, 0, 1⟩⟩) rfl rfl ?_
  refine Crowd.run_zero (s' := ⟨[(5, "a"), (6, "b"), (7, "e")], ⟨[[5], [6], [7]], [], [], [], [], [], 0, 0, 1⟩⟩) rfl rfl ?_
  refine Crowd.run_zero (s' := ⟨[(5, "a"), (6, "b"), (7, "e")], ⟨[[5], [6], [7]], [], [], [], [], [], 0, 0, 1⟩⟩) rfl rfl ?_
  refine Crowd.run_one (s' := ⟨[(5, "a"), (6, "b"), (7, "e")], ⟨[[5], [6], [7], [5]], [], [], [], [], [], 0, 0, 1⟩⟩) rfl rfl ?_
  refine Crowd.run_one (s' := ⟨[(5, "a"), (6, "b"), (7, "e")], ⟨[[5], [6], [7], [5]], [], [3], [], [], [], 0, 0, 1⟩⟩) rfl rfl ?_
  refine Crowd.run_one (s' := ⟨[(5, "a"), (6, "b"), (7, "e")], ⟨[[5], [6], [7], [5], [6]], [], [3], [], [], [], 0, 0, 1⟩⟩) rfl rfl ?_
  refine Crowd.run_one (s' := ⟨[(5, "a"), (6, "b"), (7, "e")], ⟨[[5], [6], [7], [5], [6]], [], [3, 4], [], [], [], 0, 0, 1⟩⟩) rfl rfl ?_
  refine Crowd.run_one (s' := ⟨[(5, "a"), (6, "b"), (7, "e")], ⟨[[5], [6], [7], [5], [6], [7]], [], [3, 4], [], [], [], 0, 0, 1⟩⟩) rfl rfl ?_
  refine Crowd.run_one (s' := ⟨[(5, "a"), (6, "b"), (7, "e")], ⟨[[5], [6], [7], [5], [6], [7]], [], [3, 4, 5], [], [], [], 0, 0, 1⟩⟩) rfl rfl ?_
  refine Crowd.run_one (s' := ⟨[(5, "a"), (6, "b"), (7, "e")], ⟨[[5], [6], [7], [5], [6], [7]], [], [3, 4, 5], [], [], [], 0, 0, 1⟩⟩) rfl rfl ?_
  refine Crowd.run_one (s' := ⟨[(5, "a"), (6, "b"), (7, "e")], ⟨[[5], [6], [7], [5], [6], [7]], [], [3, 4, 5], [], [], [], 0, 0, 1⟩⟩) rfl rfl ?_
  refine Crowd.run_one (s' := ⟨[(5, "a"), (6, "b"), (7, "e")], ⟨[[5], [6], [7], [5], [6], [7]], [], [3, 4, 5], [], [5], [], 0, 0, 1⟩⟩) rfl rfl ?_
  refine Crowd.run_one (s' := ⟨[(5, "a"), (6, "b"), (7, "e")], ⟨[[5], [6], [7], [5], [6], [7]], [], [3, 4, 5], [], [5], [], 0, 0, 1⟩⟩) rfl rfl ?_
  refine Crowd.run_one (s' := ⟨[(5, "a"), (6, "b"), (7, "e")], ⟨[[5], [6], [7], [5], [6], [7]], [], [3, 4, 5], [], [5], [], 0, 0, 1⟩⟩) rfl rfl ?_
  refine Crowd.run_one (s' := ⟨[(5, "a"), (6, "b"), (7, "e")], ⟨[[5], [6], [7], [5], [6], [7]], [], [3, 4, 5], [], [5, 6], [], 0, 0, 1⟩⟩) rfl rfl ?_
  refine Crowd.run_one (s' := ⟨[(5, "a"), (6, "b"), (7, "e")], ⟨[[5], [6], [7], [5], [6], [7]], [], [3, 4, 5], [], [5, 6], [], 0, 0, 1⟩⟩) rfl rfl ?_
  refine Crowd.run_one (s' := ⟨[(5, "a"), (6, "b"), (7, "e")], ⟨[[5], [6], [7], [5], [6], [7]], [], [3, 4, 5], [], [5, 6], [], 0, 0, 1⟩⟩) rfl rfl ?_
  refine Crowd.run_one (s' := ⟨[(5, "a"), (6, "b"), (7, "e")], ⟨[[5], [6], [7], [5], [6], [7]], [], [3, 4, 5], [], [5, 6, 7], [], 0, 0, 1⟩⟩) rfl rfl ?_
  refine Crowd.run_one (s' := ⟨[(5, "a"), (6, "b"), (7, "e")], ⟨[[5], [6], [7], [5], [6], [7]], [], [3, 4, 5], [], [5, 6, 7], [], 0, 0, 1⟩⟩) rfl rfl ?_
  refine Crowd.run_one (s' := ⟨[(5, "a"), (6, "b"), (7, "e")], ⟨[[5], [6], [7], [5], [6], [7]], [], [3, 4, 5], [], [5, 6, 7], [], 0, 3, 1⟩⟩) rfl rfl ?_
  refine Crowd.run_one (s' := ⟨[(5, "a"), (6, "b"), (7, "e")], ⟨[[5], [6], [7], [5], [6], [7]], [], [3, 4, 5], [], [5, 6, 7], [], 0, 3, 1⟩⟩) rfl rfl ?_
  refine Crowd.run_one (s' := ⟨[(5, "a"), (6, "b"), (7, "e")], ⟨[[5], [6], [7], [5], [6], [7]], [], [3, 4, 5], [], [5, 6, 7], [], 0, 3, 1⟩⟩) rfl rfl ?_
  refine Crowd.run_one (s' := ⟨[(5, "a"), (6, "b"), (7, "e")], ⟨[[5], [6], [7], [5], [6], [7]], [], [3, 4, 5], [], [5, 6, 7], [], 0, 3, 1⟩⟩) rfl rfl ?_
  refine Crowd.run_one (s' := ⟨[(5, "a"), (6, "b"), (7, "e")], ⟨[[5], [6], [7], [5], [6], [7]], [], [3, 4, 5], [], [5, 6, 7], [], 0, 3, 1⟩⟩) rfl rfl ?_
  refine Crowd.run_one (s' := ⟨[(5, "a"), (6, "b"), (7, "e")], ⟨[[5], [6], [7], [5], [6], [7]], [], [3, 4, 5], [], [5, 6, 7], [], 0, 3, 1⟩⟩) rfl rfl ?_
  refine Crowd.run_one (s' := ⟨[(5, "a"), (6, "b"), (7, "e")], ⟨[[5], [6], [7], [5], [6], [7]], [], [3, 4, 5], [], [5, 6, 7], [], 0, 3, 1⟩⟩) rfl rfl ?_
  refine Crowd.run_one (s' := ⟨[(5, "a"), (6, "b"), (7, "e")], ⟨[[5], [6], [7], [5], [6], [7]], [], [3, 4, 5], [], [5, 6, 7], [], 0, 3, 1⟩⟩) rfl rfl ?_
  refine Crowd.run_one (s' := ⟨[(5, "a"), (6, "b"), (7, "e")], ⟨[[5], [6], [7], [5], [6], [7]], [], [3, 4, 5], [], [5, 6, 7], [], 0, 3, 1⟩⟩) rfl rfl ?_
  refine Crowd.run_one (s' := ⟨[(5, "a"), (6, "b"), (7, "e")], ⟨[[5], [6], [7], [5], [6], [7]], [], [3, 4, 5], [], [5, 6, 7], [], 0, 3, 1⟩⟩) rfl rfl ?_
  refine Crowd.run_one (s' := ⟨[(5, "a"), (6, "b"), (7, "e")], ⟨[[5], [6], [7], [5], [6], [7]], [], [3, 4, 5], [], [5, 6, 7], [], 0, 3, 1⟩⟩) rfl rfl ?_
  refine Crowd.run_one (s' := ⟨[(5, "a"), (6, "b"), (7, "e")], ⟨[[5], [6], [7], [5], [6], [7]], [], [3, 4, 5], [], [5, 6, 7], [], 0, 3, 1⟩⟩) rfl rfl ?_
  refine Crowd.run_one (s' := ⟨[(5, "a"), (6, "b"), (7, "e")], ⟨[[5], [6], [7], [5], [6], [7]], [], [3, 4, 5], [], [5, 6, 7], [3, 2, 1, 1, 1, 1], 0, 3, 1⟩⟩) rfl (by decide +kernel) ?_
  refine Crowd.run_zero (s' := ⟨[(5, "a"), (6, "b"), (7, "e")], ⟨[[5], [6], [7], [5], [6], [7]], [], [3, 4, 5], [], [5, 6, 7], [3, 2, 1, 1, 1, 1], 0, 3, 1⟩⟩) rfl rfl ?_
  refine Crowd.run_zero (s' := ⟨[(5, "a"), (6, "b"), (7, "e")], ⟨[[5], [6], [7], [5], [6], [7, 9]], [], [3, 4, 5], [], [5, 6, 7], [3, 2, 1, 1, 1, 1], 0, 3, 1⟩⟩) rfl rfl ?_
  refine Crowd.run_zero (s' := ⟨[(5, "a"), (6, "b"), (7, "e")], ⟨[[5], [6], [7], [5], [6], [7, 9]], [], [3, 4, 5], [], [5, 6, 9], [3, 2, 1, 1, 1, 1], 0, 3, 1⟩⟩) rfl rfl ?_
  refine Crowd.run_zero (s' := ⟨[(5, "a"), (6, "b"), (7, "e")], ⟨[[5], [6], [7], [5], [6], [7, 9]], [], [3, 4, 5], [], [5, 6, 9], [3, 2, 1, 1, 1, 1], 0, 3, 1⟩⟩) rfl rfl ?_
  refine Crowd.run_zero (s' := ⟨[(5, "a"), (6, "b"), (7, "e")], ⟨[[5], [6], [7], [5], [6], [7, 9]], [], [3, 4, 5], [], [5, 6, 9], [3, 2, 1, 1, 1, 1], 0, 3, 1⟩⟩) rfl rfl ?_
  refine Crowd.run_zero (s' := ⟨[(5, "a"), (6, "b"), (7, "e")], ⟨[[5], [6], [7], [5], [6], [7, 9]], [], [3, 4, 5], [], [5, 6, 9], [3, 2, 1, 1, 1, 1], 0, 3, 1⟩⟩) rfl rfl ?_
  refine Crowd.run_zero (s' := ⟨[(5, "a"), (6, "b"), (7, "e")], ⟨[[5], [6], [7], [5], [6], [7, 9]], [], [3, 4, 5], [], [5, 6, 9], [3, 2, 1, 1, 1, 1], 0, 3, 1⟩⟩) rfl rfl ?_
  refine Crowd.run_zero (s' := ⟨[(5, "a"), (6, "b"), (7, "e")], ⟨[[5], [6], [7], [5], [6], [7, 9]], [], [3, 4, 5], [], [5, 6, 9], [3, 2, 1, 1, 1, 1], 0, 3, 1⟩⟩) rfl rfl ?_
  refine Crowd.run_one (s' := ⟨[(5, "a"), (6, "b"), (7, "e")], ⟨[[5], [6], [7], [5], [6], [7, 9]], [], [3, 4, 5], [], [5, 6, 9], [3, 2, 1, 1, 1, 1], 3, 3, 1⟩⟩) rfl rfl ?_
  refine Crowd.run_one (s' := ⟨[(5, "a"), (6, "b"), (7, "e")], ⟨[[5], [6], [7], [5], [6], [7, 9]], [], [3, 4, 5], [], [5, 6, 9], [3, 2, 1, 1, 1, 1], 3, 3, 1⟩⟩) rfl rfl ?_
  refine Crowd.run_one (s' := ⟨[(5, "a"), (6, "b"), (7, "e")], ⟨[[5], [6], [7], [5], [6], [7, 9]], [], [3, 4, 5], [], [5, 6, 9], [3, 2, 1, 1, 1, 1], 3, 3, 1⟩⟩) rfl rfl ?_
  refine Crowd.run_one (s' := ⟨[(5, "a"), (6, "b"), (7, "e")], ⟨[[5], [6], [7], [5], [6], [7, 9]], [], [3, 4, 5], [], [5, 6, 9], [3, 2, 1, 1, 1, 1], 3, 3, 1⟩⟩) rfl rfl ?_
  refine Crowd.run_one (s' := ⟨[(5, "a"), (6, "b"), (7, "e")], ⟨[[5], [6], [7], [5], [6], [7, 9]], [], [3, 4, 5], [], [5, 6, 9], [3, 2, 1, 1, 1, 1], 3, 3, 1⟩⟩) rfl rfl ?_
  refine Crowd.run_one (s' := ⟨[(5, "a"), (6, "b"), (7, "e")], ⟨[[5], [6], [7], [5], [6], [7, 9]], [], [3, 4, 5], [], [5, 6, 9], [3, 2, 1, 1, 1, 1], 3, 3, 1⟩⟩) rfl rfl ?_
  refine Crowd.run_one (s' := ⟨[(5, "a"), (6, "b"), (7, "e")], ⟨[[5], [6], [7], [5], [6], [7, 9]], [], [3, 4, 5], [], [5, 6, 9], [3, 2, 1, 1, 1, 1], 3, 3, 1⟩⟩) rfl rfl ?_
  refine Crowd.run_one (s' := ⟨[(5, "a"), (6, "b"), (7, "e")], ⟨[[5], [6], [7], [5], [6], [7, 9]], [], [3, 4, 5], [], [5, 6, 9], [3, 2, 1, 1, 1, 1], 3, 3, 1⟩⟩) rfl rfl ?_
  rfl

end Demo

open Demo in
/-- C91: two threads share `SortedDict({5: 'a', 6: 'b', 7: 'c'})`.  One has made its calls, `sd.update({7: 'e'})` and `sd.peekitem(2)`, and was told that they succeeded; the other goes on for any
number of turns and never returns from `sd[9] = 'd'`. -/
theorem C91_dict_hangs (fuel n : Nat) : SD.Reachable (equiv ilt) intClass.api hangDict ∧ hangDict.dict = [(5, "a"), (6, "b"), (7, "c")] ∧
    let crowd := (Race.SD.crowd (equiv ilt) intClass (fuel + 8) hangDict hangThreads).run (hangTurns ++ List.replicate n 0)
    crowd.result 1 = some (.ok [.ok .none, .ok (.item 7 "e")]) ∧ crowd.result 0 = none := by
  refine ⟨hangDict_reachable, by decide +kernel, ?_⟩
  rw [Crowd.run_append]
  have start : Race.SD.of intClass hangDict = (⟨[(5, "a"), (6, "b"), (7, "c")], ⟨[[5], [6], [7]], [], [0, 1, 2], [], [5, 6, 7], [], 0, 3, 1⟩⟩ : Verif.SD Int String (Shared Int Int)) := by rfl
  have follow : (Race.SD.crowd (equiv ilt) intClass (fuel + 8) hangDict hangThreads).run hangTurns =
      { shared := hungDict, threads := [hangWaits fuel, .ret (.ok [.ok .none, .ok (.item 7 "e")])] } := by
    unfold Race.SD.crowd; rw [start]; exact hang_follow fuel
  obtain ⟨a, b⟩ := Crowd.never (fun s : Verif.SD Int String (Shared Int Int) => s.list.index ≠ []) (n := n) (i := 0)
    (p := { shared := hungDict, threads := [hangWaits fuel, .ret (.ok [.ok .none, .ok (.item 7 "e")])] })
    (by simp [hungDict]) rfl (Task.Never.bind (Task.Never.attempt (Task.Never.bind (Task.Never.bind (Task.Never.onDictList (Task.Never.bind (sink_never _ n)))))))
  rw [follow]
  exact ⟨(b 1 (by omega)).trans rfl, a⟩

end Verif
