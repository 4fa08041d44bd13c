import Verif.Proofs.RaceCrowd
import Verif.Props.Recover
/-!
# C88: several threads change one sorted list

`SL.crowd E fuel s threads` (Model/Race.lean): the threads have the list `s` in common and nothing protects it.  Each makes its calls one after the other; between any two accesses to the
list or to one of its sublists any other thread may have its turn.  The library does not promise anything for this use, and indeed values may get lost or appear twice, and a call may
go round for ever (below).  What remains true of every schedule:

* the list shows no value that was not in it at the start or passed to it by one of the threads,
* calls raise IndexError, ValueError, NotImplementedError (of methods that are refused), or what comparisons raise, nothing else,
* `clear()` makes the list as good as new, once the threads have stopped at whatever point,
* threads that only add values and look at the list always end.
-/

namespace Verif
variable {α κ : Type}
open Race

/-- C88: whatever threads do to one SortedList, at every point of every schedule its values were in it at the start or were passed to it, and so were the values that calls have returned;
calls have returned or raised IndexError, ValueError, NotImplementedError if a call is of a method that sorted lists refuse, or an exception of the comparisons. -/
theorem C88_list {E : Env α} (hsort : ∀ xs ys, E.sorted xs = .ok ys → ys.Perm xs) (s : St α α) (threads : List (List (Op α))) (fuel : Nat) (schedule : List Nat) :
    let known := fun v => v ∈ s.lists.flatten ∨ ∃ cs ∈ threads, ∃ op ∈ cs, v ∈ op.given
    let crowd := (SL.crowd E fuel s threads).run schedule
    (∀ v ∈ crowd.shared.contents, known v) ∧
    ∀ i x, crowd.result i = some x → ∃ answers, x = .ok answers ∧ some answers.length = (threads[i]?).map List.length ∧ ∀ a ∈ answers,
      (∀ out, a = .ok out → ∀ v ∈ out.shown, known v) ∧
      ∀ e, a = .error e → e = .indexError ∨ e = .valueError ∨ (e = .notImplementedError ∧ ∃ cs ∈ threads, ∃ u, .unsupported u ∈ cs) ∨ (∃ op x y, E.cmp op x y = .error e) ∨ ∃ xs, E.sorted xs = .error e := by
  intro known crowd
  let B : Bounds α α := { val := known, load := fun _ => True, grow := False, index := .inl rfl, value := .inr (.inl rfl)
                          err := fun e => e = .indexError ∨ e = .valueError ∨ (e = .notImplementedError ∧ ∃ cs ∈ threads, ∃ u, .unsupported u ∈ cs) ∨ (∃ op x y, E.cmp op x y = .error e) ∨ ∃ xs, E.sorted xs = .error e }
  have hE : B.Suits E := ⟨fun op x y e h => .inr (.inr (.inr (.inl ⟨op, x, y, h⟩))), fun xs e h => .inr (.inr (.inr (.inr ⟨xs, h⟩))), fun xs ys h hx v hv => hx v ((hsort xs ys h).mem_iff.1 hv)⟩
  obtain ⟨h1, -, h3⟩ := Bounds.Safe.crowd (B := B) (step := SL.step E fuel) threads schedule (s := Shared.of s)
    (Bounds.Holds.of s (fun l hl v hv => .inl (List.mem_flatten.2 ⟨l, hl, hv⟩)) trivial)
    fun cs hcs op hop => Bounds.Safe.SL_step hE fuel op (fun h => h.elim) (fun v hv => .inr ⟨cs, hcs, op, hop, hv⟩) (fun _ _ => trivial) fun u e => .inr (.inr (.inl ⟨rfl, cs, hcs, u, e ▸ hop⟩))
  refine ⟨fun v hv => ?_, h3⟩
  obtain ⟨a, -, ha⟩ := List.mem_flatMap.1 hv
  exact h1.cell a v ha

/-- C88 for a SortedKeyList. -/
theorem C88_key_list {K : KEnv α κ} (hsort : ∀ xs ys, K.sortedByKey xs = .ok ys → ys.Perm xs) (s : St α κ) (threads : List (List (KOp α κ))) (fuel : Nat) (schedule : List Nat) :
    let known := fun v => v ∈ s.lists.flatten ∨ ∃ cs ∈ threads, ∃ op ∈ cs, v ∈ op.given
    let crowd := (SKL.crowd K fuel s threads).run schedule
    (∀ v ∈ crowd.shared.contents, known v) ∧
    ∀ i x, crowd.result i = some x → ∃ answers, x = .ok answers ∧ some answers.length = (threads[i]?).map List.length ∧ ∀ a ∈ answers,
      (∀ out, a = .ok out → ∀ v ∈ out.shown, known v) ∧
      ∀ e, a = .error e → e = .indexError ∨ e = .valueError ∨ (e = .notImplementedError ∧ ∃ cs ∈ threads, ∃ u, .op (.unsupported u) ∈ cs) ∨ (∃ x, K.key x = .error e) ∨ (∃ op x y, K.kcmp op x y = .error e) ∨ (∃ op x y, K.vcmp op x y = .error e) ∨
        ∃ xs, K.sortedByKey xs = .error e := by
  intro known crowd
  let B : Bounds α κ := { val := known, load := fun _ => True, grow := False, index := .inl rfl, value := .inr (.inl rfl)
                          err := fun e => e = .indexError ∨ e = .valueError ∨ (e = .notImplementedError ∧ ∃ cs ∈ threads, ∃ u, .op (.unsupported u) ∈ cs) ∨ (∃ x, K.key x = .error e) ∨ (∃ op x y, K.kcmp op x y = .error e) ∨ (∃ op x y, K.vcmp op x y = .error e) ∨
                            ∃ xs, K.sortedByKey xs = .error e }
  have hE : B.KSuits K := ⟨fun x e h => .inr (.inr (.inr (.inl ⟨x, h⟩))), fun op x y e h => .inr (.inr (.inr (.inr (.inl ⟨op, x, y, h⟩)))), fun x y e h => .inr (.inr (.inr (.inr (.inr (.inl ⟨.eq, x, y, h⟩))))),
    fun xs e h => .inr (.inr (.inr (.inr (.inr (.inr ⟨xs, h⟩))))), fun xs ys h hx v hv => hx v ((hsort xs ys h).mem_iff.1 hv)⟩
  obtain ⟨h1, -, h3⟩ := Bounds.Safe.crowd (B := B) (step := SKL.call K fuel) threads schedule (s := Shared.of s)
    (Bounds.Holds.of s (fun l hl v hv => .inl (List.mem_flatten.2 ⟨l, hl, hv⟩)) trivial)
    fun cs hcs op hop => Bounds.Safe.SKL_call hE (fun op x y e h => .inr (.inr (.inr (.inr (.inr (.inl ⟨op, x, y, h⟩)))))) fuel op (fun h => h.elim) (fun v hv => .inr ⟨cs, hcs, op, hop, hv⟩) (fun _ _ => trivial) fun u e => .inr (.inr (.inl ⟨rfl, cs, hcs, u, e ▸ hop⟩))
  refine ⟨fun v hv => ?_, h3⟩
  obtain ⟨a, -, ha⟩ := List.mem_flatMap.1 hv
  exact h1.cell a v ha

/-- Nothing is assumed of values, exceptions and the list. -/
def Race.free (load : Nat → Prop) (grow : Prop) : Bounds α κ := { val := fun _ => True, load, grow, err := fun _ => True, index := trivial, value := trivial }

/-- C88: wherever the threads have stopped, `clear()` returns, and the answers of all calls that follow are those of the plain sorted list `[]`. -/
theorem C88_list_clear {E : Env α} {lt : α → α → Bool} (hE : E.Lawful lt) (s : St α α) (hload : 1 ≤ s.load) (threads : List (List (Op α))) (hreset : ∀ cs ∈ threads, ∀ load, .reset load ∈ cs → 1 ≤ load) (fuel : Nat) (schedule : List Nat)
    (ops : List (Op α)) (hops : ∀ op ∈ ops, op.Valid) :
    let spec := runHist (Spec.step (Spec.Order.ofValues lt)) ops []
    let real := runHist (SL.api E).step (.clear :: ops) ((SL.crowd E fuel s threads).run schedule).shared.view
    real.1 = .ok .none :: spec.1 ∧ Core.iter real.2 = spec.2 := by
  have hS : (Race.free (1 ≤ ·) False).Suits E := ⟨fun _ _ _ _ _ => trivial, fun _ _ _ => trivial, fun _ _ _ _ _ _ => trivial⟩
  obtain ⟨h1, -, -⟩ := Bounds.Safe.crowd (B := Race.free (1 ≤ ·) False) (step := SL.step E fuel) threads schedule (s := Shared.of s)
    (Bounds.Holds.of s (fun _ _ _ _ => trivial) hload) fun cs hcs op hop => Bounds.Safe.SL_step hS fuel op (fun h => h.elim) (fun _ _ => trivial) (fun load e => hreset cs hcs load (e ▸ hop)) fun _ _ => trivial
  obtain ⟨s', e, hi, h0⟩ := SL.clear_inv lt (s := ((SL.crowd E fuel s threads).run schedule).shared.view) h1.2
  obtain ⟨k1, k2, _⟩ := (SL.api_lawful hE).hist ops hops hi
  have e' : (SL.api E).step .clear ((SL.crowd E fuel s threads).run schedule).shared.view = (.ok .none, s') := by
    cases e; rfl
  rw [show (SL.api E).iter s' = [] from h0] at k1 k2
  simp only [runHist, e', k1, true_and]
  exact k2

/-- C88: the same for a SortedKeyList. -/
theorem C88_key_list_clear {K : KEnv α κ} {key : α → κ} {klt : κ → κ → Bool} {veq : α → α → Bool} (hK : K.Lawful key klt veq) (s : St α κ) (hload : 1 ≤ s.load)
    (threads : List (List (KOp α κ))) (hreset : ∀ cs ∈ threads, ∀ load, .op (.reset load) ∈ cs → 1 ≤ load) (fuel : Nat) (schedule : List Nat) (ops : List (KOp α κ)) (hops : ∀ op ∈ ops, op.Valid) :
    let spec := runHist (Spec.kstep key klt (Spec.Order.ofKey key klt veq K.vcmp)) ops []
    let real := runHist (SKL.kstep K) (.op .clear :: ops) ((SKL.crowd K fuel s threads).run schedule).shared.view
    real.1 = .ok .none :: spec.1 ∧ Core.iter real.2 = spec.2 := by
  have hS : (Race.free (1 ≤ ·) False).KSuits K := ⟨fun _ _ _ => trivial, fun _ _ _ _ _ => trivial, fun _ _ _ _ => trivial, fun _ _ _ => trivial, fun _ _ _ _ _ _ => trivial⟩
  obtain ⟨h1, -, -⟩ := Bounds.Safe.crowd (B := Race.free (1 ≤ ·) False) (step := SKL.call K fuel) threads schedule (s := Shared.of s)
    (Bounds.Holds.of s (fun _ _ _ _ => trivial) hload) fun cs hcs op hop => Bounds.Safe.SKL_call hS (fun _ _ _ _ _ => trivial) fuel op (fun h => h.elim) (fun _ _ => trivial) (fun load e => hreset cs hcs load (e ▸ hop)) fun _ _ => trivial
  obtain ⟨s', e, hi, h0⟩ := SKL.clear_inv key klt (s := ((SKL.crowd K fuel s threads).run schedule).shared.view) h1.2
  obtain ⟨k1, k2, _⟩ := Refines.hist ops (fun op ho => SKL.kstep_refines hK op (hops op ho)) hi
  have e' : SKL.kstep K (.op .clear) ((SKL.crowd K fuel s threads).run schedule).shared.view = (.ok .none, s') := by
    cases e; rfl
  rw [h0] at k1 k2
  simp only [runHist, e', k1, true_and]
  exact k2

/-- C88: threads that only add values to a SortedList and look at it do not hang: each ends if it has turns again and again, whatever the others do. -/
theorem C88_list_adds {E : Env α} (s : St α α) (threads : List (List (Op α))) (hops : ∀ cs ∈ threads, ∀ op ∈ cs, op.stays = true) (fuel : Nat)
    (schedule : Nat → Nat) (i : Nat) (hi : i < threads.length) (fair : ∀ n, ∃ m, n ≤ m ∧ schedule m = i) :
    ∃ n x, ((SL.crowd E fuel s threads).run ((List.range n).map schedule)).result i = some x := by
  have hS : (Race.free (fun _ => True) True).Suits E := ⟨fun _ _ _ _ _ => trivial, fun _ _ _ => trivial, fun _ _ _ _ _ _ => trivial⟩
  obtain ⟨n, m, hm, he⟩ := Crowd.gets_through (SL.crowd E fuel s threads) schedule i fair _ 0 (List.getElem?_eq_getElem (l := threads.map _) (by simpa using hi))
  obtain ⟨-, h2, -⟩ := Bounds.Safe.crowd (B := Race.free (fun _ => True) True) (step := SL.step E fuel) threads ((List.range n).map schedule) (s := Shared.of s)
    (Bounds.Holds.of s (fun _ _ _ _ => trivial) trivial) fun cs hcs op hop => Bounds.Safe.SL_step hS fuel op (fun _ => hops cs hcs op hop) (fun _ _ => trivial) (fun _ _ => trivial) fun _ _ => trivial
  refine ⟨n, ?_⟩
  cases m with
  | ret x => exact ⟨x, by show (Crowd.first _ schedule n).result i = _; unfold Crowd.result; rw [hm]⟩
  | spin => exact absurd trivial (h2 i hm)
  | act f k => cases he

/-- C88: the same for a SortedKeyList, if the threads do not look for values by `in`, `count` and `index`. -/
theorem C88_key_list_adds {K : KEnv α κ} (s : St α κ) (threads : List (List (KOp α κ))) (hops : ∀ cs ∈ threads, ∀ op ∈ cs, op.stays = true) (fuel : Nat)
    (schedule : Nat → Nat) (i : Nat) (hi : i < threads.length) (fair : ∀ n, ∃ m, n ≤ m ∧ schedule m = i) :
    ∃ n x, ((SKL.crowd K fuel s threads).run ((List.range n).map schedule)).result i = some x := by
  have hS : (Race.free (fun _ => True) True).KSuits K := ⟨fun _ _ _ => trivial, fun _ _ _ _ _ => trivial, fun _ _ _ _ => trivial, fun _ _ _ => trivial, fun _ _ _ _ _ _ => trivial⟩
  obtain ⟨n, m, hm, he⟩ := Crowd.gets_through (SKL.crowd K fuel s threads) schedule i fair _ 0 (List.getElem?_eq_getElem (l := threads.map _) (by simpa using hi))
  obtain ⟨-, h2, -⟩ := Bounds.Safe.crowd (B := Race.free (fun _ => True) True) (step := SKL.call K fuel) threads ((List.range n).map schedule) (s := Shared.of s)
    (Bounds.Holds.of s (fun _ _ _ _ => trivial) trivial) fun cs hcs op hop => Bounds.Safe.SKL_call hS (fun _ _ _ _ _ => trivial) fuel op (fun _ => hops cs hcs op hop) (fun _ _ => trivial) (fun _ _ => trivial) fun _ _ => trivial
  refine ⟨n, ?_⟩
  cases m with
  | ret x => exact ⟨x, by show (Crowd.first _ schedule n).result i = _; unfold Crowd.result; rw [hm]⟩
  | spin => exact absurd trivial (h2 i hm)
  | act f k => cases he

/-! ## What goes wrong -/

namespace Demo

/-- Two threads add a value each to a list that nobody else uses. -/
def raceAdds : List (List (Op Int)) := [[.add 10], [.add 7]]
def raceLoses : List Nat := List.replicate 13 0 ++ List.replicate 11 1 ++ List.replicate 10 0 ++ List.replicate 10 1
def raceDoubles : List Nat := List.replicate 13 0 ++ List.replicate 40 1 ++ List.replicate 10 0

end Demo

open Demo in
/-- C88: a value may get lost that no thread removes: 8 was in the list, one thread adds 7, the other 10, both calls return, and 8 is gone. -/
theorem C88_list_loses : (SL.api intEnv).Reachable sl ∧ 8 ∈ Core.iter sl ∧
    let crowd := (SL.crowd intEnv 0 sl raceAdds).run raceLoses
    crowd.result 0 = some (.ok [.ok .none]) ∧ crowd.result 1 = some (.ok [.ok .none]) ∧ crowd.shared.contents = [3, 3, 3, 4, 5, 7, 7, 9, 10] :=
  ⟨sl_reachable, by decide +kernel, by decide +kernel⟩

open Demo in
/-- C88: a value may appear twice, and out of order: two threads split the same sublist. -/
theorem C88_list_doubles : (SL.api intEnv).Reachable sl ∧
    let crowd := (SL.crowd intEnv 0 sl raceAdds).run raceDoubles
    crowd.result 0 = some (.ok [.ok .none]) ∧ crowd.result 1 = some (.ok [.ok .none]) ∧ crowd.shared.contents = [3, 3, 3, 4, 5, 7, 7, 9, 10, 8, 9, 10] :=
  ⟨sl_reachable, by decide +kernel⟩

namespace Demo

/-- One thread compares the list, the other takes away its first value and adds one. -/
def raceCompares : List (List (Op Int)) := [[.compare .eq [1, 3, 5]], [.discard 1, .add 5]]
def raceCompare : List Nat := List.replicate 2 0 ++ List.replicate 40 1 ++ List.replicate 4 0

end Demo

open Demo in
/-- C88: a comparison may say that the list equals a sequence which at no time it equals: `SortedList([1, 2, 3]) == [1, 3, 5]` answers True. -/
theorem C88_list_compares : ∃ s, SL.new intEnv (some [1, 2, 3]) = .ok s ∧
    ((SL.crowd intEnv 0 s raceCompares).run raceCompare).result 0 = some (.ok [.ok (.bool true)]) ∧
    ∀ n, n ≤ raceCompare.length → ((SL.crowd intEnv 0 s raceCompares).run (raceCompare.take n)).shared.contents ≠ [1, 3, 5] :=
  ⟨{ len := 3, load := 1000, lists := [[1, 2, 3]], keys := [], maxes := [3], index := [], offset := 0 }, by decide +kernel, by decide +kernel, by decide +kernel⟩

namespace Demo

/-- One thread adds a value, the other clears the list, fills it again, and looks at it. -/
def raceHangs : List (List (Op Int)) := [[.add 9], [.clear, .update [5, 6, 7], .getInt 2]]
def slNow : St Int Int :=
  { len := 8, load := 1, lists := [[3], [3], [3, 4], [5], [7], [8, 9]], keys := [], maxes := [3, 3, 4, 5, 7, 9], index := [8, 5, 3, 2, 3, 3, 0, 1, 1, 2, 1, 1, 2], offset := 7 }
def raceHang : List Nat := List.replicate 1 0 ++ List.replicate 5 1 ++ List.replicate 2 0 ++ List.replicate 31 1 ++ List.replicate 8 0 ++ List.replicate 7 1

/-- The list in the end, and what the first thread goes on with: the loop of `_expand(-1)`. -/
def raceHung : Shared Int Int := ⟨[[3], [3], [3, 4], [5], [7], [8, 9], [5], [6], [7, 9]], [], [6, 7, 8], [], [5, 6, 9], [3, 2, 1, 1, 1, 1], 3, 3, 1⟩
def raceWaits (fuel : Nat) : Run Int Int (List (Except PyErr (Out Int))) :=
  Task.bind (Task.attempt (Task.bind (Task.bind (sink (fuel + 5) (-1)) fun _ => addLen 1) fun _ => .ret (.ok .none))) fun x => Task.bind (.ret (.ok [])) fun xs => .ret (.ok (x :: xs))

set_option maxRecDepth 20000 in
theorem race_follow (fuel : Nat) : (SL.crowd intEnv (fuel + 5) slNow raceHangs).run raceHang =
    { shared := raceHung, threads := [raceWaits fuel, .ret (.ok [.ok .none, .ok .none, .ok (.val 7)])] } := by
  show (Crowd.mk (Shared.of slNow) [Task.calls (SL.step intEnv (fuel + 5)) [.add 9], Task.calls (SL.step intEnv (fuel + 5)) [.clear, .update [5, 6, 7], .getInt 2]]).run raceHang = _
  refine Crowd.run_zero (s' := ⟨[[3], [3], [3, 4], [5], [7], [8, 9]], [], [0, 1, 2, 3, 4, 5], [], [3, 3, 4, 5, 7, 9], [8, 5, 3, 2, 3, 3, 0, 1, 1, 2, 1, 1, 2], 7, 8, 1⟩) rfl rfl ?_
  refine Crowd.run_one (s' := ⟨[[3], [3], [3, 4], [5], [7], [8, 9]], [], [0, 1, 2, 3, 4, 5], [], [3, 3, 4, 5, 7, 9], [8, 5, 3, 2, 3, 3, 0, 1, 1, 2, 1, 1, 2], 7, 0, 1⟩) rfl rfl ?_
  refine Crowd.run_one (s' := ⟨[[3], [3], [3, 4], [5], [7], [8, 9]], [], [], [], [3, 3, 4, 5, 7, 9], [8, 5, 3, 2, 3, 3, 0, 1, 1, 2, 1, 1, 2], 7, 0, 1⟩) rfl rfl ?_
  refine Crowd.run_one (s' := ⟨[[3], [3], [3, 4], [5], [7], [8, 9]], [], [], [], [], [8, 5, 3, 2, 3, 3, 0, 1, 1, 2, 1, 1, 2], 7, 0, 1⟩) rfl rfl ?_
  refine Crowd.run_one (s' := ⟨[[3], [3], [3, 4], [5], [7], [8, 9]], [], [], [], [], [], 7, 0, 1⟩) rfl rfl ?_
  refine Crowd.run_one (s' := ⟨[[3], [3], [3, 4], [5], [7], [8, 9]], [], [], [], [], [], 0, 0, 1⟩) rfl rfl ?_
  refine Crowd.run_zero (s' := ⟨[[3], [3], [3, 4], [5], [7], [8, 9]], [], [], [], [], [], 0, 0, 1⟩) rfl rfl ?_
  refine Crowd.run_zero (s' := ⟨[[3], [3], [3, 4], [5], [7], [8, 9]], [], [], [], [], [], 0, 0, 1⟩) rfl rfl ?_
  refine Crowd.run_one (s' := ⟨[[3], [3], [3, 4], [5], [7], [8, 9]], [], [], [], [], [], 0, 0, 1⟩) rfl rfl ?_
  refine Crowd.run_one (s' := ⟨[[3], [3], [3, 4], [5], [7], [8, 9]], [], [], [], [], [], 0, 0, 1⟩) rfl rfl ?_
  refine Crowd.run_one (s' := ⟨[[3], [3], [3, 4], [5], [7], [8, 9], [5]], [], [], [], [], [], 0, 0, 1⟩) rfl rfl ?_
  refine Crowd.run_one (s' := ⟨[[3], [3], [3, 4], [5], [7], [8, 9], [5]], [], [6], [], [], [], 0, 0, 1⟩) rfl rfl ?_
  refine Crowd.run_one (s' := ⟨[[3], [3], [3, 4], [5], [7], [8, 9], [5], [6]], [], [6], [], [], [], 0, 0, 1⟩) rfl rfl ?_
  refine Crowd.run_one (s' := ⟨[[3], [3], [3, 4], [5], [7], [8, 9], [5], [6]], [], [6, 7], [], [], [], 0, 0, 1⟩) rfl rfl ?_
  refine Crowd.run_one (s' := ⟨[[3], [3], [3, 4], [5], [7], [8, 9], [5], [6], [7]], [], [6, 7], [], [], [], 0, 0, 1⟩) rfl rfl ?_
  refine Crowd.run_one (s' := ⟨[[3], [3], [3, 4], [5], [7], [8, 9], [5], [6], [7]], [], [6, 7, 8], [], [], [], 0, 0, 1⟩) rfl rfl ?_
  refine Crowd.run_one (s' := ⟨[[3], [3], [3, 4], [5], [7], [8, 9], [5], [6], [7]], [], [6, 7, 8], [], [], [], 0, 0, 1⟩) rfl rfl ?_
  refine Crowd.run_one (s' := ⟨[[3], [3], [3, 4], [5], [7], [8, 9], [5], [6], [7]], [], [6, 7, 8], [], [], [], 0, 0, 1⟩) rfl rfl ?_
  refine Crowd.run_one (s' := ⟨[[3], [3], [3, 4], [5], [7], [8, 9], [5], [6], [7]], [], [6, 7, 8], [], [5], [], 0, 0, 1⟩) rfl rfl ?_
  refine Crowd.run_one (s' := ⟨[[3], [3], [3, 4], [5], [7], [8, 9], [5], [6], [7]], [], [6, 7, 8], [], [5], [], 0, 0, 1⟩) rfl rfl ?_
  refine Crowd.run_one (s' := ⟨[[3], [3], [3, 4], [5], [7], [8, 9], [5], [6], [7]], [], [6, 7, 8], [], [5], [], 0, 0, 1⟩) rfl rfl ?_
  refine Crowd.run_one (s' := ⟨[[3], [3], [3, 4], [5], [7], [8, 9], [5], [6], [7]], [], [6, 7, 8], [], [5, 6], [], 0, 0, 1⟩) rfl rfl ?_
  refine Crowd.run_one (s' := ⟨[[3], [3], [3, 4], [5], [7], [8, 9], [5], [6], [7]], [], [6, 7, 8], [], [5, 6], [], 0, 0, 1⟩) rfl rfl ?_
  refine Crowd.run_one (s' := ⟨[[3], [3], [3, 4], [5], [7], [8, 9], [5], [6], [7]], [], [6, 7, 8], [], [5, 6], [], 0, 0, 1⟩) rfl rfl ?_
  refine Crowd.run_one (s' := ⟨[[3], [3], [3, 4], [5], [7], [8, 9], [5], [6], [7]], [], [6, 7, 8], [], [5, 6, 7], [], 0, 0, 1⟩) rfl rfl ?_
  refine Crowd.run_one (s' := ⟨[[3], [3], [3, 4], [5], [7], [8, 9], [5], [6], [7]], [], [6, 7, 8], [], [5, 6, 7], [], 0, 0, 1⟩) rfl rfl ?_
  refine Crowd.run_one (s' := ⟨[[3], [3], [3, 4], [5], [7], [8, 9], [5], [6], [7]], [], [6, 7, 8], [], [5, 6, 7], [], 0, 3, 1⟩) rfl rfl ?_
  refine Crowd.run_one (s' := ⟨[[3], [3], [3, 4], [5], [7], [8, 9], [5], [6], [7]], [], [6, 7, 8], [], [5, 6, 7], [], 0, 3, 1⟩) rfl rfl ?_
  refine Crowd.run_one (s' := ⟨[[3], [3], [3, 4], [5], [7], [8, 9], [5], [6], [7]], [], [6, 7, 8], [], [5, 6, 7], [], 0, 3, 1⟩) rfl rfl ?_
  refine Crowd.run_one (s' := ⟨[[3], [3], [3, 4], [5], [7], [8, 9], [5], [6], [7]], [], [6, 7, 8], [], [5, 6, 7], [], 0, 3, 1⟩) rfl rfl ?_
  refine Crowd.run_one (s' := ⟨[[3], [3], [3, 4], [5], [7], [8, 9], [5], [6], [7]], [], [6, 7, 8], [], [5, 6, 7], [], 0, 3, 1⟩) rfl rfl ?_
  refine Crowd.run_one (s' := ⟨[[3], [3], [3, 4], [5], [7], [8, 9], [5], [6], [7]], [], [6, 7, 8], [], [5, 6, 7], [], 0, 3, 1⟩) rfl rfl ?_
  refine Crowd.run_one (s' := ⟨[[3], [3], [3, 4], [5], [7], [8, 9], [5], [6], [7]], [], [6, 7, 8], [], [5, 6, 7], [], 0, 3, 1⟩) rfl rfl ?_
  refine Crowd.run_one (s' := ⟨[[3], [3], [3, 4], [5], [7], [8, 9], [5], [6], [7]], [], [6, 7, 8], [], [5, 6, 7], [], 0, 3, 1⟩) rfl rfl ?_
  refine Crowd.run_one (s' := ⟨[[3], [3], [3, 4], [5], [7], [8, 9], [5], [6], [7]], [], [6, 7, 8], [], [5, 6, 7], [], 0, 3, 1⟩) rfl rfl ?_
  refine Crowd.run_one (s' := ⟨[[3], [3], [3, 4], [5], [7], [8, 9], [5], [6], [7]], [], [6, 7, 8], [], [5, 6, 7], [], 0, 3, 1⟩) rfl rfl ?_
  refine Crowd.run_one (s' := ⟨[[3], [3], [3, 4], [5], [7], [8, 9], [5], [6], [7]], [], [6, 7, 8], [], [5, 6, 7], [], 0, 3, 1⟩) rfl rfl ?_
  refine Crowd.run_one (s' := ⟨[[3], [3], [3, 4], [5], [7], [8, 9], [5], [6], [7]], [], [6, 7, 8], [], [5, 6, 7], [], 0, 3, 1⟩) rfl rfl ?_
  refine Crowd.run_one (s' := ⟨[[3], [3], [3, 4], [5], [7], [8, 9], [5], [6], [7]], [], [6, 7, 8], [], [5, 6, 7], [3, 2, 1, 1, 1, 1], 0, 3, 1⟩) rfl (by decide +kernel) ?_
  refine Crowd.run_zero (s' := ⟨[[3], [3], [3, 4], [5], [7], [8, 9], [5], [6], [7]], [], [6, 7, 8], [], [5, 6, 7], [3, 2, 1, 1, 1, 1], 0, 3, 1⟩) rfl rfl ?_
  refine Crowd.run_zero (s' := ⟨[[3], [3], [3, 4], [5], [7], [8, 9], [5], [6], [7, 9]], [], [6, 7, 8], [], [5, 6, 7], [3, 2, 1, 1, 1, 1], 0, 3, 1⟩) rfl rfl ?_
  refine Crowd.run_zero (s' := ⟨[[3], [3], [3, 4], [5], [7], [8, 9], [5], [6], [7, 9]], [], [6, 7, 8], [], [5, 6, 9], [3, 2, 1, 1, 1, 1], 0, 3, 1⟩) rfl rfl ?_
  refine Crowd.run_zero (s' := ⟨[[3], [3], [3, 4], [5], [7], [8, 9], [5], [6], [7, 9]], [], [6, 7, 8], [], [5, 6, 9], [3, 2, 1, 1, 1, 1], 0, 3, 1⟩) rfl rfl ?_
  refine Crowd.run_zero (s' := ⟨[[3], [3], [3, 4], [5], [7], [8, 9], [5], [6], [7, 9]], [], [6, 7, 8], [], [5, 6, 9], [3, 2, 1, 1, 1, 1], 0, 3, 1⟩) rfl rfl ?_
  refine Crowd.run_zero (s' := ⟨[[3], [3], [3, 4], [5], [7], [8, 9], [5], [6], [7, 9]], [], [6, 7, 8], [], [5, 6, 9], [3, 2, 1, 1, 1, 1], 0, 3, 1⟩) rfl rfl ?_
  refine Crowd.run_zero (s' := ⟨[[3], [3], [3, 4], [5], [7], [8, 9], [5], [6], [7, 9]], [], [6, 7, 8], [], [5, 6, 9], [3, 2, 1, 1, 1, 1], 0, 3, 1⟩) rfl rfl ?_
  refine Crowd.run_zero (s' := ⟨[[3], [3], [3, 4], [5], [7], [8, 9], [5], [6], [7, 9]], [], [6, 7, 8], [], [5, 6, 9], [3, 2, 1, 1, 1, 1], 0, 3, 1⟩) rfl rfl ?_
  refine Crowd.run_one (s' := ⟨[[3], [3], [3, 4], [5], [7], [8, 9], [5], [6], [7, 9]], [], [6, 7, 8], [], [5, 6, 9], [3, 2, 1, 1, 1, 1], 3, 3, 1⟩) rfl rfl ?_
  refine Crowd.run_one (s' := ⟨[[3], [3], [3, 4], [5], [7], [8, 9], [5], [6], [7, 9]], [], [6, 7, 8], [], [5, 6, 9], [3, 2, 1, 1, 1, 1], 3, 3, 1⟩) rfl rfl ?_
  refine Crowd.run_one (s' := ⟨[[3], [3], [3, 4], [5], [7], [8, 9], [5], [6], [7, 9]], [], [6, 7, 8], [], [5, 6, 9], [3, 2, 1, 1, 1, 1], 3, 3, 1⟩) rfl rfl ?_
  refine Crowd.run_one (s' := ⟨[[3], [3], [3, 4], [5], [7], [8, 9], [5], [6], [7, 9]], [], [6, 7, 8], [], [5, 6, 9], [3, 2, 1, 1, 1, 1], 3, 3, 1⟩) rfl rfl ?_
  refine Crowd.run_one (s' := ⟨[[3], [3], [3, 4], [5], [7], [8, 9], [5], [6], [7, 9]], [], [6, 7, 8], [], [5, 6, 9], [3, 2, 1, 1, 1, 1], 3, 3, 1⟩) rfl rfl ?_
  refine Crowd.run_one (s' := ⟨[[3], [3], [3, 4], [5], [7], [8, 9], [5], [6], [7, 9]], [], [6, 7, 8], [], [5, 6, 9], [3, 2, 1, 1, 1, 1], 3, 3, 1⟩) rfl rfl ?_
  refine Crowd.run_one (s' := ⟨[[3], [3], [3, 4], [5], [7], [8, 9], [5], [6], [7, 9]], [], [6, 7, 8], [], [5, 6, 9], [3, 2, 1, 1, 1, 1], 3, 3, 1⟩) rfl rfl ?_
  rfl

end Demo

open Demo in
/-- C88: a call may go round for ever: the second thread has made all its calls, the first goes on for any number of turns and never returns from `add(9)`. -/
theorem C88_list_hangs (fuel n : Nat) : (SL.api intEnv).Reachable sl ∧
    let crowd := (SL.crowd intEnv (fuel + 5) sl raceHangs).run (raceHang ++ List.replicate n 0)
    crowd.result 1 = some (.ok [.ok .none, .ok .none, .ok (.val 7)]) ∧ crowd.result 0 = none := by
  refine ⟨sl_reachable, ?_⟩
  rw [Crowd.run_append, show sl = slNow by decide +kernel]
  have follow : (SL.crowd intEnv (fuel + 5) slNow raceHangs).run raceHang = { shared := raceHung, threads := [raceWaits fuel, .ret (.ok [.ok .none, .ok .none, .ok (.val 7)])] } :=
    race_follow fuel
  obtain ⟨a, b⟩ := Crowd.never (fun s : Shared Int Int => s.index ≠ []) (n := n) (i := 0) (p := { shared := raceHung, threads := [raceWaits fuel, .ret (.ok [.ok .none, .ok .none, .ok (.val 7)])] })
    (by simp [raceHung]) rfl (Task.Never.bind (Task.Never.attempt (Task.Never.bind (Task.Never.bind (sink_never _ n)))))
  rw [follow]
  exact ⟨(b 1 (by omega)).trans rfl, a⟩

/-! ## The hypotheses are met -/

namespace Demo

theorem intEnv_perm (xs ys : List Int) (h : intEnv.sorted xs = .ok ys) : ys.Perm xs := by
  obtain ⟨zs, h', hz⟩ := intEnv_lawful.sorted xs
  rw [h] at h'; cases h'
  exact hz.perm

theorem negEnv_perm (xs ys : List Int) (h : negEnv.sortedByKey xs = .ok ys) : ys.Perm xs := by
  obtain ⟨zs, h', hz⟩ := negEnv_lawful.sorted xs
  rw [h] at h'; cases h'
  exact hz.perm

/-- Threads that search by key, and by value, and change the list. -/
def raceKeys : List (List (KOp Int Int)) := [[.op (.add 9), .bisectKeyLeft (-3), .op (.pop 0)], [.op .clear, .op (.update [5, 6, 7]), .irangeKey (some (-6)) none true true false, .op (.getInt 2)]]
def raceKeyAdds : List (List (KOp Int Int)) := [[.op (.add 10), .bisectKeyRight (-5)], [.op (.add 7), .irangeKey none (some (-4)) true false true, .op (.unsupported .reverse)]]

example := C88_list intEnv_perm sl raceHangs 5 raceHang
example := C88_key_list negEnv_perm (SKL.update negEnv [5, 1, 3] { (St.empty : St Int Int) with load := 1 }).2 raceKeys 5 raceHang
example := C88_list intEnv_perm sl [[.compare .lt [3, 3, 4], .copy], [.concat [4, 1], .add 2, .mul 3], [.imul 2, .reset 4]] 5 raceHang
example := C88_list_clear intEnv_lawful sl (by decide +kernel) raceHangs (by simp [raceHangs]) 5 raceHang [.add 4, .iter] (by simp [Op.Valid])
example := C88_key_list_clear negEnv_lawful (SKL.update negEnv [5, 1, 3] { (St.empty : St Int Int) with load := 1 }).2 (by decide +kernel) raceKeys (by simp [raceKeys]) 5 raceHang [.op (.add 4)] (by simp [KOp.Valid, Op.Valid])

/-- Both threads have turns again and again. -/
theorem alternate_fair (i : Nat) (hi : i < 2) (n : Nat) : ∃ m, n ≤ m ∧ m % 2 = i := ⟨n * 2 + i, by omega, by omega⟩

example := C88_list_adds (E := intEnv) sl raceAdds (by simp [raceAdds, Op.stays]) 0 (· % 2) 1 (by decide) (alternate_fair 1 (by decide))
example := C88_key_list_adds (K := negEnv) (SKL.update negEnv [5, 1, 3] { (St.empty : St Int Int) with load := 1 }).2 raceKeyAdds (by simp [raceKeyAdds, KOp.stays, Op.keyStays]) 0 (· % 2) 1 (by decide)
  (alternate_fair 1 (by decide))

end Demo

end Verif
