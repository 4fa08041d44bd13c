import Verif.Proofs.World
import Verif.Proofs.API
import Verif.Props.SortedKeyList
import Verif.Props.DemoWild
/-!
# Sharing of list objects (C59)

`runHist (World.step H) evs World.empty`: a client that starts with nothing does `evs`, in this order.  All lists are
objects in one memory; sorted lists hold references to their sublists, and methods get and return references.
-/

namespace Verif
open Heap

section
variable {α κ : Type} {lt : α → α → Bool} {key : α → κ} {klt : κ → κ → Bool} {veq : α → α → Bool}

/-- C59: whatever the client does, all answers, all lists of the client and all sorted lists are as if every list and
every sorted list were a value of its own. -/
theorem C59_no_sharing {E : Env α} (hE : E.Lawful lt) (evs : List (ShareEvent α)) (hv : ∀ ev ∈ evs, ev.Valid) :
    let spec := runHist (Store.step (Spec.Order.ofValues lt)) evs Store.empty
    let real := runHist (World.step (SL.heapAPI E)) evs World.empty
    real.1 = spec.1 ∧ real.2.contents = spec.2 :=
  have h := World.hist (SL.heapSim E) (SL.api_lawful hE) evs hv (World.good_empty _)
  ⟨h.1, h.2.1⟩

/-- C59 (SortedKeyList). -/
theorem C59_no_sharing_key {K : KEnv α κ} (hK : K.Lawful key klt veq) (evs : List (ShareEvent α)) (hv : ∀ ev ∈ evs, ev.Valid) :
    let spec := runHist (Store.step (Spec.Order.ofKey key klt veq K.vcmp)) evs Store.empty
    let real := runHist (World.step (SKL.heapAPI K)) evs World.empty
    real.1 = spec.1 ∧ real.2.contents = spec.2 :=
  have h := World.hist (SKL.heapSim K) (SKL.api_lawful hK) evs hv (World.good_empty _)
  ⟨h.1, h.2.1⟩

/-- C59: the same without any assumption on comparisons.  They may raise or contradict each other: still an event changes
no list of the client except the one that the client itself changes, and no sorted list except the one on which a method
is called, whether or not it raises. -/
theorem C59_only_the_target_changes (E : Env α) (evs : List (ShareEvent α)) (ev : ShareEvent α) :
    let w := (runHist (World.step (SL.heapAPI E)) evs World.empty).2
    let w' := (World.step (SL.heapAPI E) ev w).2
    (∀ (i : Nat) (l : List α), ¬ ev.changesList i → w.contents.lists[i]? = some l → w'.contents.lists[i]? = some l) ∧
    (∀ (j : Nat) (l : List α), ¬ ev.changesSorted j → w.contents.sorted[j]? = some l → w'.contents.sorted[j]? = some l) :=
  have h := (World.step_frame (SL.heapSim E) ev (World.good_hist (SL.heapSim E) evs (World.good_empty _))).2
  ⟨h.lists, h.sorted⟩

/-- C59, any comparisons and keys (SortedKeyList). -/
theorem C59_only_the_target_changes_key (K : KEnv α κ) (evs : List (ShareEvent α)) (ev : ShareEvent α) :
    let w := (runHist (World.step (SKL.heapAPI K)) evs World.empty).2
    let w' := (World.step (SKL.heapAPI K) ev w).2
    (∀ (i : Nat) (l : List α), ¬ ev.changesList i → w.contents.lists[i]? = some l → w'.contents.lists[i]? = some l) ∧
    (∀ (j : Nat) (l : List α), ¬ ev.changesSorted j → w.contents.sorted[j]? = some l → w'.contents.sorted[j]? = some l) :=
  have h := (World.step_frame (SKL.heapSim K) ev (World.good_hist (SKL.heapSim K) evs (World.good_empty _))).2
  ⟨h.lists, h.sorted⟩

end

/-! ## Examples -/

namespace Demo

/-- A client that fills a sorted list from its own list, keeps slices and copies, and then changes everything. -/
def shareEvents : List (ShareEvent Int) :=
  [.newList [3, 1, 2], .construct (.list 0), .mutate 0 (fun l => l ++ [9]), .slice 0 {}, .mutate 1 (fun _ => []),
   .copy 0, .call 1 (.add 0), .concat 0 (.list 0), .mul 0 2, .update 0 (.sorted 0), .iadd 1 (.sorted 0), .reduceArgs 0,
   .mutate 2 (fun l => l.reverse), .call 0 (.pop (-1)), .call 0 .clear, .slice 1 {}, .read 0, .read 7]

example : ∀ ev ∈ shareEvents, ev.Valid := by
  intro ev h
  simp only [shareEvents, List.mem_cons, List.not_mem_nil, or_false] at h
  rcases h with rfl | rfl | rfl | rfl | rfl | rfl | rfl | rfl | rfl | rfl | rfl | rfl | rfl | rfl | rfl | rfl | rfl | rfl <;> trivial

example : (runHist (World.step (SL.heapAPI intEnv)) shareEvents World.empty).2.contents =
    { lists := [[3, 1, 2, 9], [], [3, 3, 2, 2, 1, 1], [0, 1, 1, 1, 2, 2, 2, 3, 3, 3]]
      sorted := [[], [0, 1, 1, 1, 2, 2, 2, 3, 3, 3], [1, 1, 2, 2, 3, 3, 9], [1, 1, 2, 2, 3, 3]] } := by
  decide +kernel

example : (runHist (World.step (SKL.heapAPI tensEnv))
      [.newList [52, 10, 31], .construct (.list 0), .mutate 0 (fun _ => [35]), .update 0 (.list 0), .copy 0, .call 0 (.reset 1),
       .call 0 (.delInt 0), .slice 0 {}, .mutate 1 (fun l => l ++ [7])] World.empty).2.contents =
    { lists := [[35], [31, 35, 52, 7]], sorted := [[31, 35, 52], [10, 31, 35, 52]] } := by
  decide +kernel

/-- -7 cannot be compared with the others: the update fails, the others stay. -/
def failingEvents : List (ShareEvent Int) :=
  [.newList [3, 1, -7], .construct (.values [5, 1, 3]), .copy 0, .update 1 (.list 0)]

example : (runHist (World.step (SL.heapAPI mixedEnv)) failingEvents World.empty).1 =
    [.ok (.newList 0), .ok (.newSorted 0), .ok (.newSorted 1), .error .typeError] := by
  decide +kernel

example : (runHist (World.step (SL.heapAPI mixedEnv)) failingEvents World.empty).2.contents.sorted[0]? = some [1, 3, 5] := by
  decide +kernel

end Demo
end Verif
