import Verif.Proofs.SetSharing
import Verif.Props.SortedSet
import Verif.Props.DemoWild
/-!
# Sharing between sets (C60)

`runHist (World.step S L) evs World.empty`: a client that starts with nothing does `evs`, in this order.  All built-in sets
and all sorted lists are objects in one memory; sorted sets hold references to them.

Clients that call the pickle hook `__reduce__` by hand and keep the set they get are excluded (`isReduce`), since that is
the set inside the sorted set: `C60_reduce_shares` shows what can happen then.  Pickling and deep copies, which copy that set,
are included.
-/

namespace Verif
open SetHeap

section
variable {τ α : Type} {S : SetOps τ α} {c : ListClass α} {lt eqv : α → α → Bool}

theorem SetStore.step_congr [DecidableEq α] (O : Spec.Order α) (hl : O.lt = lt) (hs : O.same = eqv) (ev : SetEvent α) :
    SetStore.step O ev = SetStore.step (setOrder lt eqv) ev := by
  cases ev with
  | call j op =>
    funext st
    simp only [SetStore.step, SetSpec.step_congr O hl hs op]
  | _ => subst hl hs; rfl

/-- C60 without calls of `__reduce__`: whatever else the client does, all answers and all sorted sets are as if every set
and every sorted set were a value of its own, and the client's sets have the values the client gave them.  This
covers `isdisjoint`, `issubset`, `issuperset`, `bisect`, `index`, ..., which a sorted set takes from its parts when it is
created.  (For values that are equal only if identical, and an order that tells different values apart.) -/
theorem C60_no_sharing [DecidableEq α] (hc : c.Orders lt eqv) (hS : S.Lawful eqv)
    (heq : ∀ a b, eqv a b = decide (a = b)) (htotal : ∀ a b, lt a b = false → lt b a = false → a = b)
    (evs : List (SetEvent α)) (hv : ∀ ev ∈ evs, ev.Valid) (hr : ∀ ev ∈ evs, ¬ ev.isReduce) :
    let spec := runHist (SetStore.step (setOrder lt eqv)) evs SetStore.empty
    let real := runHist (World.step S c.api) evs World.empty
    real.1 = spec.1 ∧ (real.2.contents S c.api).sorted = spec.2.sorted ∧
    (real.2.contents S c.api).sets.map (SetSpec.insertAll (setOrder lt eqv) []) = spec.2.sets := by
  obtain ⟨O, I, h, rfl⟩ := SS.good hc hS
  have ht : SS.Total O eqv := ⟨heq, fun a b hab => by
    simp only [equiv, Bool.and_eq_true, Bool.not_eq_true'] at hab
    exact htotal a b hab.1 hab.2⟩
  have hsame : O.same = eqv := by funext a b; exact h.same a b
  have hstep : SetStore.step (setOrder O.lt eqv) = SetStore.step O := by
    funext ev; exact (SetStore.step_congr O rfl hsame ev).symm
  have hw := World.Has.empty.hist S c.api evs hr
  have h0 : Vals.Is S c.api O I { sets := [], objs := [] } (SetStore.empty : SetStore α) :=
    ⟨rfl, rfl, fun s hs => by cases hs⟩
  have hs := Vals.hist h ht h0 evs hv hr
  simp only
  rw [hstep]
  refine ⟨hw.1.trans hs.1, ?_, ?_⟩
  · rw [hw.2.contents, hs.2.sorted]; rfl
  · rw [hw.2.contents, hs.2.sets]
    simp only [Vals.contents, List.map_map]
    rfl

/-- C60 without calls of `__reduce__`, and without any assumption on comparisons or on the built-in sets: comparisons may
raise or contradict each other, equal values need not be identical.  Still an event changes no set of the client except the
one that the client itself changes, and no sorted set except the one on which a method is called, whether or not it raises. -/
theorem C60_only_the_target_changes (evs : List (SetEvent α)) (ev : SetEvent α) (hr : ∀ e ∈ evs, ¬ e.isReduce)
    (hev : ¬ ev.isReduce) :
    let w := (runHist (World.step S c.api) evs World.empty).2
    let w' := (World.step S c.api ev w).2
    (∀ (i : Nat) (l : List α), ¬ ev.changesSet i → (w.contents S c.api).sets[i]? = some l → (w'.contents S c.api).sets[i]? = some l) ∧
    (∀ (j : Nat) (l : List α), ¬ ev.changesSorted j → (w.contents S c.api).sorted[j]? = some l →
      (w'.contents S c.api).sorted[j]? = some l) := by
  have hw := (World.Has.empty.hist S c.api evs hr).2
  have hw' := (hw.sim S c.api ev hev).2
  have hf := Vals.step_frame S c.api (runHist (Vals.step S c.api) evs { sets := [], objs := [] }).2 ev
  simp only
  rw [hw.contents, hw'.contents]
  simp only [Vals.contents, List.getElem?_map, Option.map_eq_some_iff]
  refine ⟨?_, ?_⟩
  · rintro i l hi ⟨t, e, rfl⟩
    exact ⟨t, hf.1 i t hi e, rfl⟩
  · rintro j l hj ⟨s, e, rfl⟩
    exact ⟨s, hf.2 j s hj e, rfl⟩

end

open Demo in
/-- Why `__reduce__` is excluded from C60: if the client keeps the set that `__reduce__` returns and changes it, `5 in ss` becomes true here, and `5` is
not among the values that iteration yields. -/
theorem C60_reduce_shares :
    let evs : List (SetEvent Int) := [.construct (.values [2, 1]), .reduceArgs 0, .mutate 0 [5], .call 0 (.contains 5), .call 0 .iter]
    let spec := runHist (SetStore.step (setOrder ilt (equiv ilt))) evs SetStore.empty
    let real := runHist (World.step (iset true) intClass.api) evs World.empty
    spec.1[3]? = some (.ok (.value (.bool false))) ∧ real.1[3]? = some (.ok (.value (.bool true))) ∧
    real.1[4]? = some (.ok (.value (.vals [1, 2]))) := by
  decide +kernel

/-! ## Examples -/

namespace Demo

/-- A client that makes sorted sets from its own sets, combines them, and changes everything. -/
def setEvents : List (SetEvent Int) :=
  [.newSet [3, 1, 2], .construct (.set 0), .mutate 0 [9, 1], .copy 0, .call 1 (.add 7), .call 0 (.isdisjoint [7]),
   .call 1 (.isdisjoint [7]), .update 0 [.set 0, .sorted 1], .compare 0 .gt (.sorted 1), .compare 1 .eq (.set 0),
   .difference 0 [.sorted 0], .symmetricDifference 0 (.set 0), .intersection 0 [.set 0, .sorted 1], .union 1 [.values [4]],
   .pickle 1, .call 0 .clear, .call 0 (.issubset [1]), .call 2 (.add 5), .differenceUpdate 3 [.sorted 3], .intersectionUpdate 5 [.set 0],
   .symmetricDifferenceUpdate 6 (.sorted 6), .mutate 0 [], .call 1 (.bisectRight 2)]

theorem setEvents_valid : (∀ ev ∈ setEvents, ev.Valid) ∧ (∀ ev ∈ setEvents, ¬ ev.isReduce) := by
  constructor <;>
  · intro ev h
    simp only [setEvents, List.mem_cons, List.not_mem_nil, or_false] at h
    rcases h with rfl | rfl | rfl | rfl | rfl | rfl | rfl | rfl | rfl | rfl | rfl | rfl | rfl | rfl | rfl | rfl | rfl | rfl | rfl | rfl | rfl | rfl | rfl <;>
      simp [SetEvent.Valid, SSOp.Valid, SetEvent.isReduce]

example := C60_no_sharing intClass_orders (iset_lawful true) (fun a b => by rw [Bool.eq_iff_iff]; simp [equiv, ilt]; omega)
  (fun a b h1 h2 => by simp [ilt] at h1 h2; omega) setEvents setEvents_valid.1 setEvents_valid.2

example : ((runHist (World.step (iset true) intClass.api) setEvents World.empty).2.contents (iset true) intClass.api) =
    { sets := [[]], sorted := [[], [1, 2, 3, 7], [5], [], [1], [1], []] } := by
  decide +kernel

example : (runHist (World.step (iset true) intClass.api) setEvents World.empty).1[5]? = some (.ok (.value (.bool true))) ∧
    (runHist (World.step (iset true) intClass.api) setEvents World.empty).1[6]? = some (.ok (.value (.bool false))) := by
  decide +kernel

/-- -7 cannot be compared with the others: the update fails, the others stay. -/
def failingSetEvents : List (SetEvent Int) := [.newSet [3, -7], .construct (.values [5, 1, 3]), .copy 0]

example := C60_only_the_target_changes (S := iset true) (c := .plain mixedEnv) failingSetEvents (.update 1 [.set 0])
  (by
    intro ev h
    simp only [failingSetEvents, List.mem_cons, List.not_mem_nil, or_false] at h
    rcases h with rfl | rfl | rfl <;> simp [SetEvent.isReduce])
  (by simp [SetEvent.isReduce])

example : (runHist (World.step (iset true) (ListClass.plain mixedEnv).api) (failingSetEvents ++ [.update 1 [.set 0]]) World.empty).1[3]? =
    some (.error .typeError) := by
  decide +kernel

end Demo
end Verif
