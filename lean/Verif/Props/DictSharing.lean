import Verif.Proofs.DictWorld
import Verif.Props.SortedDict
import Verif.Props.DemoWild
/-!
# Sharing between dicts, and views (C65); `iloc` (C92)

`runHist (World.step eqv L) evs World.empty`: a client that starts with nothing does `evs`, in this order.  All dicts and all
sorted lists are objects in one memory; a sorted dict refers to its list, views refer to their sorted dict, and arguments are
references too: `sd.update(sd)`, `sd | sd`, `SortedDict(sd)`, `sd.update(sd.items())` are possible.
-/

namespace Verif
open DictHeap

section
variable {κ ν : Type} {c : ListClass κ} {lt eqv : κ → κ → Bool}

theorem DictStore.step_congr (O : Spec.Order κ) (hl : O.lt = lt) (hs : O.same = eqv) (ev : DictEvent κ ν) :
    DictStore.step eqv O ev = DictStore.step eqv (setOrder lt eqv) ev := by
  have hc : ∀ j op, DictStore.call (ν := ν) eqv O j op = DictStore.call eqv (setOrder lt eqv) j op := by
    intro j op
    funext st
    simp only [DictStore.call, DictSpec.step_congr O hl hs op]
  have hi : ∀ d : List (κ × ν), DictSpec.sortedItems eqv O d = DictSpec.sortedItems eqv (setOrder lt eqv) d := by
    intro d; subst hl hs; rfl
  have hm : ∀ (st : DictStore κ ν) r, st.mapping eqv O r = st.mapping eqv (setOrder lt eqv) r := by
    intro st r
    have : DictSpec.sortedItems (ν := ν) eqv O = DictSpec.sortedItems eqv (setOrder lt eqv) := funext hi
    cases r <;> simp only [DictStore.mapping, this]
  have ha : ∀ (st : DictStore κ ν) r, st.arg eqv O r = st.arg eqv (setOrder lt eqv) r := by
    intro st r
    cases r <;> simp only [DictStore.arg, hi]
  funext st
  cases ev <;> simp only [DictStore.step, hc, hi, hm, ha]

/-- C65: whatever the client does, all answers, all its dicts and all sorted dicts are as if every dict and every sorted dict
were a value of its own, and every view showed the present items of its sorted dict.  For a sorted dict this is what
iteration yields and what the dict contains. -/
theorem C65_no_sharing (hc : c.Orders lt eqv) (he : IsEquiv eqv) (evs : List (DictEvent κ ν)) (hv : ∀ ev ∈ evs, ev.Valid) :
    let O := setOrder lt eqv
    let spec := runHist (DictStore.step eqv O) evs DictStore.empty
    let real := runHist (World.step eqv c.api) evs World.empty
    real.1 = spec.1 ∧ real.2.seenDicts = spec.2.dicts ∧
    real.2.seenSorted c.api = spec.2.sorted.map fun d => { keys := DictSpec.sortedKeys O d, items := d } := by
  obtain ⟨O, I, h, rfl⟩ := SD.good hc he
  have hsame : O.same = eqv := by funext a b; exact h.same a b
  have hstep : DictStore.step (ν := ν) eqv (setOrder O.lt eqv) = DictStore.step eqv O := by
    funext ev; exact (DictStore.step_congr O rfl hsame ev).symm
  have hw := World.Has.empty.hist h evs hv
  obtain ⟨s1, s2⟩ := hw.2.seen
  simp only
  rw [hstep]
  exact ⟨hw.1, s1, s2⟩

/-- C65 without any assumption on comparisons or on `==` of keys: comparisons may raise or contradict each other.  Still an event
changes no dict of the client except the one that the client itself changes, and no sorted dict except the one on which (or
on a view of which) a method is called, whether or not it raises. -/
theorem C65_only_the_target_changes (evs : List (DictEvent κ ν)) (ev : DictEvent κ ν) :
    let w := (runHist (World.step eqv c.api) evs World.empty).2
    let w' := (World.step eqv c.api ev w).2
    let owners := w.views.map fun p => (p.1, w.objs.idxOf p.2)
    (∀ (i : Nat) (d : List (κ × ν)), ¬ ev.changesDict i → w.seenDicts[i]? = some d → w'.seenDicts[i]? = some d) ∧
    (∀ (j : Nat) (x : Seen κ ν), ¬ ev.changesSorted owners j → (w.seenSorted c.api)[j]? = some x →
      (w'.seenSorted c.api)[j]? = some x) := by
  have h := (World.Wf.empty.hist eqv c.api evs).step_frame eqv c.api ev
  exact ⟨h.dicts, h.sorted⟩

/-- C65 without any assumption: the client takes a view of its `j`-th sorted dict and then does anything.  A call on that view is
then in every respect the call on a view that is made just for it. -/
theorem C65_views_are_live (evs evs' : List (DictEvent κ ν)) (j n : Nat) (kind : ViewKind) (op : ViewCall) :
    let w := (runHist (World.step eqv c.api) evs World.empty).2
    let r := World.step eqv c.api (.view j kind) w
    let w' := (runHist (World.step eqv c.api) evs' r.2).2
    r.1 = .ok (.newView n) → World.step eqv c.api (.viewCall n op) w' = World.step eqv c.api (.call j (op.on kind)) w' := by
  simp only
  generalize (runHist (World.step eqv c.api) evs World.empty).2 = w
  intro e
  cases hj : w.objs[j]? with
  | none => simp only [World.step, hj, Except.ok.injEq] at e; cases e
  | some a =>
    simp only [World.step, hj, Except.ok.injEq, DictOut.newView.injEq] at e ⊢
    have h1 := World.Keeps.hist (eqv := eqv) (L := c.api) evs' (w := { w with views := w.views ++ [(kind, a)] })
    have h2 := h1.objs j a hj
    have h3 := h1.views n (kind, a) (by rw [← e]; simp)
    simp only [h2, h3]
    congr 1
    cases op <;> cases kind <;> rfl

/-- The view that `sd.iloc` returned is the client's `n`-th. -/
def IlocGives (r : Except PyErr (DictOut κ ν)) (n : Nat) : Prop := r = .ok (.deprecated n) ∨ r = .ok (.oldView n)

/-- C92 without any assumption on comparisons: the client reads `sd.iloc` for its `j`-th sorted dict and then does anything.  Then
`sd.iloc` is the same view again, without a warning and without changing anything; a call on this view is in every respect the
call on `sd.keys()`; and no other sorted dict has this view. -/
theorem C92_one_live_view (evs evs' : List (DictEvent κ ν)) (j n : Nat) (op : ViewCall) :
    let w := (runHist (World.step eqv c.api) evs World.empty).2
    let r := World.step eqv c.api (.iloc j) w
    let w' := (runHist (World.step eqv c.api) evs' r.2).2
    IlocGives r.1 n →
    World.step eqv c.api (.iloc j) w' = (.ok (.oldView n), w') ∧
    World.step eqv c.api (.viewCall n op) w' = World.step eqv c.api (.call j (op.on .keys)) w' ∧
    ∀ j', IlocGives (World.step eqv c.api (.iloc j') w').1 n → j' = j := by
  simp only
  have hwf := World.Wf.empty.hist eqv c.api evs
  generalize (runHist (World.step eqv c.api) evs World.empty).2 = w at hwf
  intro e
  have hwf1 := hwf.step eqv c.api (.iloc j)
  have hset : ∃ a, (World.step eqv c.api (.iloc j) w).2.objs[j]? = some a ∧
      (World.step eqv c.api (.iloc j) w).2.ilocs.lookup a = some n := by
    cases hj : w.objs[j]? with
    | none => simp only [World.step, hj] at e; rcases e with e | e <;> cases e
    | some a =>
      refine ⟨a, ?_⟩
      simp only [World.step, hj, World.iloc] at e ⊢
      cases hl : w.ilocs.lookup a with
      | none =>
        simp only [hl] at e ⊢
        rcases e with e | e <;> cases e
        exact ⟨hj, by simp⟩
      | some k =>
        simp only [hl] at e ⊢
        rcases e with e | e <;> cases e
        exact ⟨hj, rfl⟩
  clear e
  generalize (World.step eqv c.api (.iloc j) w).2 = w1 at hwf1 hset
  obtain ⟨a, ha, hl⟩ := hset
  have hk := World.Keeps.hist (eqv := eqv) (L := c.api) evs' (w := w1)
  have hwf2 := hwf1.hist eqv c.api evs'
  generalize (runHist (World.step eqv c.api) evs' w1).2 = w2 at hk hwf2
  have ha2 := hk.objs j a ha
  have hl2 := hk.ilocs a n hl
  have hv2 := hwf2.ilocs a n hl2
  refine ⟨?_, ?_, ?_⟩
  · simp only [World.step, ha2, World.iloc, hl2]
  · simp only [World.step, ha2, hv2]
    congr 1
    cases op <;> rfl
  · intro j' e
    cases hj : w2.objs[j']? with
    | none => simp only [World.step, hj] at e; rcases e with e | e <;> cases e
    | some b =>
      simp only [World.step, hj, World.iloc] at e
      cases hb : w2.ilocs.lookup b with
      | none =>
        simp only [hb] at e
        rcases e with e | e <;> cases e
        rw [List.getElem?_eq_none (Nat.le_refl _)] at hv2; cases hv2
      | some k =>
        simp only [hb] at e
        rcases e with e | e <;> cases e
        have := (hwf2.ilocs b n hb).symm.trans hv2
        simp only [Option.some.injEq, Prod.mk.injEq, true_and] at this
        subst this
        exact hwf2.objObj _ _ _ hj ha2

/-- C92 without any assumption on comparisons: whatever the client has done with it and with the others, `sd.iloc` warns and gives
a new view if it has not been read before for this very sorted dict; so a copy, an unpickled dict or the result of `|` has no
`iloc` from the dicts it comes from.  No dict and no sorted dict changes. -/
theorem C92_warns_at_first (evs : List (DictEvent κ ν)) (j : Nat) (hev : ∀ ev ∈ evs, ev ≠ .iloc j) :
    let w := (runHist (World.step eqv c.api) evs World.empty).2
    let r := World.step eqv c.api (.iloc j) w
    j < (w.seenSorted c.api).length →
    r.1 = .ok (.deprecated w.views.length) ∧ r.2.seenDicts = w.seenDicts ∧ r.2.seenSorted c.api = w.seenSorted c.api := by
  simp only
  have hf := World.fresh eqv c.api evs hev World.Wf.empty (by intro a h; simp [World.empty] at h)
  generalize (runHist (World.step eqv c.api) evs World.empty).2 = w at hf
  intro hj
  have hj' : j < w.objs.length := by simpa [World.seenSorted] using hj
  obtain ⟨a, ha⟩ : ∃ a, w.objs[j]? = some a := ⟨_, List.getElem?_eq_getElem hj'⟩
  simp only [World.step, ha, World.iloc, hf a ha]
  exact ⟨trivial, rfl, rfl⟩

end

/-! ## Examples -/

namespace Demo

/-- A client that makes sorted dicts from its own dicts, combines them with each other and with themselves, keeps views, and
changes everything. -/
def dictEvents : List (DictEvent Int Int) :=
  [.newDict [(3, 30), (1, 10), (2, 20)], .construct (.dict 0), .view 0 .keys, .view 0 .items, .view 0 .values,
   .mutate 0 [(9, 90), (1, 11)], .copy 0, .call 1 (.setitem 7 70), .update 0 (.sorted 0), .update 0 (.itemsOf 0),
   .viewCall 1 .iter, .update 0 (.dict 0), .viewCall 1 .iter, .viewCall 2 (.slice { start := some 1, stop := none, step := none }),
   .viewCall 0 (.delInt 0), .viewCall 0 .iter, .or 0 (.sorted 0), .ror 0 (.dict 0), .or 0 (.sorted 1), .pickle 1, .reduceArgs 1,
   .mutate 1 [], .call 1 .len, .update 0 (.pairs [(5, 50)] none), .construct (.sorted 0), .construct (.itemsOf 0), .call 0 .clear,
   .viewCall 1 .len, .update 0 (.sorted 0), .update 0 (.itemsOf 0), .call 6 .iter, .call 2 (.popitem (-1))]

theorem dictEvents_valid : ∀ ev ∈ dictEvents, ev.Valid := by
  intro ev h
  simp only [dictEvents, List.mem_cons, List.not_mem_nil, or_false] at h
  rcases h with rfl | rfl | rfl | rfl | rfl | rfl | rfl | rfl | rfl | rfl | rfl | rfl | rfl | rfl | rfl | rfl | rfl | rfl | rfl | rfl | rfl |
    rfl | rfl | rfl | rfl | rfl | rfl | rfl | rfl | rfl | rfl | rfl <;> trivial

example := C65_no_sharing (ν := Int) intClass_orders ieqv_equiv dictEvents dictEvents_valid
example := C65_no_sharing (ν := Int) tensClass_orders ieqv_equiv dictEvents dictEvents_valid

example : (runHist (World.step (equiv ilt) intClass.api) dictEvents World.empty).2.seenDicts = [[(9, 90), (1, 11)], []] ∧
    (runHist (World.step (equiv ilt) intClass.api) dictEvents World.empty).2.seenSorted intClass.api =
      [⟨[], []⟩, ⟨[1, 2, 3, 7], [(1, 10), (2, 20), (3, 30), (7, 70)]⟩, ⟨[2, 3], [(2, 20), (3, 30)]⟩,
       ⟨[1, 2, 3, 9], [(9, 90), (1, 11), (2, 20), (3, 30)]⟩, ⟨[1, 2, 3, 7, 9], [(2, 20), (3, 30), (9, 90), (1, 10), (7, 70)]⟩,
       ⟨[1, 2, 3, 7], [(1, 10), (2, 20), (3, 30), (7, 70)]⟩, ⟨[2, 3, 5, 9], [(2, 20), (3, 30), (5, 50), (9, 90)]⟩,
       ⟨[2, 3, 5, 9], [(2, 20), (3, 30), (5, 50), (9, 90)]⟩] := by
  decide +kernel

/-- The items view taken in the fourth event, before and after `update`. -/
example : (runHist (World.step (equiv ilt) intClass.api) dictEvents World.empty).1[10]? =
      some (.ok (.value (.items [(1, 10), (2, 20), (3, 30)]))) ∧
    (runHist (World.step (equiv ilt) intClass.api) dictEvents World.empty).1[12]? =
      some (.ok (.value (.items [(1, 11), (2, 20), (3, 30), (9, 90)]))) := by
  decide +kernel

/-- -7 cannot be compared with the others: the update fails, the others stay. -/
def failingDictEvents : List (DictEvent Int Int) :=
  [.newDict [(3, 0), (-7, 1)], .construct (.pairs [(5, 50), (1, 10), (3, 30)] none), .copy 0, .view 1 .items]

example := C65_only_the_target_changes (c := .plain mixedEnv) (eqv := equiv ilt) failingDictEvents (.update 1 (.dict 0))
example := C65_only_the_target_changes (c := .plain mixedEnv) (eqv := equiv ilt) (failingDictEvents ++ [.update 1 (.dict 0)])
  (.viewCall 0 (.delInt 0))

example : (runHist (World.step (equiv ilt) (ListClass.plain mixedEnv).api) (failingDictEvents ++ [.update 1 (.dict 0)]) World.empty).1[4]? =
      some (.error .typeError) ∧
    ((runHist (World.step (equiv ilt) (ListClass.plain mixedEnv).api) (failingDictEvents ++ [.update 1 (.dict 0)]) World.empty).2.seenSorted
      (ListClass.plain mixedEnv).api)[0]? = some ⟨[1, 3, 5], [(5, 50), (1, 10), (3, 30)]⟩ := by
  decide +kernel

example := C65_views_are_live (c := .plain mixedEnv) (eqv := equiv ilt) (ν := Int)
  [.construct (.pairs [(5, 50), (1, 10), (3, 30)] none)] [.call 0 (.setitem 2 20), .call 0 (.setitem (-7) 1)] 0 0 .values .iter (by decide +kernel)

/-- `iloc` of a sorted dict, of its copy, of what unpickling gives, and again of the first. -/
def ilocEvents : List (DictEvent Int Int) :=
  [.construct (.pairs [(5, 50), (1, 10), (3, 30)] none), .view 0 .items, .iloc 0, .copy 0, .call 0 (.setitem 2 20), .pickle 0, .iloc 1,
   .viewCall 1 (.at 1), .viewCall 2 (.at 1), .viewCall 1 (.delInt (-1)), .iloc 0, .iloc 2, .viewCall 3 .iter, .call 0 .clear, .iloc 0,
   .viewCall 1 .len, .iloc 7]

example := C65_no_sharing (ν := Int) tensClass_orders ieqv_equiv ilocEvents (by
  intro ev h
  simp only [ilocEvents, List.mem_cons, List.not_mem_nil, or_false] at h
  rcases h with rfl | rfl | rfl | rfl | rfl | rfl | rfl | rfl | rfl | rfl | rfl | rfl | rfl | rfl | rfl | rfl | rfl <;> trivial)

example : (runHist (World.step (equiv ilt) intClass.api) ilocEvents World.empty).1 =
    [.ok (.newSorted 0), .ok (.newView 0), .ok (.deprecated 1), .ok (.newSorted 1), .ok (.value .none), .ok (.newSorted 2),
     .ok (.deprecated 2), .ok (.value (.key 2)), .ok (.value (.key 3)), .ok (.value .none), .ok (.oldView 1), .ok (.deprecated 3),
     .ok (.value (.keys [1, 2, 3, 5])), .ok (.value .none), .ok (.oldView 1), .ok (.value (.int 0)), .ok .noSuch] := by
  decide +kernel

/-- One of the comparisons raises. -/
example := C92_one_live_view (c := .plain mixedEnv) (eqv := equiv ilt) (ν := Int)
  [.construct (.pairs [(5, 50), (1, 10), (3, 30)] none)] [.call 0 (.setitem 2 20), .copy 0, .iloc 1, .call 0 (.setitem (-7) 1)] 0 0 .iter
  (.inl (by decide +kernel))
example := C92_one_live_view (c := intClass) (eqv := equiv ilt) (ν := Int) (ilocEvents.take 6) (ilocEvents.drop 6) 0 1 (.at 0)
  (.inr (by decide +kernel))

example := C92_warns_at_first (c := intClass) (eqv := equiv ilt) (ν := Int) (ilocEvents.take 11) 2
  (by intro ev h; simp only [ilocEvents, List.take, List.mem_cons, List.not_mem_nil, or_false] at h
      rcases h with rfl | rfl | rfl | rfl | rfl | rfl | rfl | rfl | rfl | rfl | rfl <;> simp) (by decide +kernel)
example := C92_warns_at_first (c := .plain mixedEnv) (eqv := equiv ilt) (ν := Int) (failingDictEvents ++ [.iloc 0]) 1
  (by intro ev h; simp only [failingDictEvents, List.cons_append, List.nil_append, List.mem_cons, List.not_mem_nil, or_false] at h
      rcases h with rfl | rfl | rfl | rfl | rfl <;> simp) (by decide +kernel)

end Demo
end Verif
