import Verif.Proofs.SetWorld
/-!
# Several sorted sets by value follow the specification
-/

namespace Verif
namespace SetHeap
open SS
variable {τ σ α β γ : Type} [DecidableEq α] {S : SetOps τ α} {L : ListAPI σ α} {O : Spec.Order α} {eqv : α → α → Bool} {I : σ → Prop}

/-- The members of a list. -/
def mems (l : List α) : α → Prop := (· ∈ l)

theorem mem_flatten_of {xss yss : List (List α)} (h : xss.map mems = yss.map mems) (x : α) :
    x ∈ xss.flatten ↔ x ∈ yss.flatten := by
  have e : ∀ zss : List (List α), x ∈ zss.flatten ↔ ∃ p ∈ zss.map mems, p x := by
    intro zss
    simp only [List.mem_flatten, List.mem_map, mems]
    constructor
    · rintro ⟨l, hl, hx⟩; exact ⟨_, ⟨l, hl, rfl⟩, hx⟩
    · rintro ⟨_, ⟨l, hl, rfl⟩, hx⟩; exact ⟨l, hl, hx⟩
  rw [e, e, h]

theorem all_mem_of {xss yss : List (List α)} (h : xss.map mems = yss.map mems) (x : α) :
    (xss.all fun xs => x ∈ xs) = yss.all fun ys => x ∈ ys := by
  have e : ∀ zss : List (List α), (zss.all fun xs => decide (x ∈ xs)) = true ↔ ∀ p ∈ zss.map mems, p x := by
    intro zss
    simp only [List.all_eq_true, decide_eq_true_iff, List.mem_map, mems]
    constructor
    · rintro hz _ ⟨l, hl, rfl⟩; exact hz l hl
    · intro hz l hl; exact hz _ ⟨l, hl, rfl⟩
  rw [Bool.eq_iff_iff, e, e, h]

section congr
variable (hO : StrictWeakOrder O.lt) (ht : Total O eqv) {l : List α} (hl : Sorted O.lt l) (hn : l.Nodup)
include hO ht hl hn

theorem insertAll_congr {xs ys : List α} (h : ∀ x, x ∈ xs ↔ x ∈ ys) : SetSpec.insertAll O l xs = SetSpec.insertAll O l ys := by
  obtain ⟨f1, f2, f3⟩ := insertAll_facts hO hl hn xs
  obtain ⟨g1, g2, g3⟩ := insertAll_facts hO hl hn ys
  exact ht.unique f1 g1 f2 g2 fun x => by rw [f3, g3, h]

theorem union_congr {xss yss : List (List α)} (h : xss.map mems = yss.map mems) : SetSpec.union O xss l = SetSpec.union O yss l :=
  insertAll_congr hO ht hl hn (mem_flatten_of h)

theorem symmetricDifference_congr {xs ys : List α} (h : ∀ x, x ∈ xs ↔ x ∈ ys) :
    SetSpec.symmetricDifference O xs l = SetSpec.symmetricDifference O ys l := by
  unfold SetSpec.symmetricDifference
  have e : (l.filter fun x => decide (x ∉ xs)) = l.filter fun x => decide (x ∉ ys) := by
    refine List.filter_congr fun x _ => ?_
    simp only [h]
  rw [e]
  exact insertAll_congr hO ht (hl.sublist List.filter_sublist) (hn.sublist List.filter_sublist) fun x => by
    simp only [List.mem_filter, h]

end congr

theorem difference_congr {l : List α} {xss yss : List (List α)} (h : xss.map mems = yss.map mems) :
    SetSpec.difference xss l = SetSpec.difference yss l := by
  unfold SetSpec.difference
  refine List.filter_congr fun x _ => ?_
  simp only [mem_flatten_of h]

theorem intersection_congr {l : List α} {xss yss : List (List α)} (h : xss.map mems = yss.map mems) :
    SetSpec.intersection xss l = SetSpec.intersection yss l := by
  unfold SetSpec.intersection
  refine List.filter_congr fun x _ => ?_
  exact all_mem_of h x

theorem compare_congr {l r r' : List α} (h : ∀ x, x ∈ r ↔ x ∈ r') (op : CmpOp) : SetSpec.compare op r l = SetSpec.compare op r' l := by
  have e1 : SetSpec.subset l r = SetSpec.subset l r' := by
    simp only [SetSpec.subset, h]
  have e2 : SetSpec.subset r l = SetSpec.subset r' l := by
    rw [Bool.eq_iff_iff]
    simp only [SetSpec.subset, List.all_eq_true, h]
  cases op <;> simp only [SetSpec.compare, e1, e2]

/-! ### The relation to the specification -/

/-- `sorted(t)` -/
def canon (S : SetOps τ α) (O : Spec.Order α) (t : τ) : List α := SetSpec.insertAll O [] (S.toList t)

variable (h : Good S L O eqv I) (ht : Total O eqv)
include h

theorem mem_canon (t : τ) (x : α) : x ∈ canon S O t ↔ x ∈ S.toList t := by
  have := (insertAll_facts h.list.order Spec.sorted_nil List.nodup_nil (S.toList t)).2.2 x
  simpa [canon] using this

include ht

theorem mem_ofList (xs : List α) (x : α) : x ∈ S.toList (S.ofList xs) ↔ x ∈ xs := by
  rw [(h.set.ofList xs).mem_iff]
  constructor
  · intro hx; simpa using of_mem_foldl_addNew hx
  · intro hx
    have := any_foldl_addNew h.equiv [] xs x
    rw [ht.any, ht.any, ht.any] at this
    simpa [hx] using this

theorem canon_ofList (xs : List α) : canon S O (S.ofList xs) = SetSpec.insertAll O [] xs :=
  insertAll_congr h.list.order ht Spec.sorted_nil List.nodup_nil (mem_ofList h ht xs)

theorem compare_any (op : CmpOp) (t : τ) {s : SS τ σ} (hs : SS.Inv S L I s) :
    SS.compare S op t s = SetSpec.compare op (S.toList t) (SS.iter L s) := by
  have sub : ∀ l r : List α, SS.Subset eqv l r ↔ SetSpec.subset l r = true := by
    intro l r
    simp only [SS.Subset, SetSpec.subset, ht.any, List.all_eq_true]
  rw [Bool.eq_iff_iff]
  refine (setCompare_ok h.set op s.set t).trans ?_
  have e1 : SS.Subset eqv (S.toList s.set) (S.toList t) ↔ SetSpec.subset (SS.iter L s) (S.toList t) = true := by
    rw [SS.Subset.perm hs.perm (.refl _)]; exact sub _ _
  have e2 : SS.Subset eqv (S.toList t) (S.toList s.set) ↔ SetSpec.subset (S.toList t) (SS.iter L s) = true := by
    rw [SS.Subset.perm (.refl _) hs.perm]; exact sub _ _
  cases op <;> simp only [e1, e2, SetSpec.compare] <;>
    cases SetSpec.subset (SS.iter L s) (S.toList t) <;> cases SetSpec.subset (S.toList t) (SS.iter L s) <;> simp

theorem new_unique (xs : List α) :
    ∃ s', SS.new S L (some xs) = .ok s' ∧ SS.Inv S L I s' ∧ SS.iter L s' = SetSpec.insertAll O [] xs := by
  obtain ⟨s', e, hi, hp⟩ := new_ok h (some xs)
  obtain ⟨f1, f2, f3⟩ := insertAll_facts h.list.order Spec.sorted_nil List.nodup_nil xs
  refine ⟨s', e, hi, SS.Inv.unique h ht hi f1 f2 fun x => ?_⟩
  rw [any_perm hp, any_foldl_addNew h.equiv, ht.any, ht.any, Bool.eq_iff_iff, decide_eq_true_iff, f3]
  simp

/-- The values are those of the specification. -/
structure Vals.Is (S : SetOps τ α) (L : ListAPI σ α) (O : Spec.Order α) (I : σ → Prop) (v : Vals τ σ) (st : SetStore α) : Prop where
  sets : st.sets = v.sets.map (canon S O)
  sorted : st.sorted = v.objs.map (SS.iter L)
  inv : ∀ s ∈ v.objs, SS.Inv S L I s

omit h ht [DecidableEq α] in
theorem getElem?_mem {l : List β} {i : Nat} {x : β} (e : l[i]? = some x) : x ∈ l := by
  obtain ⟨_, rfl⟩ := List.getElem?_eq_some_iff.1 e; exact List.getElem_mem _

variable {v : Vals τ σ} {st : SetStore α}

/-- Both are missing, or both have the same members. -/
def SameMembers (x y : Option (List α)) : Prop :=
  (x = none ∧ y = none) ∨ ∃ xs ys, x = some xs ∧ y = some ys ∧ ∀ z, z ∈ xs ↔ z ∈ ys

theorem Vals.Is.arg (hv : v.Is S L O I st) (a : SetArg α) : SameMembers (v.arg S L a) (st.arg a) := by
  cases a with
  | set i =>
    simp only [Vals.arg, SetStore.arg, hv.sets, List.getElem?_map]
    cases e : v.sets[i]? with
    | none => exact .inl ⟨rfl, rfl⟩
    | some t => exact .inr ⟨_, _, rfl, rfl, fun z => (mem_canon h t z).symm⟩
  | sorted j =>
    simp only [Vals.arg, SetStore.arg, hv.sorted, List.getElem?_map]
    cases e : v.objs[j]? with
    | none => exact .inl ⟨rfl, rfl⟩
    | some s => exact .inr ⟨_, _, rfl, rfl, fun z => Iff.rfl⟩
  | values xs => exact .inr ⟨xs, xs, rfl, rfl, fun z => Iff.rfl⟩

theorem Vals.Is.args (hv : v.Is S L O I st) (as : List (SetArg α)) :
    (v.args S L as = none ∧ st.args as = none) ∨
    ∃ xss yss, v.args S L as = some xss ∧ st.args as = some yss ∧ xss.map mems = yss.map mems := by
  simp only [Vals.args, SetStore.args]
  induction as with
  | nil => exact .inr ⟨[], [], rfl, rfl, rfl⟩
  | cons a as ih =>
    simp only [List.mapM_cons]
    rcases hv.arg h ht a with ⟨e1, e2⟩ | ⟨xs, ys, e1, e2, hz⟩
    · exact .inl ⟨by rw [e1]; rfl, by rw [e2]; rfl⟩
    · rcases ih with ⟨e3, e4⟩ | ⟨xss, yss, e3, e4, hzs⟩
      · exact .inl ⟨by rw [e1, e3]; rfl, by rw [e2, e4]; rfl⟩
      · refine .inr ⟨xs :: xss, ys :: yss, by rw [e1, e3]; rfl, by rw [e2, e4]; rfl, ?_⟩
        simp only [List.map_cons, hzs]
        congr 1
        funext z
        exact propext (hz z)

/-- The same answer, and still the values of the specification. -/
def Agree (S : SetOps τ α) (L : ListAPI σ α) (O : Spec.Order α) (I : σ → Prop) (r : Except PyErr (SetOut α) × Vals τ σ)
    (r' : Except PyErr (SetOut α) × SetStore α) : Prop :=
  r.1 = r'.1 ∧ r.2.Is S L O I r'.2

omit h ht in
theorem Vals.Is.set (hv : v.Is S L O I st) (j : Nat) {s' : SS τ σ} (hs : SS.Inv S L I s') :
    Vals.Is S L O I { v with objs := v.objs.set j s' } { st with sorted := st.sorted.set j (SS.iter L s') } where
  sets := hv.sets
  sorted := by simp only [hv.sorted, List.map_set]
  inv s h := by
    rcases List.mem_or_eq_of_mem_set h with h | rfl
    · exact hv.inv s h
    · exact hs

omit h ht in
theorem Vals.Is.add (hv : v.Is S L O I st) {s' : SS τ σ} (hs : SS.Inv S L I s') :
    Agree S L O I (Vals.keep (.ok s') v) (SetStore.addSorted (SS.iter L s') st) := by
  refine ⟨by simp [Vals.keep, SetStore.addSorted, hv.sorted], hv.sets, ?_, fun s h => ?_⟩
  · simp [Vals.keep, SetStore.addSorted, hv.sorted]
  · simp only [Vals.keep, List.mem_append, List.mem_singleton] at h
    rcases h with h | rfl
    · exact hv.inv s h
    · exact hs

omit h ht in
theorem Vals.Is.change {as : Option β} {bs : Option γ} (hv : v.Is S L O I st) (j : Nat)
    {f : β → Py (SS τ σ) Unit} {g : γ → List α → List α} (hab : (as = none ∧ bs = none) ∨ ∃ x y, as = some x ∧ bs = some y ∧
      ∀ s, SS.Inv S L I s → ∃ s', f x s = (.ok (), s') ∧ SS.Inv S L I s' ∧ SS.iter L s' = g y (SS.iter L s)) :
    Agree S L O I (Vals.change j as f v) (SetStore.change j bs g st) := by
  unfold Vals.change SetStore.change
  rw [hv.sorted, List.getElem?_map]
  cases e : v.objs[j]? with
  | none => exact ⟨rfl, hv⟩
  | some s =>
    rcases hab with ⟨rfl, rfl⟩ | ⟨x, y, rfl, rfl, hf⟩
    · exact ⟨rfl, hv⟩
    · obtain ⟨s', e1, e2, e3⟩ := hf s (hv.inv s (getElem?_mem e))
      simp only [e1, Option.map_some, ← e3]
      rw [← hv.sorted]
      exact ⟨rfl, hv.set j e2⟩

omit h ht in
theorem Vals.Is.derive {as : Option β} {bs : Option γ} (hv : v.Is S L O I st) (j : Nat)
    {f : β → SS τ σ → Except PyErr (SS τ σ)} {g : γ → List α → List α}
    (hab : (as = none ∧ bs = none) ∨ ∃ x y, as = some x ∧ bs = some y ∧
      ∀ s, SS.Inv S L I s → ∃ s', f x s = .ok s' ∧ SS.Inv S L I s' ∧ SS.iter L s' = g y (SS.iter L s)) :
    Agree S L O I (Vals.derive j as f v) (SetStore.derive j bs g st) := by
  unfold Vals.derive SetStore.derive
  have es := hv.sorted
  rw [hv.sorted, List.getElem?_map]
  cases e : v.objs[j]? with
  | none => exact ⟨rfl, hv⟩
  | some s =>
    rcases hab with ⟨rfl, rfl⟩ | ⟨x, y, rfl, rfl, hf⟩
    · exact ⟨rfl, hv⟩
    · obtain ⟨s', e1, e2, e3⟩ := hf s (hv.inv s (getElem?_mem e))
      simp only [e1, Option.map_some, ← e3]
      exact hv.add e2

/-- One event. -/
theorem Vals.step_refines (hv : v.Is S L O I st) (ev : SetEvent α) (hvalid : ev.Valid) (hev : ¬ ev.isReduce) :
    Agree S L O I (Vals.step S L ev v) (SetStore.step O ev st) := by
  have argsOf : ∀ (as : List (SetArg α)) {P : List (List α) → List (List α) → Prop},
      (∀ xss yss, xss.map mems = yss.map mems → P xss yss) →
      (v.args S L as = none ∧ st.args as = none) ∨ ∃ x y, v.args S L as = some x ∧ st.args as = some y ∧ P x y := by
    intro as P hP
    rcases hv.args h ht as with hn | ⟨xss, yss, e1, e2, hz⟩
    · exact .inl hn
    · exact .inr ⟨xss, yss, e1, e2, hP _ _ hz⟩
  have argOf : ∀ (a : SetArg α) {P : List α → List α → Prop}, (∀ xs ys, (∀ z, z ∈ xs ↔ z ∈ ys) → P xs ys) →
      (v.arg S L a = none ∧ st.arg a = none) ∨ ∃ x y, v.arg S L a = some x ∧ st.arg a = some y ∧ P x y := by
    intro a P hP
    rcases hv.arg h ht a with hn | ⟨xs, ys, e1, e2, hz⟩
    · exact .inl hn
    · exact .inr ⟨xs, ys, e1, e2, hP _ _ hz⟩
  have sn : ∀ {s : SS τ σ}, SS.Inv S L I s → Sorted O.lt (SS.iter L s) ∧ (SS.iter L s).Nodup := fun hs =>
    ⟨SS.Inv.sorted' h hs, ht.nodup (SS.Inv.distinct' h hs)⟩
  cases ev with
  | newSet xs =>
    refine ⟨by simp [Vals.step, SetStore.step, hv.sets], ?_, hv.sorted, hv.inv⟩
    simp [Vals.step, SetStore.step, hv.sets, canon_ofList h ht]
  | mutate i xs =>
    simp only [Vals.step, SetStore.step]
    rw [hv.sets, List.getElem?_map]
    cases e : v.sets[i]? with
    | none => exact ⟨rfl, hv⟩
    | some t =>
      simp only [Option.map_some]
      refine ⟨rfl, ?_, hv.sorted, hv.inv⟩
      simp only [List.map_set, canon_ofList h ht]
  | construct a =>
    simp only [Vals.step, SetStore.step]
    rcases hv.arg h ht a with ⟨e1, e2⟩ | ⟨xs, ys, e1, e2, hz⟩
    · rw [e1, e2]; exact ⟨rfl, hv⟩
    · rw [e1, e2]
      obtain ⟨s', e, hi, hl⟩ := new_unique h ht xs
      simp only [e]
      rw [← insertAll_congr h.list.order ht Spec.sorted_nil List.nodup_nil hz, ← hl]
      exact hv.add hi
  | call j op =>
    simp only [Vals.step, SetStore.step]
    have es := hv.sorted
    rw [hv.sorted, List.getElem?_map]
    cases e : v.objs[j]? with
    | none => exact ⟨rfl, hv⟩
    | some s =>
      obtain ⟨r1, r2, r3⟩ := SS.step_refines h ht op hvalid s (hv.inv s (getElem?_mem e))
      simp only [Option.map_some, ← r1, ← r2]
      rw [← hv.sorted]
      exact ⟨rfl, hv.set j r3⟩
  | compare j op a =>
    simp only [Vals.step, SetStore.step]
    rw [hv.sorted, List.getElem?_map]
    cases e : v.objs[j]? with
    | none => exact ⟨rfl, hv⟩
    | some s =>
      have hs := hv.inv s (getElem?_mem e)
      cases a with
      | set i =>
        simp only [Vals.operand, SetStore.arg, hv.sets, List.getElem?_map]
        cases e' : v.sets[i]? with
        | none => exact ⟨rfl, hv⟩
        | some t =>
          refine ⟨?_, hv⟩
          simp only [Option.map_some, compare_any h ht op t hs]
          rw [compare_congr (mem_canon h t)]
      | sorted j' =>
        simp only [Vals.operand, SetStore.arg, hv.sorted, List.getElem?_map]
        cases e' : v.objs[j']? with
        | none => exact ⟨rfl, hv⟩
        | some s' =>
          have hs' := hv.inv s' (getElem?_mem e')
          refine ⟨?_, hv⟩
          simp only [Option.map_some, compare_any h ht op s'.set hs]
          rw [compare_congr fun x => hs'.perm.mem_iff]
          rfl
      | values xs =>
        simp only [Vals.operand, SetStore.arg]
        refine ⟨?_, hv⟩
        simp only [Option.map_some, compare_any h ht op _ hs]
        rw [compare_congr (mem_ofList h ht xs)]
  | update j as =>
    refine hv.change j (argsOf as fun xss yss hz s hs => ?_)
    obtain ⟨s', e, h1, h2⟩ := update_ok h xss hs
    exact ⟨s', e, h1, (union_unique h ht hs h1 xss h2).trans (union_congr h.list.order ht (sn hs).1 (sn hs).2 hz)⟩
  | differenceUpdate j as =>
    refine hv.change j (argsOf as fun xss yss hz s hs => ?_)
    obtain ⟨s', e, h1, h2⟩ := differenceUpdate_ok h xss hs
    exact ⟨s', e, h1, (difference_unique h ht hs h1 xss h2).trans (difference_congr hz)⟩
  | intersectionUpdate j as =>
    refine hv.change j (argsOf as fun xss yss hz s hs => ?_)
    obtain ⟨s', e, h1, h2⟩ := intersectionUpdate_ok h xss hs
    exact ⟨s', e, h1, (intersection_unique h ht hs h1 xss h2).trans (intersection_congr hz)⟩
  | symmetricDifferenceUpdate j a =>
    refine hv.change j (argOf a fun xs ys hz s hs => ?_)
    obtain ⟨s', e, h1, h2⟩ := symmetricDifferenceUpdate_ok h xs hs
    exact ⟨s', e, h1, (symmetricDifference_unique h ht hs h1 xs h2).trans
      (symmetricDifference_congr h.list.order ht (sn hs).1 (sn hs).2 hz)⟩
  | copy j =>
    refine hv.derive j (.inr ⟨(), (), rfl, rfl, fun s hs => ?_⟩)
    obtain ⟨s', e, h1, h2⟩ := copy_ok h hs
    refine ⟨s', e, h1, SS.Inv.unique h ht h1 (sn hs).1 (sn hs).2 fun x => ?_⟩
    rw [any_perm h2, ht.any]
  | pickle j =>
    refine hv.derive j (.inr ⟨(), (), rfl, rfl, fun s hs => ?_⟩)
    obtain ⟨s', e, h1, h2⟩ := new_unique h ht (SS.reduceArgs S s)
    refine ⟨s', e, h1, ?_⟩
    obtain ⟨f1, f2, f3⟩ := insertAll_facts h.list.order Spec.sorted_nil List.nodup_nil (SS.reduceArgs S s)
    rw [h2]
    refine ht.unique f1 (sn hs).1 f2 (sn hs).2 fun x => ?_
    rw [f3]
    simp only [List.not_mem_nil, false_or, SS.reduceArgs]
    exact hs.perm.mem_iff
  | union j as =>
    refine hv.derive j (argsOf as fun xss yss hz s hs => ?_)
    obtain ⟨s', e, h1, h2⟩ := union_ok h xss hs
    exact ⟨s', e, h1, (union_unique h ht hs h1 xss h2).trans (union_congr h.list.order ht (sn hs).1 (sn hs).2 hz)⟩
  | intersection j as =>
    refine hv.derive j (argsOf as fun xss yss hz s hs => ?_)
    obtain ⟨s', e, h1, h2⟩ := intersection_ok h xss hs
    exact ⟨s', e, h1, (intersection_unique h ht hs h1 xss h2).trans (intersection_congr hz)⟩
  | difference j as =>
    refine hv.derive j (argsOf as fun xss yss hz s hs => ?_)
    obtain ⟨s', e, h1, h2⟩ := difference_ok h xss hs
    exact ⟨s', e, h1, (difference_unique h ht hs h1 xss h2).trans (difference_congr hz)⟩
  | symmetricDifference j a =>
    refine hv.derive j (argOf a fun xs ys hz s hs => ?_)
    obtain ⟨s', e, h1, h2⟩ := symmetricDifference_ok h xs hs
    exact ⟨s', e, h1, (symmetricDifference_unique h ht hs h1 xs h2).trans
      (symmetricDifference_congr h.list.order ht (sn hs).1 (sn hs).2 hz)⟩
  | reduceArgs j => exact absurd trivial hev

/-- A sequence of events. -/
theorem Vals.hist (hv : v.Is S L O I st) (evs : List (SetEvent α)) (hvalid : ∀ ev ∈ evs, ev.Valid) (hev : ∀ ev ∈ evs, ¬ ev.isReduce) :
    (runHist (Vals.step S L) evs v).1 = (runHist (SetStore.step O) evs st).1 ∧
    (runHist (Vals.step S L) evs v).2.Is S L O I (runHist (SetStore.step O) evs st).2 := by
  induction evs generalizing v st with
  | nil => exact ⟨rfl, hv⟩
  | cons ev evs ih =>
    have h1 := Vals.step_refines h ht hv ev (hvalid ev (by simp)) (hev ev (by simp))
    have h2 := ih h1.2 (fun e he => hvalid e (by simp [he])) fun e he => hev e (by simp [he])
    simp only [runHist]
    exact ⟨by rw [h1.1, h2.1], h2.2⟩

end SetHeap

/-! ### What an event does not change -/

namespace SetHeap
variable {τ σ α β : Type} (S : SetOps τ α) (L : ListAPI σ α)

theorem set_other {l : List β} {i j : Nat} {x y : β} (hij : i ≠ j) (h : l[j]? = some x) : (l.set i y)[j]? = some x := by
  rw [List.getElem?_set_ne hij]; exact h

theorem append_old {l l' : List β} {j : Nat} {x : β} (h : l[j]? = some x) : (l ++ l')[j]? = some x := by
  rw [List.getElem?_append_left (List.getElem?_eq_some_iff.1 h).1]; exact h

theorem Vals.change_frame {v : Vals τ σ} {j j' : Nat} {as : Option β} {m : β → Py (SS τ σ) Unit} {s : SS τ σ} (hj : j ≠ j')
    (h : v.objs[j']? = some s) : (Vals.change (α := α) j as m v).2.objs[j']? = some s ∧ (Vals.change (α := α) j as m v).2.sets = v.sets := by
  unfold Vals.change
  split
  · exact ⟨set_other hj h, rfl⟩
  · exact ⟨h, rfl⟩

theorem Vals.change_sets {v : Vals τ σ} {j : Nat} {as : Option β} {m : β → Py (SS τ σ) Unit} :
    (Vals.change (α := α) j as m v).2.sets = v.sets := by
  unfold Vals.change
  split <;> rfl

theorem Vals.keep_frame {v : Vals τ σ} {j' : Nat} {r : Except PyErr (SS τ σ)} {s : SS τ σ}
    (h : v.objs[j']? = some s) : (Vals.keep (α := α) r v).2.objs[j']? = some s := by
  unfold Vals.keep
  split
  · exact append_old h
  · exact h

theorem Vals.keep_sets {v : Vals τ σ} {r : Except PyErr (SS τ σ)} : (Vals.keep (α := α) r v).2.sets = v.sets := by
  unfold Vals.keep
  split <;> rfl

theorem Vals.derive_frame {v : Vals τ σ} {j j' : Nat} {as : Option β} {g : β → SS τ σ → Except PyErr (SS τ σ)} {s : SS τ σ}
    (h : v.objs[j']? = some s) : (Vals.derive (α := α) j as g v).2.objs[j']? = some s := by
  unfold Vals.derive
  split
  · exact Vals.keep_frame h
  · exact h

theorem Vals.derive_sets {v : Vals τ σ} {j : Nat} {as : Option β} {g : β → SS τ σ → Except PyErr (SS τ σ)} :
    (Vals.derive (α := α) j as g v).2.sets = v.sets := by
  unfold Vals.derive
  split
  · exact Vals.keep_sets
  · rfl

theorem Vals.step_frame (v : Vals τ σ) (ev : SetEvent α) :
    (∀ (i : Nat) (t : τ), ¬ ev.changesSet i → v.sets[i]? = some t → (Vals.step S L ev v).2.sets[i]? = some t) ∧
    (∀ (j : Nat) (s : SS τ σ), ¬ ev.changesSorted j → v.objs[j]? = some s → (Vals.step S L ev v).2.objs[j]? = some s) := by
  cases ev with
  | newSet xs => exact ⟨fun i t _ h => append_old h, fun j s _ h => h⟩
  | mutate i' xs =>
    constructor
    · intro i t hi h
      simp only [Vals.step]
      split
      · exact set_other hi h
      · exact h
    · intro j s _ h
      simp only [Vals.step]
      split <;> exact h
  | construct a =>
    constructor
    · intro i t _ h
      simp only [Vals.step]
      split
      · rw [Vals.keep_sets]; exact h
      · exact h
    · intro j s _ h
      simp only [Vals.step]
      split
      · exact Vals.keep_frame h
      · exact h
  | call j' op =>
    constructor
    · intro i t _ h
      simp only [Vals.step]
      split <;> exact h
    · intro j s hj h
      simp only [Vals.step]
      split
      · exact set_other hj h
      · exact h
  | compare j' op a =>
    constructor
    · intro i t _ h
      simp only [Vals.step]
      split <;> exact h
    · intro j s _ h
      simp only [Vals.step]
      split <;> exact h
  | update j' as | differenceUpdate j' as | intersectionUpdate j' as | symmetricDifferenceUpdate j' a =>
    refine ⟨fun i t _ h => ?_, fun j s hj h => (Vals.change_frame hj h).1⟩
    simp only [Vals.step, Vals.change_sets]; exact h
  | copy j' | pickle j' | union j' as | intersection j' as | difference j' as | symmetricDifference j' a =>
    refine ⟨fun i t _ h => ?_, fun j s _ h => Vals.derive_frame h⟩
    simp only [Vals.step, Vals.derive_sets]; exact h
  | reduceArgs j' =>
    constructor
    · intro i t _ h
      simp only [Vals.step]
      split
      · exact append_old h
      · exact h
    · intro j s _ h
      simp only [Vals.step]
      split <;> exact h

end SetHeap
end Verif
