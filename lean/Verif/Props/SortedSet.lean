import Verif.Props.DemoSet
import Verif.Proofs.SetHistory
/-!
# Properties of SortedSet

`c` is the class of the sorted list inside the set: SortedList, or SortedKeyList if there is a key function.  `lt` is the
order of the set (of the values, or of their keys) and `eqv` is equality of values.  `S` is the built-in set.  The
results of `new`, `copy`, `union`, ... are new objects: in the model they do not share state with the operands.
-/

namespace Verif
open SS

section General
variable {τ α : Type} {S : SetOps τ α} {c : ListClass α} {lt eqv : α → α → Bool} {s : SS τ c.State}

/-- The value `x` is in the set: iteration yields a value equal to `x`. -/
def SS.Has (eqv : α → α → Bool) (c : ListClass α) (s : SS τ c.State) (x : α) : Prop :=
  ∃ y ∈ SS.iter c.api s, eqv y x = true

theorem SS.good (hc : c.Orders lt eqv) (hS : S.Lawful eqv) :
    ∃ O I, SS.Good S c.api O eqv I ∧ O.lt = lt := by
  obtain ⟨O, I, h1, h2, h3⟩ := hc.lawful
  exact ⟨O, I, ⟨hS, h1, h3⟩, h2⟩

theorem SS.has_iff {x : α} : SS.Has eqv c s x ↔ (SS.iter c.api s).any (eqv · x) = true := any_eq_true_iff.symm

theorem SS.not_has_iff {x : α} : ¬ SS.Has eqv c s x ↔ (SS.iter c.api s).any (eqv · x) = false := by
  rw [SS.has_iff, Bool.not_eq_true]

/-- C36: iteration is sorted and yields no two equal values; `in` is membership in what iteration yields; `len` is the
number of values it yields. -/
theorem C36_two_stores (hc : c.Orders lt eqv) (hS : S.Lawful eqv) (hs : SS.Reachable S c.api s) :
    Sorted lt (SS.iter c.api s) ∧ (SS.iter c.api s).Pairwise (fun a b => eqv a b = false) ∧
    (∀ v, SS.contains S v s = true ↔ ∃ y ∈ SS.iter c.api s, eqv y v = true) ∧
    SS.length S s = (SS.iter c.api s).length := by
  obtain ⟨O, I, h, rfl⟩ := SS.good hc hS
  have hi := SS.reachable_inv h hs
  refine ⟨hi.sorted' h, hi.distinct' h, fun v => ?_, hi.len h⟩
  rw [SS.contains, hi.mem h]
  exact any_eq_true_iff

/-- The order of a sorted set, for the specification. -/
def setOrder (lt eqv : α → α → Bool) : Spec.Order α := { lt := lt, same := eqv, cmp := fun _ _ _ => .ok true }

theorem SetSpec.step_congr [DecidableEq α] (O : Spec.Order α) (hl : O.lt = lt) (hs : O.same = eqv) (op : SSOp α) :
    SetSpec.step O op = SetSpec.step (setOrder lt eqv) op := by
  subst hl hs
  cases op <;> rfl

/-- C36: when equal values are identical and the order tells different values apart, every history of calls gives the
answers of a plain sorted list without repetitions. -/
theorem C36_history [DecidableEq α] (hc : c.Orders lt eqv) (hS : S.Lawful eqv)
    (heq : ∀ a b, eqv a b = decide (a = b)) (htotal : ∀ a b, lt a b = false → lt b a = false → a = b)
    {xs : Option (List α)} (e : SS.new S c.api xs = .ok s) (ops : List (SSOp α)) (hv : ∀ op ∈ ops, op.Valid) :
    let spec := runHist (SetSpec.step (setOrder lt eqv)) ops (SetSpec.insertAll (setOrder lt eqv) [] (xs.getD []))
    (runHist (SS.step S c.api) ops s).1 = spec.1 ∧ SS.iter c.api (runHist (SS.step S c.api) ops s).2 = spec.2 := by
  obtain ⟨O, I, h, rfl⟩ := SS.good hc hS
  have ht : SS.Total O eqv := ⟨heq, fun a b hab => by
    simp only [equiv, Bool.and_eq_true, Bool.not_eq_true'] at hab
    exact htotal a b hab.1 hab.2⟩
  have hsame : O.same = eqv := by funext a b; exact h.same a b
  have hstep : SetSpec.step (setOrder O.lt eqv) = SetSpec.step O := by
    funext op; exact (SetSpec.step_congr O rfl hsame op).symm
  obtain ⟨s', e', hi, hp⟩ := SS.new_ok h xs
  rw [e] at e'; cases e'
  have h0 : SS.iter c.api s = SetSpec.insertAll (setOrder O.lt eqv) [] (xs.getD []) := by
    obtain ⟨f1, f2, f3⟩ := SS.insertAll_facts (O := setOrder O.lt eqv) h.list.order Spec.sorted_nil List.nodup_nil (xs.getD [])
    refine ht.unique (hi.sorted' h) f1 (ht.nodup (hi.distinct' h)) f2 fun x => ?_
    rw [f3, hp.mem_iff]
    constructor
    · intro hx; exact of_mem_foldl_addNew hx
    · rintro (hx | hx)
      · cases hx
      · have := any_foldl_addNew h.equiv [] (xs.getD []) x
        rw [any_self h.equiv hx, Bool.or_true, ht.any] at this
        exact decide_eq_true_iff.1 this
  obtain ⟨r1, r2, _⟩ := Refines.hist ops (fun op ho => SS.step_refines h ht op (hv op ho)) hi
  rw [h0] at r1 r2
  rw [hstep]
  exact ⟨r1, r2⟩

/-- C37: `add(v)` changes nothing if an equal value is there; else it inserts `v` after all values that are not greater
and before all that are. -/
theorem C37_add (hc : c.Orders lt eqv) (hS : S.Lawful eqv) (hs : SS.Reachable S c.api s) (v : α) :
    ∃ s', SS.add S c.api v s = (.ok (), s') ∧
      ((SS.Has eqv c s v ∧ SS.iter c.api s' = SS.iter c.api s) ∨
       (¬ SS.Has eqv c s v ∧ ∃ A B, SS.iter c.api s = A ++ B ∧ SS.iter c.api s' = A ++ v :: B ∧
          (∀ a ∈ A, lt v a = false) ∧ ∀ b ∈ B, lt v b = true)) := by
  obtain ⟨O, I, h, rfl⟩ := SS.good hc hS
  have hi := SS.reachable_inv h hs
  obtain ⟨s', e, _, h2⟩ := SS.add_ok h hi v
  refine ⟨s', e, ?_⟩
  by_cases hv : (SS.iter c.api s).any (eqv · v) = true
  · rw [if_pos hv] at h2
    exact .inl ⟨SS.has_iff.2 hv, h2⟩
  · rw [if_neg hv] at h2
    obtain ⟨A, B, h3, h4, h5⟩ := Spec.sorted_split_right h.list.order (hi.sorted' h) v
    exact .inr ⟨fun hh => hv (SS.has_iff.1 hh), A, B, h3, by rw [h2]; exact Spec.insert_split h3 h4 h5, h4, h5⟩

/-- C37: `discard(v)` never raises and drops the value equal to `v`, if any; the other values stay in order. -/
theorem C37_discard (hc : c.Orders lt eqv) (hS : S.Lawful eqv) (hs : SS.Reachable S c.api s) (v : α) :
    ∃ s', SS.discard S c.api v s = (.ok (), s') ∧
      SS.iter c.api s' = (SS.iter c.api s).filter fun y => !eqv y v := by
  obtain ⟨O, I, h, rfl⟩ := SS.good hc hS
  obtain ⟨s', e, _, h2⟩ := SS.discard_ok h (SS.reachable_inv h hs) v
  exact ⟨s', e, h2⟩

/-- C37: `remove(v)` drops the value equal to `v`; KeyError exactly if there is none, and then nothing at all changes. -/
theorem C37_remove (hc : c.Orders lt eqv) (hS : S.Lawful eqv) (hs : SS.Reachable S c.api s) (v : α) :
    (SS.Has eqv c s v ∧ ∃ s', SS.remove S c.api v s = (.ok (), s') ∧
        SS.iter c.api s' = (SS.iter c.api s).filter fun y => !eqv y v) ∨
    (¬ SS.Has eqv c s v ∧ SS.remove S c.api v s = (.error .keyError, s)) := by
  obtain ⟨O, I, h, rfl⟩ := SS.good hc hS
  have hi := SS.reachable_inv h hs
  by_cases hv : (SS.iter c.api s).any (eqv · v) = true
  · obtain ⟨s', e, _, h2⟩ := SS.removePresent_ok h hi hv
    exact .inl ⟨SS.has_iff.2 hv, s', e, h2⟩
  · rw [Bool.not_eq_true] at hv
    exact .inr ⟨SS.not_has_iff.2 hv, SS.remove_absent h hi hv⟩

/-- C37: `pop(i)` returns the value at position `i` and removes exactly that one; IndexError exactly out of range, values
unchanged. -/
theorem C37_pop (hc : c.Orders lt eqv) (hS : S.Lawful eqv) (hs : SS.Reachable S c.api s) (i : Int) :
    let l := SS.iter c.api s
    ∃ s', (∃ (n : Nat) (h : n < l.length), (i = n ∨ i = (n : Int) - l.length) ∧
          SS.pop S c.api i s = (.ok l[n], s') ∧ SS.iter c.api s' = l.eraseIdx n) ∨
      ((l.length ≤ i ∨ i < -(l.length : Int)) ∧ SS.pop S c.api i s = (.error .indexError, s') ∧ SS.iter c.api s' = l) := by
  intro l
  obtain ⟨O, I, h, rfl⟩ := SS.good hc hS
  obtain ⟨s', e, _, h2⟩ := SS.pop_ok h (SS.reachable_inv h hs) i
  change SS.pop S c.api i s = ((Spec.pop i l).1, s') at e
  change SS.iter c.api s' = (Spec.pop i l).2 at h2
  refine ⟨s', ?_⟩
  rcases position_cases l.length i with ⟨n, hn, rfl, hp⟩ | ⟨n, hn, rfl, hp⟩ | ⟨hi, hp⟩
  · simp only [Spec.pop, hp, List.getElem?_eq_getElem hn] at e h2
    exact .inl ⟨n, hn, .inl rfl, e, h2⟩
  · have hn' : l.length - 1 - n < l.length := by omega
    simp only [Spec.pop, hp, List.getElem?_eq_getElem hn'] at e h2
    exact .inl ⟨_, hn', .inr (by omega), e, h2⟩
  · simp only [Spec.pop, hp] at e h2
    exact .inr ⟨hi, e, h2⟩

/-- C37: `del ss[i]` removes exactly the value at position `i`; IndexError exactly out of range, values unchanged. -/
theorem C37_delitem (hc : c.Orders lt eqv) (hS : S.Lawful eqv) (hs : SS.Reachable S c.api s) (i : Int) :
    let l := SS.iter c.api s
    ∃ s', (∃ n, n < l.length ∧ (i = n ∨ i = (n : Int) - l.length) ∧
          SS.delInt S c.api i s = (.ok (), s') ∧ SS.iter c.api s' = l.eraseIdx n) ∨
      ((l.length ≤ i ∨ i < -(l.length : Int)) ∧ SS.delInt S c.api i s = (.error .indexError, s') ∧
        SS.iter c.api s' = l) := by
  intro l
  obtain ⟨O, I, h, rfl⟩ := SS.good hc hS
  obtain ⟨s', e, _, h2⟩ := SS.delInt_ok h (SS.reachable_inv h hs) i
  change SS.delInt S c.api i s = ((Spec.delInt i l).1, s') at e
  change SS.iter c.api s' = (Spec.delInt i l).2 at h2
  refine ⟨s', ?_⟩
  rcases position_cases l.length i with ⟨n, hn, rfl, hp⟩ | ⟨n, hn, rfl, hp⟩ | ⟨hi, hp⟩
  · simp only [Spec.delInt, hp] at e h2
    exact .inl ⟨n, hn, .inl rfl, e, h2⟩
  · simp only [Spec.delInt, hp] at e h2
    exact .inl ⟨_, by omega, .inr (by omega), e, h2⟩
  · simp only [Spec.delInt, hp] at e h2
    exact .inr ⟨hi, e, h2⟩

/-- C37: `del ss[a:b:c]` leaves exactly the values at positions not in `range(*slice(a, b, c).indices(len(ss)))`, in
order; ValueError if `c == 0`, values unchanged. -/
theorem C37_delslice (hc : c.Orders lt eqv) (hS : S.Lawful eqv) (hs : SS.Reachable S c.api s) (sl : PySlice) :
    let l := SS.iter c.api s
    ∃ s', match sl.indices l.length with
      | .error e => SS.delSlice S c.api sl s = (.error e, s') ∧ SS.iter c.api s' = l
      | .ok (start, stop, step) => SS.delSlice S c.api sl s = (.ok (), s') ∧
          SS.iter c.api s' = (l.zipIdx.filter fun x =>
            !((pyRange start stop step).map Int.toNat).contains x.2).map Prod.fst := by
  intro l
  obtain ⟨O, I, h, rfl⟩ := SS.good hc hS
  obtain ⟨s', e, _, h2⟩ := SS.delSlice_ok h (SS.reachable_inv h hs) sl
  change SS.delSlice S c.api sl s = ((Spec.delSlice sl l).1, s') at e
  change SS.iter c.api s' = (Spec.delSlice sl l).2 at h2
  refine ⟨s', ?_⟩
  simp only [Spec.delSlice, Spec.slicePositions] at e h2
  split
  · rename_i e' he
    rw [he] at e h2
    exact ⟨e, h2⟩
  · rename_i a b st he
    rw [he] at e h2
    exact ⟨e, h2⟩

/-- C37: `clear()` empties the set. -/
theorem C37_clear (hc : c.Orders lt eqv) (hS : S.Lawful eqv) (hs : SS.Reachable S c.api s) :
    ∃ s', SS.clear S c.api s = (.ok (), s') ∧ SS.iter c.api s' = [] := by
  obtain ⟨O, I, h, rfl⟩ := SS.good hc hS
  obtain ⟨s', e, _, h2⟩ := SS.clear_ok h (SS.reachable_inv h hs)
  exact ⟨s', e, h2⟩

theorem SS.has_of_perm {L : List α} {s' : SS τ c.State} (hp : (SS.iter c.api s').Perm L) (x : α) :
    SS.Has eqv c s' x ↔ L.any (eqv · x) = true := by
  rw [SS.has_iff, any_perm hp]

theorem SS.any_flatten {xss : List (List α)} {p : α → Bool} :
    xss.flatten.any p = true ↔ ∃ xs ∈ xss, ∃ y ∈ xs, p y = true := by
  simp only [List.any_eq_true, List.mem_flatten]
  constructor
  · rintro ⟨y, ⟨xs, h1, h2⟩, h3⟩; exact ⟨xs, h1, y, h2, h3⟩
  · rintro ⟨xs, h1, y, h2, h3⟩; exact ⟨y, ⟨xs, h1, h2⟩, h3⟩

/-- What a union holds: the old values, and a value equal to each of the given ones. -/
theorem SS.union_facts (he : IsEquiv eqv) {s' : SS τ c.State} {xss : List (List α)}
    (hp : (SS.iter c.api s').Perm (xss.flatten.foldl (addNew eqv) (SS.iter c.api s))) :
    (∀ x, SS.Has eqv c s' x ↔ SS.Has eqv c s x ∨ ∃ xs ∈ xss, ∃ y ∈ xs, eqv y x = true) ∧
    (∀ x ∈ SS.iter c.api s, x ∈ SS.iter c.api s') ∧
    (∀ x ∈ SS.iter c.api s', x ∈ SS.iter c.api s ∨ ∃ xs ∈ xss, x ∈ xs) := by
  refine ⟨fun x => ?_, fun x hx => hp.mem_iff.2 (mem_foldl_addNew hx _), fun x hx => ?_⟩
  · rw [SS.has_of_perm hp, any_foldl_addNew he, Bool.or_eq_true, SS.any_flatten, ← SS.has_iff]
  · rcases of_mem_foldl_addNew (hp.mem_iff.1 hx) with h | h
    · exact .inl h
    · exact .inr (List.mem_flatten.1 h)

/-- What a difference holds: the old values without those equal to a given one. -/
theorem SS.difference_facts {s' : SS τ c.State} {xss : List (List α)}
    (hp : (SS.iter c.api s').Perm ((SS.iter c.api s).filter fun y => !xss.flatten.any (eqv · y))) (x : α) :
    x ∈ SS.iter c.api s' ↔ x ∈ SS.iter c.api s ∧ ¬ ∃ xs ∈ xss, ∃ y ∈ xs, eqv y x = true := by
  rw [hp.mem_iff, List.mem_filter, ← SS.any_flatten, Bool.not_eq_true', Bool.not_eq_true]

/-- C38: `union` (also `|`): a new set with the values of the set, and of all iterables; the values of the set itself are
kept. -/
theorem C38_union (hc : c.Orders lt eqv) (hS : S.Lawful eqv) (hs : SS.Reachable S c.api s) (xss : List (List α)) :
    ∃ s', SS.union S c.api xss s = .ok s' ∧ SS.Reachable S c.api s' ∧
      (∀ x, SS.Has eqv c s' x ↔ SS.Has eqv c s x ∨ ∃ xs ∈ xss, ∃ y ∈ xs, eqv y x = true) ∧
      (∀ x ∈ SS.iter c.api s, x ∈ SS.iter c.api s') ∧
      (∀ x ∈ SS.iter c.api s', x ∈ SS.iter c.api s ∨ ∃ xs ∈ xss, x ∈ xs) := by
  obtain ⟨O, I, h, rfl⟩ := SS.good hc hS
  obtain ⟨s', e, _, h2⟩ := SS.union_ok h xss (SS.reachable_inv h hs)
  exact ⟨s', e, .union hs e, SS.union_facts h.equiv h2⟩

/-- C38: `intersection` (also `&`): a new set with the values of the set that are in every iterable. -/
theorem C38_intersection (hc : c.Orders lt eqv) (hS : S.Lawful eqv) (hs : SS.Reachable S c.api s)
    (xss : List (List α)) :
    ∃ s', SS.intersection S c.api xss s = .ok s' ∧ SS.Reachable S c.api s' ∧
      ∀ x, SS.Has eqv c s' x ↔ SS.Has eqv c s x ∧ ∀ xs ∈ xss, ∃ y ∈ xs, eqv y x = true := by
  obtain ⟨O, I, h, rfl⟩ := SS.good hc hS
  obtain ⟨s', e, _, h2⟩ := SS.intersection_ok h xss (SS.reachable_inv h hs)
  refine ⟨s', e, .intersection hs e, fun x => ?_⟩
  rw [SS.has_iff, h2, Bool.and_eq_true, ← SS.has_iff, List.all_eq_true]
  simp only [any_eq_true_iff]

/-- C38: `difference` (also `-`): a new set with exactly the values of the set that are in no iterable. -/
theorem C38_difference (hc : c.Orders lt eqv) (hS : S.Lawful eqv) (hs : SS.Reachable S c.api s)
    (xss : List (List α)) :
    ∃ s', SS.difference S c.api xss s = .ok s' ∧ SS.Reachable S c.api s' ∧
      ∀ x, x ∈ SS.iter c.api s' ↔ x ∈ SS.iter c.api s ∧ ¬ ∃ xs ∈ xss, ∃ y ∈ xs, eqv y x = true := by
  obtain ⟨O, I, h, rfl⟩ := SS.good hc hS
  obtain ⟨s', e, _, h2⟩ := SS.difference_ok h xss (SS.reachable_inv h hs)
  exact ⟨s', e, .difference hs e, SS.difference_facts h2⟩

/-- C38: `symmetric_difference` (also `^`): a new set with the values in exactly one of the set and the iterable. -/
theorem C38_symmetric_difference (hc : c.Orders lt eqv) (hS : S.Lawful eqv) (hs : SS.Reachable S c.api s)
    (xs : List α) :
    ∃ s', SS.symmetricDifference S c.api xs s = .ok s' ∧ SS.Reachable S c.api s' ∧
      ∀ x, SS.Has eqv c s' x ↔
        (SS.Has eqv c s x ∧ ¬ ∃ y ∈ xs, eqv y x = true) ∨ (¬ SS.Has eqv c s x ∧ ∃ y ∈ xs, eqv y x = true) := by
  obtain ⟨O, I, h, rfl⟩ := SS.good hc hS
  obtain ⟨s', e, _, h2⟩ := SS.symmetricDifference_ok h xs (SS.reachable_inv h hs)
  refine ⟨s', e, .symmetricDifference hs e, fun x => ?_⟩
  rw [SS.has_iff, h2, SS.has_iff, ← any_eq_true_iff]
  cases (SS.iter c.api s).any (eqv · x) <;> cases xs.any (eqv · x) <;> simp

/-- C38: `copy`: a new set with the same values. -/
theorem C38_copy (hc : c.Orders lt eqv) (hS : S.Lawful eqv) (hs : SS.Reachable S c.api s) :
    ∃ s', SS.copy S c.api s = .ok s' ∧ SS.Reachable S c.api s' ∧
      ∀ x, x ∈ SS.iter c.api s' ↔ x ∈ SS.iter c.api s := by
  obtain ⟨O, I, h, rfl⟩ := SS.good hc hS
  obtain ⟨s', e, _, h2⟩ := SS.copy_ok h (SS.reachable_inv h hs)
  exact ⟨s', e, .copy hs e, fun x => h2.mem_iff⟩

/-- C38: `SortedSet(iterable)`: a set with the values of the iterable. -/
theorem C38_new (hc : c.Orders lt eqv) (hS : S.Lawful eqv) (xs : Option (List α)) :
    ∃ s', SS.new S c.api xs = .ok s' ∧ SS.Reachable S c.api s' ∧
      ∀ x, SS.Has eqv c s' x ↔ ∃ y ∈ xs.getD [], eqv y x = true := by
  obtain ⟨O, I, h, rfl⟩ := SS.good hc hS
  obtain ⟨s', e, _, h2⟩ := SS.new_ok h xs
  refine ⟨s', e, .new e, fun x => ?_⟩
  rw [SS.has_of_perm h2, any_foldl_addNew h.equiv, List.any_nil, Bool.false_or, any_eq_true_iff]

/-- C39: `update` (also `|=`) whatever the sizes: the values of the set, which are kept, and of all iterables. -/
theorem C39_update (hc : c.Orders lt eqv) (hS : S.Lawful eqv) (hs : SS.Reachable S c.api s) (xss : List (List α)) :
    ∃ s', SS.update S c.api xss s = (.ok (), s') ∧
      (∀ x, SS.Has eqv c s' x ↔ SS.Has eqv c s x ∨ ∃ xs ∈ xss, ∃ y ∈ xs, eqv y x = true) ∧
      (∀ x ∈ SS.iter c.api s, x ∈ SS.iter c.api s') ∧
      (∀ x ∈ SS.iter c.api s', x ∈ SS.iter c.api s ∨ ∃ xs ∈ xss, x ∈ xs) := by
  obtain ⟨O, I, h, rfl⟩ := SS.good hc hS
  obtain ⟨s', e, _, h2⟩ := SS.update_ok h xss (SS.reachable_inv h hs)
  exact ⟨s', e, SS.union_facts h.equiv h2⟩

/-- C39: `difference_update` (also `-=`) whatever the sizes: exactly the values of the set that are in no iterable. -/
theorem C39_difference_update (hc : c.Orders lt eqv) (hS : S.Lawful eqv) (hs : SS.Reachable S c.api s)
    (xss : List (List α)) :
    ∃ s', SS.differenceUpdate S c.api xss s = (.ok (), s') ∧
      ∀ x, x ∈ SS.iter c.api s' ↔ x ∈ SS.iter c.api s ∧ ¬ ∃ xs ∈ xss, ∃ y ∈ xs, eqv y x = true := by
  obtain ⟨O, I, h, rfl⟩ := SS.good hc hS
  obtain ⟨s', e, _, h2⟩ := SS.differenceUpdate_ok h xss (SS.reachable_inv h hs)
  exact ⟨s', e, SS.difference_facts h2⟩

/-- C39: `intersection_update` (also `&=`): the values of the set that are in every iterable. -/
theorem C39_intersection_update (hc : c.Orders lt eqv) (hS : S.Lawful eqv) (hs : SS.Reachable S c.api s)
    (xss : List (List α)) :
    ∃ s', SS.intersectionUpdate S c.api xss s = (.ok (), s') ∧
      ∀ x, SS.Has eqv c s' x ↔ SS.Has eqv c s x ∧ ∀ xs ∈ xss, ∃ y ∈ xs, eqv y x = true := by
  obtain ⟨O, I, h, rfl⟩ := SS.good hc hS
  obtain ⟨s', e, _, h2⟩ := SS.intersectionUpdate_ok h xss (SS.reachable_inv h hs)
  refine ⟨s', e, fun x => ?_⟩
  rw [SS.has_iff, h2, Bool.and_eq_true, ← SS.has_iff, List.all_eq_true]
  simp only [any_eq_true_iff]

/-- C39: `symmetric_difference_update` (also `^=`): the values in exactly one of the set and the iterable. -/
theorem C39_symmetric_difference_update (hc : c.Orders lt eqv) (hS : S.Lawful eqv) (hs : SS.Reachable S c.api s)
    (xs : List α) :
    ∃ s', SS.symmetricDifferenceUpdate S c.api xs s = (.ok (), s') ∧
      ∀ x, SS.Has eqv c s' x ↔
        (SS.Has eqv c s x ∧ ¬ ∃ y ∈ xs, eqv y x = true) ∨ (¬ SS.Has eqv c s x ∧ ∃ y ∈ xs, eqv y x = true) := by
  obtain ⟨O, I, h, rfl⟩ := SS.good hc hS
  obtain ⟨s', e, _, h2⟩ := SS.symmetricDifferenceUpdate_ok h xs (SS.reachable_inv h hs)
  refine ⟨s', e, fun x => ?_⟩
  rw [SS.has_iff, h2, SS.has_iff, ← any_eq_true_iff]
  cases (SS.iter c.api s).any (eqv · x) <;> cases xs.any (eqv · x) <;> simp

/-- Inclusion of the values two sorted sets hold. -/
theorem SS.subset_iff (he : IsEquiv eqv) {c' : ListClass α} {t : SS τ c'.State} :
    (∀ x, SS.Has eqv c s x → SS.Has eqv c' t x) ↔ SS.Subset eqv (SS.iter c.api s) (SS.iter c'.api t) := by
  simp only [SS.has_iff, SS.Subset]
  constructor
  · intro h x hx; exact h x (any_self he hx)
  · intro h x hx
    obtain ⟨y, hy, hyx⟩ := List.any_eq_true.1 hx
    rw [← any_congr_eqv he hyx]
    exact h y hy

/-- C40: the comparisons of two sorted sets, whatever their key functions. -/
theorem C40_comparisons {c' : ListClass α} {lt' : α → α → Bool} {t : SS τ c'.State} (hc : c.Orders lt eqv)
    (hc' : c'.Orders lt' eqv) (hS : S.Lawful eqv) (hs : SS.Reachable S c.api s) (ht : SS.Reachable S c'.api t) :
    (SS.compare S .eq t.set s = true ↔ ∀ x, SS.Has eqv c s x ↔ SS.Has eqv c' t x) ∧
    (SS.compare S .ne t.set s = true ↔ ¬ ∀ x, SS.Has eqv c s x ↔ SS.Has eqv c' t x) ∧
    (SS.compare S .le t.set s = true ↔ ∀ x, SS.Has eqv c s x → SS.Has eqv c' t x) ∧
    (SS.compare S .ge t.set s = true ↔ ∀ x, SS.Has eqv c' t x → SS.Has eqv c s x) ∧
    (SS.compare S .lt t.set s = true ↔
      (∀ x, SS.Has eqv c s x → SS.Has eqv c' t x) ∧ ∃ x, SS.Has eqv c' t x ∧ ¬ SS.Has eqv c s x) ∧
    (SS.compare S .gt t.set s = true ↔
      (∀ x, SS.Has eqv c' t x → SS.Has eqv c s x) ∧ ∃ x, SS.Has eqv c s x ∧ ¬ SS.Has eqv c' t x) := by
  obtain ⟨O, I, h, rfl⟩ := SS.good hc hS
  obtain ⟨O', I', h', rfl⟩ := SS.good hc' hS
  have p := (SS.reachable_inv h hs).perm
  have p' := (SS.reachable_inv h' ht).perm
  have e1 : SS.Subset eqv (S.toList s.set) (S.toList t.set) ↔ ∀ x, SS.Has eqv c s x → SS.Has eqv c' t x :=
    (SS.Subset.perm p p').trans (SS.subset_iff h.equiv).symm
  have e2 : SS.Subset eqv (S.toList t.set) (S.toList s.set) ↔ ∀ x, SS.Has eqv c' t x → SS.Has eqv c s x :=
    (SS.Subset.perm p' p).trans (SS.subset_iff h.equiv).symm
  have n : ∀ {P Q : α → Prop}, (¬ ∀ x, P x → Q x) ↔ ∃ x, P x ∧ ¬ Q x := by
    intro P Q
    constructor
    · intro h
      obtain ⟨x, hx⟩ := Classical.not_forall.1 h
      exact ⟨x, Classical.not_imp.1 hx⟩
    · rintro ⟨x, h1, h2⟩ h
      exact h2 (h x h1)
  have b : ∀ {P Q : α → Prop}, ((∀ x, P x → Q x) ∧ ∀ x, Q x → P x) ↔ ∀ x, P x ↔ Q x := by
    intro P Q
    exact ⟨fun h x => ⟨h.1 x, h.2 x⟩, fun h => ⟨fun x => (h x).1, fun x => (h x).2⟩⟩
  have k := fun op => SS.setCompare_ok hS op s.set t.set
  simp only [e1, e2] at k
  refine ⟨(k .eq).trans b, (k .ne).trans (not_congr b), k .le, k .ge, (k .lt).trans (and_congr_right' n),
    (k .gt).trans (and_congr_right' n)⟩

/-- C40: `isdisjoint`, `issubset`, `issuperset` with any iterable. -/
theorem C40_predicates (hc : c.Orders lt eqv) (hS : S.Lawful eqv) (hs : SS.Reachable S c.api s) (xs : List α) :
    (SS.isdisjoint S xs s = true ↔ ∀ x ∈ xs, ¬ SS.Has eqv c s x) ∧
    (SS.issubset S xs s = true ↔ ∀ x ∈ SS.iter c.api s, ∃ y ∈ xs, eqv y x = true) ∧
    (SS.issuperset S xs s = true ↔ ∀ x ∈ xs, SS.Has eqv c s x) := by
  obtain ⟨O, I, h, rfl⟩ := SS.good hc hS
  have hi := SS.reachable_inv h hs
  have hm : ∀ x, S.mem x s.set = true ↔ SS.Has eqv c s x := fun x => by rw [hi.mem h, SS.has_iff]; rfl
  refine ⟨?_, ?_, ?_⟩
  · simp only [SS.isdisjoint, Bool.not_eq_true', List.any_eq_false, hm]
  · rw [SS.issubset, SS.setCompare_ok hS .le, (SS.Subset.ofList h _ xs).1, SS.Subset.perm hi.perm (.refl xs)]
    simp only [SS.Subset, any_eq_true_iff]
    rfl
  · simp only [SS.issuperset, List.all_eq_true, hm]

/-- C41: every call that reads the set as a sequence answers as the plain sorted list of its values does, and changes
nothing. -/
theorem C41_sequence (hc : c.Orders lt eqv) (hS : S.Lawful eqv) (hs : SS.Reachable S c.api s) (op : SSOp α)
    (op' : Op α) (hop : op.asSequence = some op') :
    (SS.step S c.api op s).1 = (Spec.step (setOrder lt eqv) op' (SS.iter c.api s)).1 ∧
    SS.iter c.api (SS.step S c.api op s).2 = SS.iter c.api s := by
  obtain ⟨O, I, h, rfl⟩ := SS.good hc hS
  have hi := SS.reachable_inv h hs
  have hsame : O.same = eqv := by funext a b; exact h.same a b
  subst hsame
  have q : ∀ {β : Type} {m : Py c.State β} {f : Py (List α) β} (w : β → Out α), Refines I c.api.iter m f →
      (∀ l, (f l).2 = l) → (Spec.out w (onList m) s).1 = (Spec.out w f (SS.iter c.api s)).1 ∧
        SS.iter c.api (Spec.out w (onList m) s).2 = SS.iter c.api s := by
    intro β m f w hm hf
    obtain ⟨s', e, h1, _, _⟩ := SS.onList_query hm hi hf
    simp only [Spec.out, e]
    rcases hfl : f (SS.iter c.api s) with ⟨r, l⟩
    rw [show SS.iter c.api s = c.api.iter s.list from rfl] at hfl
    simp only [hfl]
    cases r
    · exact ⟨rfl, h1⟩
    · exact ⟨rfl, h1⟩
  cases op with
  | getInt i =>
    cases hop
    exact q .val (h.list.getInt i) (fun l => by simp only [Spec.getInt]; split <;> rfl)
  | getSlice sl =>
    cases hop
    exact q .vals (h.list.getSlice sl) (fun l => by simp only [Spec.getSlice]; split <;> rfl)
  | bisectLeft v => cases hop; exact q _ (h.list.bisectLeft v) (fun l => rfl)
  | bisectRight v => cases hop; exact q _ (h.list.bisectRight v) (fun l => rfl)
  | index v a b =>
    cases hop
    exact q _ (h.list.index v a b) (fun l => by simp only [Spec.index]; split <;> rfl)
  | irange lo hi a b r => cases hop; exact q _ (h.list.irange lo hi a b r) (fun l => rfl)
  | islice a b r =>
    cases hop
    exact q _ (h.list.islice a b r) (fun l => by simp only [Spec.islice]; split <;> rfl)
  | contains v =>
    cases hop
    refine ⟨?_, rfl⟩
    simp only [SS.step, Spec.step, Spec.out, SS.read, SS.contains, Spec.contains, hi.mem h]
    rfl
  | len =>
    cases hop
    refine ⟨?_, rfl⟩
    simp only [SS.step, Spec.step, Spec.out, SS.read, SS.length, Spec.len, hi.len h]
    rfl
  | iter => cases hop; exact ⟨rfl, rfl⟩
  | reversed =>
    cases hop
    refine ⟨?_, rfl⟩
    have := (h.list.reversed s.list hi.list).1
    simp only [ListAPI.read, Spec.reversed, Except.ok.injEq] at this
    simp only [SS.step, Spec.step, Spec.out, SS.read, SS.reversed, Spec.reversed, this]
    rfl
  | count v =>
    cases hop
    refine ⟨?_, rfl⟩
    have hd := hi.distinct' h
    simp only [SS.step, Spec.step, Spec.out, SS.read, SS.count, Spec.count, hi.mem h]
    have : (if (c.api.iter s.list).any (O.same · v) = true then 1 else 0) =
        (SS.iter c.api s).countP fun y => O.same y v := by
      change (if (SS.iter c.api s).any (O.same · v) = true then 1 else 0) = _
      generalize SS.iter c.api s = l at hd
      induction l with
      | nil => rfl
      | cons a l ih =>
        obtain ⟨h1, h2⟩ := List.pairwise_cons.1 hd
        rw [List.any_cons, List.countP_cons]
        by_cases ha : O.same a v = true
        · have : l.countP (fun y => O.same y v) = 0 := by
            rw [List.countP_eq_zero]
            intro b hb hbv
            have := h1 b hb
            rw [h.equiv.trans a v b ha (by rw [h.equiv.symm]; exact hbv)] at this
            cases this
          rw [if_pos ha, this, ha]
          rfl
        · rw [Bool.not_eq_true] at ha
          simp only [ha, Bool.false_or, Bool.false_eq_true, if_false, Nat.add_zero]
          exact ih h2
    rw [this]
    rfl
  | _ => cases hop

/-- C42, part: `copy`, `|`, `&`, `-`, `^` and the reflected `|`, `&`, `^` give sets that sort as the operand does: the
result is a set of the same list class `c`, in the order `lt`.  Missing: the reflected `-`, see
`C42_rsub_forgets_key`. -/
theorem C42_operators_keep_key_partial (hc : c.Orders lt eqv) (hS : S.Lawful eqv) (hs : SS.Reachable S c.api s)
    (xss : List (List α)) (xs : List α) (s' : SS τ c.State)
    (h : SS.copy S c.api s = .ok s' ∨ SS.union S c.api xss s = .ok s' ∨ SS.intersection S c.api xss s = .ok s' ∨
      SS.difference S c.api xss s = .ok s' ∨ SS.symmetricDifference S c.api xs s = .ok s') :
    SS.Reachable S c.api s' ∧ Sorted lt (SS.iter c.api s') := by
  have hr : SS.Reachable S c.api s' := by
    rcases h with h | h | h | h | h
    · exact .copy hs h
    · exact .union hs h
    · exact .intersection hs h
    · exact .difference hs h
    · exact .symmetricDifference hs h
  exact ⟨hr, (C36_two_stores hc hS hr).1⟩

/-- C42: what `other - ss` does give: the values of `other` that are not in the set, in a sorted set without key. -/
theorem C42_rsub_result {E : Env α} {lt0 : α → α → Bool} (hc : c.Orders lt eqv) (hE : E.Lawful lt0)
    (hE' : ∀ a b, eqv a b = equiv lt0 a b) (hS : S.Lawful eqv) (hs : SS.Reachable S c.api s) (other : List α) :
    ∃ s' : SS τ (ListClass.plain E).State, SS.rsub S (ListClass.plain E).api other s = .ok s' ∧
      SS.Reachable S (ListClass.plain E).api s' ∧ Sorted lt0 (SS.iter (ListClass.plain E).api s') ∧
      ∀ x, SS.Has eqv (.plain E) s' x ↔ (∃ y ∈ other, eqv y x = true) ∧ ¬ SS.Has eqv c s x := by
  have hc0 : (ListClass.plain E).Orders lt0 eqv := .plain hE hE'
  obtain ⟨s', e, hr, hm⟩ := C38_new hc0 hS (some (other.filter fun v => !SS.contains S v s))
  refine ⟨s', e, hr, (C36_two_stores hc0 hS hr).1, fun x => ?_⟩
  rw [hm, Option.getD_some]
  have he : IsEquiv eqv := ⟨hS.refl, hS.symm, hS.trans⟩
  have hcon := (C36_two_stores hc hS hs).2.2.1
  have hcongr : ∀ y, eqv y x = true → (SS.contains S y s = true ↔ SS.Has eqv c s x) := by
    intro y hy
    rw [hcon]
    change SS.Has eqv c s y ↔ _
    rw [SS.has_iff, SS.has_iff, any_congr_eqv he hy]
  constructor
  · rintro ⟨y, hy, hyx⟩
    rw [List.mem_filter, Bool.not_eq_true', ← Bool.not_eq_true, hcongr y hyx] at hy
    exact ⟨⟨y, hy.1, hyx⟩, hy.2⟩
  · rintro ⟨⟨y, hy, hyx⟩, hn⟩
    refine ⟨y, List.mem_filter.2 ⟨hy, ?_⟩, hyx⟩
    rw [Bool.not_eq_true', ← Bool.not_eq_true, hcongr y hyx]
    exact hn

/-- C23 for sets: rebuilding a set from its `__reduce__` tuple gives a set with the same values. -/
theorem C23_set_pickle (hc : c.Orders lt eqv) (hS : S.Lawful eqv) (hs : SS.Reachable S c.api s) :
    ∃ s', SS.new S c.api (some (SS.reduceArgs S s)) = .ok s' ∧ SS.Reachable S c.api s' ∧
      SS.compare S .eq s.set s' = true ∧ ∀ x, x ∈ SS.iter c.api s' ↔ x ∈ SS.iter c.api s := by
  obtain ⟨O, I, h, rfl⟩ := SS.good hc hS
  have hi := SS.reachable_inv h hs
  obtain ⟨s', e, hi', h2⟩ := SS.new_ok h (some (SS.reduceArgs S s))
  have hd : Distinct eqv (SS.reduceArgs S s) := hS.distinct _
  rw [Option.getD_some, foldl_addNew_of_distinct (l := []) hd, List.nil_append] at h2
  have hf : (SS.reduceArgs S s).filter (fun y => !([] : List α).any fun x => eqv x y) = SS.reduceArgs S s :=
    List.filter_eq_self.2 fun _ _ => rfl
  rw [hf] at h2
  have hm : ∀ x, x ∈ SS.iter c.api s' ↔ x ∈ SS.iter c.api s := fun x => h2.mem_iff.trans hi.perm.mem_iff
  refine ⟨s', e, .new e, ?_, hm⟩
  refine (C40_comparisons hc hc hS (.new e) hs).1.2 fun x => ?_
  simp only [SS.Has, hm]

end General

/-- C41: with a key function, `bisect_key_left(k)`, `bisect_key_right(k)` count the values whose key is `< k` and `<= k`,
and `irange_key` yields the values whose key lies between the bounds. -/
theorem C41_key_searches {τ α κ : Type} {S : SetOps τ α} {K : KEnv α κ} {key : α → κ} {klt : κ → κ → Bool}
    {eqv : α → α → Bool} (hK : K.Lawful key klt eqv) (he : ∀ a b, eqv a b = true → equiv klt (key a) (key b) = true)
    (hS : S.Lawful eqv) {s : SS τ (St α κ)} (hs : SS.Reachable S (SKL.api K) s) (k : κ) (lo hi : Option κ)
    (incMin incMax rev : Bool) :
    let l := SS.iter (SKL.api K) s
    let between := fun x => (∀ m, lo = some m → klt (key x) m = false ∧ (incMin = true ∨ klt m (key x) = true)) ∧
      (∀ m, hi = some m → klt m (key x) = false ∧ (incMax = true ∨ klt (key x) m = true))
    ∃ s1 s2 s3 r, SS.onList (SKL.bisect_key_left K k) s = (.ok (l.countP fun x => klt (key x) k), s1) ∧
      SS.onList (SKL.bisect_key_right K k) s = (.ok (l.countP fun x => !klt k (key x)), s2) ∧
      SS.onList (SKL.irange_key K lo hi incMin incMax rev) s = (.ok (if rev then r.reverse else r), s3) ∧
      r.Sublist l ∧ (∀ x, x ∈ r ↔ x ∈ l ∧ between x) ∧
      SS.iter (SKL.api K) s1 = l ∧ SS.iter (SKL.api K) s2 = l ∧ SS.iter (SKL.api K) s3 = l := by
  intro l between
  have h : SS.Good S (SKL.api K) (Spec.Order.ofKey key klt eqv K.vcmp) eqv (Inv key klt true) :=
    ⟨hS, SKL.api_lawful hK, fun a b => by
      simp only [Spec.Order.ofKey]
      cases hv : eqv a b
      · simp
      · rw [he a b hv]; rfl⟩
  have hi' := SS.reachable_inv h hs
  obtain ⟨s1, e1, h1, _⟩ := SS.onList_query (SKL.bisect_key_left_refines hK k) hi' (fun _ => rfl)
  obtain ⟨s2, e2, h2, _⟩ := SS.onList_query (SKL.bisect_key_right_refines hK k) hi' (fun _ => rfl)
  obtain ⟨s3, e3, h3, _⟩ := SS.onList_query (SKL.irange_key_refines hK lo hi incMin incMax rev) hi' (fun _ => rfl)
  refine ⟨s1, s2, s3, _, e1, e2, e3, List.filter_sublist, fun x => ?_, h1, h2, h3⟩
  rw [List.mem_filter]
  refine and_congr_right fun _ => ?_
  rw [Bool.and_eq_true]
  refine and_congr ?_ ?_
  · cases lo with
    | none => simp [Spec.aboveKey]
    | some m =>
      simp only [Spec.aboveKey, Option.some.injEq]
      cases incMin with
      | true => simp
      | false =>
        simp only [Bool.false_eq_true, if_false, false_or]
        exact ⟨fun h m' e => e ▸ ⟨hK.order.asymm _ _ h, h⟩, fun h => (h m rfl).2⟩
  · cases hi with
    | none => simp [Spec.belowKey]
    | some m =>
      simp only [Spec.belowKey, Option.some.injEq]
      cases incMax with
      | true => simp
      | false =>
        simp only [Bool.false_eq_true, if_false, false_or]
        exact ⟨fun h m' e => e ▸ ⟨hK.order.asymm _ _ h, h⟩, fun h => (h m rfl).2⟩

/-! ## Cases that meet the hypotheses, and counterexamples -/

namespace Demo

theorem ieqv_equiv : IsEquiv (equiv ilt) where
  refl a := by simp [equiv, ilt]
  symm a b := by simp [equiv, ilt, Bool.and_comm]
  trans a b c h1 h2 := by simp [equiv, ilt] at *; omega

/-- Built-in sets of integers, iterated in insertion order (`false`) or against it (`true`). -/
abbrev iset (flip : Bool) : SetOps { l : List Int // Distinct (equiv ilt) l } Int := listSet (equiv ilt) ieqv_equiv flip

theorem iset_lawful (flip : Bool) : (iset flip).Lawful (equiv ilt) := listSet_lawful _ _ _

abbrev intClass : ListClass Int := .plain intEnv
abbrev tensClass : ListClass Int := .keyed tensEnv
abbrev negClass : ListClass Int := .keyed negEnv

theorem intClass_orders : intClass.Orders ilt (equiv ilt) := .plain intEnv_lawful fun _ _ => rfl

theorem tensClass_orders : tensClass.Orders (fun a b => ilt (a / 10) (b / 10)) (equiv ilt) :=
  .keyed tensEnv_lawful fun a b h => by simp [equiv, ilt] at *; omega

theorem negClass_orders : negClass.Orders (fun a b => ilt (-a) (-b)) (equiv ilt) :=
  .keyed negEnv_lawful fun a b h => by simp [equiv, ilt] at *; omega

theorem set_reachable_hist {τ σ : Type} {S : SetOps τ Int} {L : ListAPI σ Int} {s : SS τ σ} (hs : SS.Reachable S L s)
    (ops : List (SSOp Int)) (ho : ∀ op ∈ ops, op.Valid) : SS.Reachable S L (runHist (SS.step S L) ops s).2 := by
  induction ops generalizing s with
  | nil => exact hs
  | cons o ops ih => exact ih (.step o (ho o (by simp)) hs) fun o' h' => ho o' (by simp [h'])

/-- `ss._reset(1); ss.add(62); ss.discard(10); ss.update([25, 83], [31]); ss -= [97]; ss[2]; ss ^= [44, 38]` -/
def setOps : List (SSOp Int) := [.reset 1, .add 62, .discard 10, .update [[25, 83], [31]], .differenceUpdate [[97]],
  .getInt 2, .symmetricDifferenceUpdate [44, 38]]

theorem setOps_valid : ∀ op ∈ setOps, op.Valid := by simp [setOps, SSOp.Valid]

/-- `SortedSet([52, 10, 31, 31, 97, 71, 44])` -/
def setStart : SS { l : List Int // Distinct (equiv ilt) l } intClass.State :=
  (SS.update (iset true) intClass.api [[52, 10, 31, 31, 97, 71, 44]] ⟨(iset true).empty, (St.empty : St Int Int)⟩).2

theorem setStart_new : SS.new (iset true) intClass.api (some [52, 10, 31, 31, 97, 71, 44]) = .ok setStart := by rfl

def set1 : SS { l : List Int // Distinct (equiv ilt) l } intClass.State :=
  (runHist (SS.step (iset true) intClass.api) setOps setStart).2

theorem set1_reachable : SS.Reachable (iset true) intClass.api set1 :=
  set_reachable_hist (.new setStart_new) _ setOps_valid

example : SS.iter intClass.api set1 = [25, 31, 38, 52, 62, 71, 83] := by decide +kernel

/-- `SortedSet([52, 10, 35, 31, 35, 71, 44], key=lambda x: x // 10)` -/
def ksetStart : SS { l : List Int // Distinct (equiv ilt) l } tensClass.State :=
  (SS.update (iset true) tensClass.api [[52, 10, 35, 31, 35, 71, 44]] ⟨(iset true).empty, (St.empty : St Int Int)⟩).2

theorem ksetStart_new : SS.new (iset true) tensClass.api (some [52, 10, 35, 31, 35, 71, 44]) = .ok ksetStart := by rfl

/-- `ss._reset(1); ss.add(38); ss.add(57); ss.add(31); ss[3]; del ss[0]` -/
def ksetOps : List (SSOp Int) := [.reset 1, .add 38, .add 57, .add 31, .getInt 3, .delInt 0]

theorem ksetOps_valid : ∀ op ∈ ksetOps, op.Valid := by simp [ksetOps, SSOp.Valid]

def set2 : SS { l : List Int // Distinct (equiv ilt) l } tensClass.State :=
  (runHist (SS.step (iset true) tensClass.api) ksetOps ksetStart).2

theorem set2_reachable : SS.Reachable (iset true) tensClass.api set2 :=
  set_reachable_hist (.new ksetStart_new) _ ksetOps_valid

/-- Values with the same key stand in the order in which the built-in set yielded them. -/
example : SS.iter tensClass.api set2 = [35, 31, 38, 44, 52, 57, 71] := by decide +kernel

/-- The hypotheses of the theorems above are met by both sets. -/
example := C36_two_stores intClass_orders (iset_lawful true) set1_reachable
example := C36_two_stores tensClass_orders (iset_lawful true) set2_reachable
example := C36_history intClass_orders (iset_lawful true) (fun a b => by rw [Bool.eq_iff_iff]; simp [equiv, ilt]; omega)
  (fun a b h1 h2 => by simp [ilt] at h1 h2; omega) setStart_new setOps setOps_valid
example := C37_add tensClass_orders (iset_lawful true) set2_reachable 39
example := C37_remove tensClass_orders (iset_lawful true) set2_reachable 38
example := C37_pop tensClass_orders (iset_lawful true) set2_reachable (-2)
example := C37_delslice tensClass_orders (iset_lawful true) set2_reachable { start := some 1, stop := some (-1), step := some 2 }
example := C38_union tensClass_orders (iset_lawful true) set2_reachable [[1, 38], [99]]
example := C39_update tensClass_orders (iset_lawful true) set2_reachable [[1, 38], [99]]
example := C39_update tensClass_orders (iset_lawful true) set2_reachable [[36]]
example := C39_difference_update tensClass_orders (iset_lawful true) set2_reachable [[35], [71, 44]]
example := C40_comparisons intClass_orders tensClass_orders (iset_lawful true) set1_reachable set2_reachable
example := C41_sequence tensClass_orders (iset_lawful true) set2_reachable (.index 31 none (some (-1))) _ rfl
example := C41_key_searches tensEnv_lawful (fun a b h => by simp [equiv, ilt] at *; omega) (iset_lawful true)
  set2_reachable 3 (some 3) (some 5) true false true
example := C23_set_pickle tensClass_orders (iset_lawful true) set2_reachable

end Demo

/-- C42 is false for the reflected difference: `[1, 2] - SortedSet([], key=neg)` is in the order `1, 2`, not in that of the
key. -/
theorem C42_rsub_forgets_key : ∃ (s : SS _ Demo.negClass.State) (s' : SS _ Demo.intClass.State),
    SS.Reachable (Demo.iset false) Demo.negClass.api s ∧
    SS.rsub (Demo.iset false) Demo.intClass.api [1, 2] s = .ok s' ∧
    ¬ Sorted (fun a b => Demo.ilt (-a) (-b)) (SS.iter Demo.intClass.api s') := by
  refine ⟨_, _, .new (xs := none) rfl, rfl, ?_⟩
  have h : ∀ {l : List Int}, l = [1, 2] → ¬ Sorted (fun a b => Demo.ilt (-a) (-b)) l := by
    rintro l rfl; simp [Sorted, Demo.ilt]
  exact h (by decide +kernel)

end Verif
