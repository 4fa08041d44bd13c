import Verif.Props.Equality
import Verif.Props.SortedSet
import Verif.Props.SortedDict
import Verif.Proofs.EqualitySets
/-!
# C78: sets and dicts of values that `<` does not tell apart although they are different

A SortedSet or a SortedDict without key function.  `<` is a strict weak order, `==` is an equivalence `eqv`, and equal values are not ordered; but
values that are not ordered may be different (`Env.Finer`).  The sorted list inside finds a value only if it comes first among those that `<` does not
tell apart from it (`ComesFirst`).  As long as values are removed only when they come first, all is well; a removal of another value raises ValueError
half-way.
-/

namespace Verif
open Equality.Sets

section Sets
variable {τ α : Type} {S : SetOps τ α} {E : Env α} {lt eqv : α → α → Bool} {s : SS τ (St α α)}

/-- Iteration yields a value equal to `x`. -/
def SS.Yields (E : Env α) (eqv : α → α → Bool) (s : SS τ (St α α)) (x : α) : Prop := ∃ y ∈ SS.iter (SL.api E) s, eqv y x = true

theorem SS.yields_iff {x : α} : SS.Yields E eqv s x ↔ (SS.iter (SL.api E) s).any (eqv · x) = true := any_eq_true_iff.symm

/-- C78: after tame calls, iteration is sorted and yields no two equal values; `in` is membership in what iteration yields; `len` is the number of values it
yields. -/
theorem C78_set_two_stores (hE : E.Finer lt eqv) (hS : S.Lawful eqv) (hs : SS.TameReachable S (SL.api E) lt eqv s) :
    Sorted lt (SS.iter (SL.api E) s) ∧ (SS.iter (SL.api E) s).Pairwise (fun a b => eqv a b = false) ∧
    (∀ v, SS.contains S v s = true ↔ ∃ y ∈ SS.iter (SL.api E) s, eqv y v = true) ∧
    SS.length S s = (SS.iter (SL.api E) s).length := by
  have h := good hE hS
  have hi := set_reachable_inv hE hS hs
  have h1 : Sorted lt (SS.iter (patched E lt eqv) s) ∧ (SS.iter (patched E lt eqv) s).Pairwise (fun a b => eqv a b = false) ∧
      (∀ v, SS.contains S v s = true ↔ ∃ y ∈ SS.iter (patched E lt eqv) s, eqv y v = true) ∧
      SS.length S s = (SS.iter (patched E lt eqv) s).length := by
    refine ⟨hi.sorted h, hi.distinct h, fun v => ?_, hi.len h⟩
    rw [SS.contains, hi.mem h]
    exact any_eq_true_iff
  exact h1

/-- C78: `add(v)` changes nothing if an equal value is there; else it inserts `v` after all values that are not greater, and before all that are. -/
theorem C78_set_add (hE : E.Finer lt eqv) (hS : S.Lawful eqv) (hs : SS.TameReachable S (SL.api E) lt eqv s) (v : α) :
    ∃ s', SS.add S (SL.api E) v s = (.ok (), s') ∧
      ((SS.Yields E eqv s v ∧ SS.iter (SL.api E) s' = SS.iter (SL.api E) s) ∨
       (¬ SS.Yields E eqv s v ∧ ∃ A B, SS.iter (SL.api E) s = A ++ B ∧ SS.iter (SL.api E) s' = A ++ v :: B ∧
          (∀ a ∈ A, lt v a = false) ∧ ∀ b ∈ B, lt v b = true)) := by
  have h := good hE hS
  have hi := set_reachable_inv hE hS hs
  obtain ⟨s', e, _, h2⟩ := SS.add_ok h hi v
  change SS.iter (SL.api E) s' = if (SS.iter (SL.api E) s).any (eqv · v) then SS.iter (SL.api E) s else
    Spec.insert (order E lt eqv) (SS.iter (SL.api E) s) v at h2
  refine ⟨s', e, ?_⟩
  by_cases hv : (SS.iter (SL.api E) s).any (eqv · v) = true
  · rw [if_pos hv] at h2
    exact .inl ⟨SS.yields_iff.2 hv, h2⟩
  · rw [if_neg hv] at h2
    obtain ⟨A, B, h3, h4, h5⟩ := Spec.sorted_split_right h.list.order (hi.sorted h) v
    exact .inr ⟨fun hh => hv (SS.yields_iff.1 hh), A, B, h3, h2.trans (Spec.insert_split h3 h4 h5), h4, h5⟩

/-- C78: `discard(v)` of a value that comes first (or is not there) does not raise, and drops it; the other values stay in order. -/
theorem C78_set_discard (hE : E.Finer lt eqv) (hS : S.Lawful eqv) (hs : SS.TameReachable S (SL.api E) lt eqv s) {v : α}
    (hv : ComesFirst lt eqv v (SS.iter (SL.api E) s)) :
    ∃ s', SS.discard S (SL.api E) v s = (.ok (), s') ∧
      SS.iter (SL.api E) s' = (SS.iter (SL.api E) s).filter fun y => !eqv y v := by
  obtain ⟨s', e, _, h2⟩ := SS.discard_ok (good hE hS) (set_reachable_inv hE hS hs) v
  exact ⟨s', (set_discard_eq hv).trans e, h2⟩

/-- C78: `remove(v)` of a value that comes first drops it; KeyError if it is not there, and then nothing at all changes. -/
theorem C78_set_remove (hE : E.Finer lt eqv) (hS : S.Lawful eqv) (hs : SS.TameReachable S (SL.api E) lt eqv s) {v : α}
    (hv : ComesFirst lt eqv v (SS.iter (SL.api E) s)) :
    (SS.Yields E eqv s v ∧ ∃ s', SS.remove S (SL.api E) v s = (.ok (), s') ∧
        SS.iter (SL.api E) s' = (SS.iter (SL.api E) s).filter fun y => !eqv y v) ∨
    (¬ SS.Yields E eqv s v ∧ SS.remove S (SL.api E) v s = (.error .keyError, s)) := by
  have h := good hE hS
  have hi := set_reachable_inv hE hS hs
  rw [set_remove_eq hv]
  by_cases hp : (SS.iter (SL.api E) s).any (eqv · v) = true
  · obtain ⟨s', e, _, h2⟩ := SS.removePresent_ok h hi hp
    exact .inl ⟨SS.yields_iff.2 hp, s', e, h2⟩
  · exact .inr ⟨fun hh => hp (SS.yields_iff.1 hh), SS.remove_absent h hi (by rw [Bool.not_eq_true] at hp; exact hp)⟩

/-- C78: `remove(v)` and `discard(v)` of a value that does not come first raise ValueError, and leave the set torn: `v in ss` is false, and so is
`len(ss)` by one, while iteration still yields `v`. -/
theorem C78_set_lost (hE : E.Finer lt eqv) (hS : S.Lawful eqv) (hs : SS.TameReachable S (SL.api E) lt eqv s) {v : α}
    (hv : ¬ ComesFirst lt eqv v (SS.iter (SL.api E) s)) :
    ∃ s', SS.remove S (SL.api E) v s = (.error .valueError, s') ∧ SS.discard S (SL.api E) v s = (.error .valueError, s') ∧
      SS.iter (SL.api E) s' = SS.iter (SL.api E) s ∧ SS.Yields E eqv s' v ∧
      (∀ x, SS.contains S x s' = (SS.contains S x s && !eqv v x)) ∧ SS.length S s' + 1 = SS.length S s := by
  have h := good hE hS
  have hi := set_reachable_inv hE hS hs
  have hp : (SS.iter (SL.api E) s).any (eqv · v) = true := by
    rcases Bool.eq_false_or_eq_true ((SS.iter (SL.api E) s).any (eqv · v)) with hp | hp
    · exact hp
    · exact absurd (fun hx => absurd (present.2 hx) (by rw [hp]; simp)) hv
  obtain ⟨t, et, ht⟩ := SS.setRemove_run h (s := s) (v := v) (by rw [any_perm hi.perm]; exact hp)
  obtain ⟨l', e', h1, h2⟩ := (Equality.SL.remove_refines hE.toOrdered v).eq_of hi.list
    (remove_lost hE (l := Core.iter s.list) hv)
  have hr : SS.remove S (SL.api E) v s = (.error .valueError, { set := t, list := l' }) := by
    unfold SS.remove
    rw [Py.bind_ok et]
    unfold SS.onList
    simp only [show (SL.api E).remove v s.list = (.error .valueError, l') from e']
  have hmem : S.mem v s.set = true := by rw [hi.mem h]; exact hp
  have hd : SS.discard S (SL.api E) v s = (.error .valueError, { set := t, list := l' }) := by
    rw [← hr]
    unfold SS.discard SS.remove
    simp only [Py.get_bind, Py.ite_apply', hmem, if_true]
  have hcont : ∀ x, S.mem x t = (S.mem x s.set && !eqv v x) := by
    intro x
    rw [hS.mem, hS.mem, any_perm ht, Bool.eq_iff_iff]
    simp only [List.any_eq_true, List.mem_filter, Bool.and_eq_true, Bool.not_eq_true']
    constructor
    · rintro ⟨y, ⟨hy, hyv⟩, hyx⟩
      refine ⟨⟨y, hy, hyx⟩, ?_⟩
      cases hvx : eqv v x with
      | false => rfl
      | true =>
        have := hS.trans y x v hyx (by rw [hS.symm]; exact hvx)
        rw [hyv] at this; cases this
    · rintro ⟨⟨y, hy, hyx⟩, hvx⟩
      refine ⟨y, ⟨hy, ?_⟩, hyx⟩
      cases hyv : eqv y v with
      | false => rfl
      | true =>
        have := hS.trans v y x (by rw [hS.symm]; exact hyv) hyx
        rw [hvx] at this; cases this
  refine ⟨_, hr, hd, h1, ?_, hcont, ?_⟩
  · obtain ⟨y, hy, hyv⟩ := present.1 hp
    exact ⟨y, by show y ∈ Core.iter l'; rw [h1]; exact hy, hyv⟩
  · show S.len t + 1 = S.len s.set
    rw [hS.len, hS.len, ht.length_eq]
    have hd : Distinct eqv (S.toList s.set) := hS.distinct _
    have hp2 : (S.toList s.set).any (eqv · v) = true := by rw [any_perm hi.perm]; exact hp
    obtain ⟨y, hy, hyv⟩ := present.1 hp2
    rw [← hd.eraseP_eq_filter h.equiv, List.length_eraseP_of_mem hy hyv]
    have := List.length_pos_of_mem hy
    omega

/-- C78: `pop(i)` returns the value at position `i` and removes exactly that one; IndexError exactly out of range, values unchanged. -/
theorem C78_set_pop (hE : E.Finer lt eqv) (hS : S.Lawful eqv) (hs : SS.TameReachable S (SL.api E) lt eqv s) (i : Int) :
    let l := SS.iter (SL.api E) s
    ∃ s', (∃ (n : Nat) (h : n < l.length), (i = n ∨ i = (n : Int) - l.length) ∧
          SS.pop S (SL.api E) i s = (.ok l[n], s') ∧ SS.iter (SL.api E) s' = l.eraseIdx n) ∨
      ((l.length ≤ i ∨ i < -(l.length : Int)) ∧ SS.pop S (SL.api E) i s = (.error .indexError, s') ∧ SS.iter (SL.api E) s' = l) := by
  intro l
  obtain ⟨s', e, _, h2⟩ := SS.pop_ok (good hE hS) (set_reachable_inv hE hS hs) i
  change SS.pop S (SL.api E) i s = ((Spec.pop i l).1, s') at e
  change SS.iter (SL.api E) s' = (Spec.pop i l).2 at h2
  refine ⟨s', ?_⟩
  rcases position_cases l.length i with ⟨n, hn, rfl, hp⟩ | ⟨n, hn, rfl, hp⟩ | ⟨hi, hp⟩
  · simp only [Spec.pop, hp, List.getElem?_eq_getElem hn] at e h2
    exact .inl ⟨n, hn, .inl rfl, e, h2⟩
  · have hn' : l.length - 1 - n < l.length := by omega
    simp only [Spec.pop, hp, List.getElem?_eq_getElem hn'] at e h2
    exact .inl ⟨_, hn', .inr (by omega), e, h2⟩
  · simp only [Spec.pop, hp] at e h2
    exact .inr ⟨hi, e, h2⟩

/-- C78: `del ss[i]` removes exactly the value at position `i`; IndexError exactly out of range, values unchanged. -/
theorem C78_set_delitem (hE : E.Finer lt eqv) (hS : S.Lawful eqv) (hs : SS.TameReachable S (SL.api E) lt eqv s) (i : Int) :
    let l := SS.iter (SL.api E) s
    ∃ s', (∃ n, n < l.length ∧ (i = n ∨ i = (n : Int) - l.length) ∧
          SS.delInt S (SL.api E) i s = (.ok (), s') ∧ SS.iter (SL.api E) s' = l.eraseIdx n) ∨
      ((l.length ≤ i ∨ i < -(l.length : Int)) ∧ SS.delInt S (SL.api E) i s = (.error .indexError, s') ∧
        SS.iter (SL.api E) s' = l) := by
  intro l
  obtain ⟨s', e, _, h2⟩ := SS.delInt_ok (good hE hS) (set_reachable_inv hE hS hs) i
  change SS.delInt S (SL.api E) i s = ((Spec.delInt i l).1, s') at e
  change SS.iter (SL.api E) s' = (Spec.delInt i l).2 at h2
  refine ⟨s', ?_⟩
  rcases position_cases l.length i with ⟨n, hn, rfl, hp⟩ | ⟨n, hn, rfl, hp⟩ | ⟨hi, hp⟩
  · simp only [Spec.delInt, hp] at e h2
    exact .inl ⟨n, hn, .inl rfl, e, h2⟩
  · simp only [Spec.delInt, hp] at e h2
    exact .inl ⟨_, by omega, .inr (by omega), e, h2⟩
  · simp only [Spec.delInt, hp] at e h2
    exact .inr ⟨hi, e, h2⟩

/-- C78: `update`, whatever the sizes: the values of the set, which are kept, and those of all iterables. -/
theorem C78_set_update (hE : E.Finer lt eqv) (hS : S.Lawful eqv) (hs : SS.TameReachable S (SL.api E) lt eqv s) (xss : List (List α)) :
    ∃ s', SS.update S (SL.api E) xss s = (.ok (), s') ∧
      (∀ x, SS.Yields E eqv s' x ↔ SS.Yields E eqv s x ∨ ∃ xs ∈ xss, ∃ y ∈ xs, eqv y x = true) ∧
      (∀ x ∈ SS.iter (SL.api E) s, x ∈ SS.iter (SL.api E) s') ∧
      (∀ x ∈ SS.iter (SL.api E) s', x ∈ SS.iter (SL.api E) s ∨ ∃ xs ∈ xss, x ∈ xs) := by
  obtain ⟨s', e, _, h2⟩ := SS.update_ok (good hE hS) xss (set_reachable_inv hE hS hs)
  exact ⟨s', e, SS.union_facts (c := .plain E) (good hE hS).equiv h2⟩

/-- C78: `difference_update` with values that no other value of the set is like, whatever the sizes: exactly the values of the set that are in no
iterable. -/
theorem C78_set_difference_update (hE : E.Finer lt eqv) (hS : S.Lawful eqv) (hs : SS.TameReachable S (SL.api E) lt eqv s)
    (xss : List (List α)) (hx : ∀ v ∈ xss.flatten, NoOther lt eqv v (SS.iter (SL.api E) s)) :
    ∃ s', SS.differenceUpdate S (SL.api E) xss s = (.ok (), s') ∧
      ∀ x, x ∈ SS.iter (SL.api E) s' ↔ x ∈ SS.iter (SL.api E) s ∧ ¬ ∃ xs ∈ xss, ∃ y ∈ xs, eqv y x = true := by
  have hi := set_reachable_inv hE hS hs
  obtain ⟨s', e, _, h2⟩ := SS.differenceUpdate_ok (good hE hS) xss hi
  exact ⟨s', (set_differenceUpdate_eq hE hS xss hi hx).trans e, SS.difference_facts (c := .plain E) h2⟩

/-- C78: `difference_update` with more than a quarter as many values as the set has: no condition is needed, as the list is sorted anew. -/
theorem C78_set_difference_update_many (hE : E.Finer lt eqv) (hS : S.Lawful eqv) (hs : SS.TameReachable S (SL.api E) lt eqv s)
    (xss : List (List α)) (hx : (SS.iter (SL.api E) s).length < 4 * (xss.flatten.foldl (addNew eqv) []).length) :
    ∃ s', SS.differenceUpdate S (SL.api E) xss s = (.ok (), s') ∧
      ∀ x, x ∈ SS.iter (SL.api E) s' ↔ x ∈ SS.iter (SL.api E) s ∧ ¬ ∃ xs ∈ xss, ∃ y ∈ xs, eqv y x = true := by
  have hi := set_reachable_inv hE hS hs
  obtain ⟨s', e, _, h2⟩ := SS.differenceUpdate_ok (good hE hS) xss hi
  refine ⟨s', ?_, SS.difference_facts (c := .plain E) h2⟩
  rw [← e]
  unfold SS.differenceUpdate
  have hl : 4 * S.len (S.ofList xss.flatten) > S.len s.set := by
    rw [hi.len (good hE hS), hS.len, (hS.ofList _).length_eq]
    exact hx
  simp only [Py.get_bind, Py.ite_apply', if_pos hl]
  rfl

/-- C78: `intersection_update`: the values of the set that are in every iterable. -/
theorem C78_set_intersection_update (hE : E.Finer lt eqv) (hS : S.Lawful eqv) (hs : SS.TameReachable S (SL.api E) lt eqv s)
    (xss : List (List α)) :
    ∃ s', SS.intersectionUpdate S (SL.api E) xss s = (.ok (), s') ∧
      ∀ x, SS.Yields E eqv s' x ↔ SS.Yields E eqv s x ∧ ∀ xs ∈ xss, ∃ y ∈ xs, eqv y x = true := by
  obtain ⟨s', e, _, h2⟩ := SS.intersectionUpdate_ok (good hE hS) xss (set_reachable_inv hE hS hs)
  refine ⟨s', e, fun x => ?_⟩
  rw [SS.yields_iff, show (SS.iter (SL.api E) s').any (eqv · x) = _ from h2 x, Bool.and_eq_true]
  refine and_congr SS.yields_iff.symm ?_
  rw [List.all_eq_true]
  simp only [any_eq_true_iff]

/-- C78: `symmetric_difference_update`: the values in exactly one of the set and the iterable. -/
theorem C78_set_symmetric_difference_update (hE : E.Finer lt eqv) (hS : S.Lawful eqv)
    (hs : SS.TameReachable S (SL.api E) lt eqv s) (xs : List α) :
    ∃ s', SS.symmetricDifferenceUpdate S (SL.api E) xs s = (.ok (), s') ∧
      ∀ x, SS.Yields E eqv s' x ↔
        (SS.Yields E eqv s x ∧ ¬ ∃ y ∈ xs, eqv y x = true) ∨ (¬ SS.Yields E eqv s x ∧ ∃ y ∈ xs, eqv y x = true) := by
  obtain ⟨s', e, _, h2⟩ := SS.symmetricDifferenceUpdate_ok (good hE hS) xs (set_reachable_inv hE hS hs)
  refine ⟨s', e, fun x => ?_⟩
  rw [SS.yields_iff, SS.yields_iff, show (SS.iter (SL.api E) s').any (eqv · x) = _ from h2 x, ← any_eq_true_iff]
  rw [show SS.iter (patched E lt eqv) s = SS.iter (SL.api E) s from rfl]
  cases (SS.iter (SL.api E) s).any (eqv · x) <;> cases xs.any (eqv · x) <;> simp

/-- C78: `SortedSet(iterable)` -/
theorem C78_set_new (hE : E.Finer lt eqv) (hS : S.Lawful eqv) (xs : Option (List α)) :
    ∃ s', SS.new S (SL.api E) xs = .ok s' ∧ SS.TameReachable S (SL.api E) lt eqv s' ∧
      ∀ x, SS.Yields E eqv s' x ↔ ∃ y ∈ xs.getD [], eqv y x = true := by
  obtain ⟨s', e, _, h2⟩ := SS.new_ok (good hE hS) xs
  refine ⟨s', e, .new e, fun x => ?_⟩
  refine (SS.has_of_perm (c := .plain E) h2 x).trans ?_
  rw [any_foldl_addNew (good hE hS).equiv, List.any_nil, Bool.false_or, any_eq_true_iff]

/-- C78: `copy`, `|`, `&`, `-`, `^` give new sets with the right values, whatever is in the operands. -/
theorem C78_set_operations (hE : E.Finer lt eqv) (hS : S.Lawful eqv) (hs : SS.TameReachable S (SL.api E) lt eqv s) (xss : List (List α))
    (xs : List α) :
    (∃ s', SS.copy S (SL.api E) s = .ok s' ∧ ∀ x, x ∈ SS.iter (SL.api E) s' ↔ x ∈ SS.iter (SL.api E) s) ∧
    (∃ s', SS.union S (SL.api E) xss s = .ok s' ∧
      ∀ x, SS.Yields E eqv s' x ↔ SS.Yields E eqv s x ∨ ∃ xs ∈ xss, ∃ y ∈ xs, eqv y x = true) ∧
    (∃ s', SS.intersection S (SL.api E) xss s = .ok s' ∧
      ∀ x, SS.Yields E eqv s' x ↔ SS.Yields E eqv s x ∧ ∀ xs ∈ xss, ∃ y ∈ xs, eqv y x = true) ∧
    (∃ s', SS.difference S (SL.api E) xss s = .ok s' ∧
      ∀ x, x ∈ SS.iter (SL.api E) s' ↔ x ∈ SS.iter (SL.api E) s ∧ ¬ ∃ xs ∈ xss, ∃ y ∈ xs, eqv y x = true) ∧
    (∃ s', SS.symmetricDifference S (SL.api E) xs s = .ok s' ∧
      ∀ x, SS.Yields E eqv s' x ↔
        (SS.Yields E eqv s x ∧ ¬ ∃ y ∈ xs, eqv y x = true) ∨ (¬ SS.Yields E eqv s x ∧ ∃ y ∈ xs, eqv y x = true)) := by
  have h := good hE hS
  have hi := set_reachable_inv hE hS hs
  refine ⟨?_, ?_, ?_, ?_, ?_⟩
  · obtain ⟨s', e, _, h2⟩ := SS.copy_ok h hi
    exact ⟨s', e, fun x => h2.mem_iff⟩
  · obtain ⟨s', e, _, h2⟩ := SS.union_ok h xss hi
    exact ⟨s', e, (SS.union_facts (c := .plain E) h.equiv h2).1⟩
  · obtain ⟨s', e, _, h2⟩ := SS.intersection_ok h xss hi
    refine ⟨s', e, fun x => ?_⟩
    rw [SS.yields_iff, show (SS.iter (SL.api E) s').any (eqv · x) = _ from h2 x, Bool.and_eq_true]
    refine and_congr SS.yields_iff.symm ?_
    rw [List.all_eq_true]
    simp only [any_eq_true_iff]
  · obtain ⟨s', e, _, h2⟩ := SS.difference_ok h xss hi
    exact ⟨s', e, SS.difference_facts (c := .plain E) h2⟩
  · obtain ⟨s', e, _, h2⟩ := SS.symmetricDifference_ok h xs hi
    refine ⟨s', e, fun x => ?_⟩
    rw [SS.yields_iff, SS.yields_iff, show (SS.iter (SL.api E) s').any (eqv · x) = _ from h2 x, ← any_eq_true_iff]
    rw [show SS.iter (patched E lt eqv) s = SS.iter (SL.api E) s from rfl]
    cases (SS.iter (SL.api E) s).any (eqv · x) <;> cases xs.any (eqv · x) <;> simp

end Sets

section Dicts
variable {κ ν : Type} {E : Env κ} {lt eqv : κ → κ → Bool} {s : SD κ ν (St κ κ)}

/-- C78: every history of tame calls gives the answers of a plain dict (with `sorted(d)` wherever an order is asked for), and leaves the dict with the same
items and with `sorted(d)` as its iteration. -/
theorem C78_dict_history (hE : E.Finer lt eqv) (he : IsEquiv eqv) {arg : DictArg κ ν} (hf : arg.fail = none)
    (e : SD.new eqv (SL.api E) arg = .ok s) (ops : List (SDOp κ ν)) (hv : ∀ op ∈ ops, op.Valid)
    (ht : SD.TameFrom eqv (SL.api E) lt ops s) :
    let spec := runHist (DictSpec.step eqv (setOrder lt eqv)) ops (PyDict.ofPairs eqv arg.items)
    let real := runHist (SD.step eqv (SL.api E)) ops s
    real.1 = spec.1 ∧ (∀ k, SD.get eqv k real.2 = PyDict.lookup eqv spec.2 k) ∧
      (∀ k, SD.contains eqv k real.2 = PyDict.has eqv spec.2 k) ∧ SD.length real.2 = spec.2.length ∧
      SD.iter (SL.api E) real.2 = DictSpec.sortedKeys (setOrder lt eqv) spec.2 := by
  have h := goodDict hE he
  have hstep : DictSpec.step eqv (setOrder lt eqv) = DictSpec.step (ν := ν) eqv (order E lt eqv) := by
    funext op; exact (DictSpec.step_congr (order E lt eqv) rfl rfl op).symm
  obtain ⟨s', e', h0, hi⟩ := SD.new_ok h hf
  have e2 : SD.new eqv (patched E lt eqv) arg = .ok s := e
  rw [e2] at e'; cases e'
  have hrun : ∀ (ops : List (SDOp κ ν)) (s : SD κ ν (St κ κ)), SD.TameFrom eqv (SL.api E) lt ops s →
      runHist (SD.step eqv (SL.api E)) ops s = runHist (SD.step eqv (patched E lt eqv)) ops s := by
    intro ops
    induction ops with
    | nil => intros; rfl
    | cons op ops ih =>
      intro s ht
      have e := dict_step_eq (E := E) op ht.1
      have e3 := ih _ ht.2
      rw [e] at e3
      simp only [runHist, e]
      rw [e3]
  obtain ⟨r1, r2, r3⟩ := Refines.hist ops (fun op ho => SD.step_refines h op (hv op ho)) hi
  rw [h0] at r1 r2
  rw [hstep]
  simp only [hrun ops s ht]
  refine ⟨r1, fun k => ?_, fun k => ?_, ?_, ?_⟩
  · rw [SD.get, r2]
  · rw [SD.contains, r2]
  · rw [SD.length, r2]
  · exact r3.iter.trans (by rw [r2]; rfl)

/-- C78: after tame calls, iteration is sorted, no two of the keys are equal; `k in sd` and `sd.get(k)` agree with it; `len` is the number of keys. -/
theorem C78_dict_two_stores (hE : E.Finer lt eqv) (he : IsEquiv eqv) (hs : SD.TameReachable eqv (SL.api E) lt s) :
    Sorted lt (SD.iter (SL.api E) s) ∧ (SD.iter (SL.api E) s).Pairwise (fun a b => eqv a b = false) ∧
    (∀ k, SD.contains eqv k s = true ↔ ∃ k' ∈ SD.iter (SL.api E) s, eqv k' k = true) ∧
    (∀ k, SD.contains eqv k s = true ↔ ∃ v, SD.get eqv k s = some v) ∧
    SD.length s = (SD.iter (SL.api E) s).length ∧
    ∃ items, SD.items eqv (SL.api E) s = .ok items ∧ items.map Prod.fst = SD.iter (SL.api E) s ∧
      SD.values eqv (SL.api E) s = .ok (items.map Prod.snd) ∧ ∀ p ∈ items, SD.get eqv p.1 s = some p.2 := by
  have h := goodDict hE he
  have hi := dict_reachable_inv hE he hs
  have hit : SD.iter (SL.api E) s = DictSpec.sortedKeys (order E lt eqv) s.dict := hi.iter
  have hitems : SD.items eqv (SL.api E) s = .ok (DictSpec.sortedItems eqv (order E lt eqv) s.dict) := SD.items_ok (L := patched E lt eqv) h hi
  have hvalues : SD.values eqv (SL.api E) s = .ok ((DictSpec.sortedItems eqv (order E lt eqv) s.dict).map Prod.snd) := SD.values_ok (L := patched E lt eqv) h hi
  rw [hit]
  refine ⟨(DictSpec.sortedKeys_sort h.order _).sorted, DictSpec.sortedKeys_distinct h.order he hi.keyed, fun k => ?_,
    fun k => ?_, ?_, _, hitems, DictSpec.keys_sortedItems h.order he _, hvalues, fun p hp => ?_⟩
  · rw [SD.contains, ← DictSpec.sortedKeys_any h.order]; exact any_eq_true_iff
  · rw [SD.contains, SD.get, PyDict.has_eq_lookup]; exact Option.isSome_iff_exists
  · rw [(DictSpec.sortedKeys_sort h.order _).perm.length_eq]; simp [SD.length, PyDict.keys]
  · rw [SD.get, ← DictSpec.lookup_sortedItems h.order he hi.keyed]
    exact PyDict.lookup_mem he (DictSpec.keyed_sortedItems h.order he hi.keyed) hp

theorem mapE_missing {γ : Type} {f : κ → Except PyErr γ} {e : PyErr} {l : List κ} (h1 : ∀ k ∈ l, ∀ e', f k = .error e' → e' = e)
    (h2 : ∃ k ∈ l, f k = .error e) : mapE f l = .error e := by
  induction l with
  | nil => obtain ⟨k, hk, _⟩ := h2; cases hk
  | cons k l ih =>
    cases hk : f k with
    | error e' =>
      obtain rfl := h1 k (by simp) e' hk
      simp only [mapE, hk]
    | ok y =>
      have : mapE f l = .error e := by
        refine ih (fun k' hk' => h1 k' (by simp [hk'])) ?_
        obtain ⟨k', hk', hf⟩ := h2
        rcases List.mem_cons.1 hk' with rfl | hk'
        · rw [hk] at hf; cases hf
        · exact ⟨k', hk', hf⟩
      simp only [mapE, hk, this]

/-- C78: `del sd[k]` of a key that does not come first raises ValueError and leaves the dict torn: `k` is gone, while iteration still yields it; then
`items()` and `values()` raise KeyError. -/
theorem C78_dict_delete_lost (hE : E.Finer lt eqv) (he : IsEquiv eqv) (hs : SD.TameReachable eqv (SL.api E) lt s) {k : κ}
    (hk : ¬ ComesFirst lt eqv k (SD.iter (SL.api E) s)) :
    ∃ s', SD.delitem eqv (SL.api E) k s = (.error .valueError, s') ∧
      (∀ k', SD.get eqv k' s' = if eqv k k' then none else SD.get eqv k' s) ∧
      SD.iter (SL.api E) s' = SD.iter (SL.api E) s ∧ (∃ x ∈ SD.iter (SL.api E) s', eqv x k = true) ∧
      SD.items eqv (SL.api E) s' = .error .keyError ∧ SD.values eqv (SL.api E) s' = .error .keyError := by
  have h := goodDict hE he
  have hi := dict_reachable_inv hE he hs
  have hp : ∃ x ∈ SD.iter (SL.api E) s, eqv x k = true := by
    rcases Classical.em (∃ x ∈ SD.iter (SL.api E) s, eqv x k = true) with hp | hp
    · exact hp
    · exact absurd (fun hx => absurd hx hp) hk
  have hc : PyDict.has eqv s.dict k = true := ((C78_dict_two_stores hE he hs).2.2.1 k).2 hp
  obtain ⟨l', e', h1, h2⟩ := (Equality.SL.remove_refines hE.toOrdered k).eq_of hi.list
    (remove_lost hE (l := Core.iter s.list) hk)
  have hr : SD.delitem eqv (SL.api E) k s = (.error .valueError, { dict := PyDict.erase eqv s.dict k, list := l' }) := by
    unfold SD.delitem
    have : SD.dictDelitem eqv k s = (.ok (), { s with dict := PyDict.erase eqv s.dict k }) := by
      unfold SD.dictDelitem
      simp only [Py.get_bind, Py.ite_apply', hc]; rfl
    rw [Py.bind_ok this]
    unfold SD.onList
    simp only [show (SL.api E).remove k s.list = (.error .valueError, l') from e']
  have hget : ∀ k', PyDict.lookup eqv (PyDict.erase eqv s.dict k) k' = if eqv k k' then none else PyDict.lookup eqv s.dict k' :=
    fun k' => PyDict.lookup_erase he _ _ _
  have hyield : ∃ x ∈ Core.iter l', PyDict.getitem eqv (PyDict.erase eqv s.dict k) x = .error .keyError := by
    obtain ⟨x, hx, hxk⟩ := hp
    refine ⟨x, by rw [h1]; exact hx, ?_⟩
    rw [PyDict.getitem, hget, if_pos (by rw [he.symm]; exact hxk)]
  have hgi : ∀ d : List (κ × ν), ∀ x e, PyDict.getitem eqv d x = .error e → e = .keyError := by
    intro d x e hh
    unfold PyDict.getitem at hh
    split at hh <;> cases hh; rfl
  refine ⟨_, hr, hget, h1, ?_, ?_, ?_⟩
  · obtain ⟨x, hx, hxk⟩ := hp
    exact ⟨x, by show x ∈ Core.iter l'; rw [h1]; exact hx, hxk⟩
  · refine mapE_missing (fun x _ e hh => ?_) ?_
    · cases hg : PyDict.getitem eqv (PyDict.erase eqv s.dict k) x with
      | error e' => rw [hg] at hh; cases hh; exact hgi _ _ _ hg
      | ok v => rw [hg] at hh; cases hh
    · obtain ⟨x, hx, hg⟩ := hyield
      exact ⟨x, hx, by rw [hg]; rfl⟩
  · exact mapE_missing (fun x _ e hh => hgi _ _ _ hh) hyield

/-- C78: `sd.pop(k)` of a key that does not come first raises ValueError, even if a default is given, and changes nothing. -/
theorem C78_dict_pop_lost (hE : E.Finer lt eqv) (he : IsEquiv eqv) (hs : SD.TameReachable eqv (SL.api E) lt s) {k : κ}
    (hk : ¬ ComesFirst lt eqv k (SD.iter (SL.api E) s)) (default : Option ν) :
    ∃ s', SD.pop eqv (SL.api E) k default s = (.error .valueError, s') ∧ s'.dict = s.dict ∧
      SD.iter (SL.api E) s' = SD.iter (SL.api E) s := by
  have hi := dict_reachable_inv hE he hs
  have hp : ∃ x ∈ SD.iter (SL.api E) s, eqv x k = true := by
    rcases Classical.em (∃ x ∈ SD.iter (SL.api E) s, eqv x k = true) with hp | hp
    · exact hp
    · exact absurd (fun hx => absurd hx hp) hk
  have hc : SD.contains eqv k s = true := ((C78_dict_two_stores hE he hs).2.2.1 k).2 hp
  obtain ⟨l', e', h1, h2⟩ := (Equality.SL.remove_refines hE.toOrdered k).eq_of hi.list
    (remove_lost hE (l := Core.iter s.list) hk)
  refine ⟨{ s with list := l' }, ?_, rfl, h1⟩
  unfold SD.pop
  simp only [Py.get_bind, Py.ite_apply', hc, if_true]
  refine Py.bind_error ?_
  unfold SD.onList
  simp only [show (SL.api E).remove k s.list = (.error .valueError, l') from e']

end Dicts

namespace Demo

/-- Jobs `(priority, number)`: `<` compares the priorities, `==` and `!=` compare the jobs. -/
def taskEnv : Env (Int × Nat) :=
  { pairEnv with cmp := fun op a b => match op with
      | .eq => .ok (a == b)
      | .ne => .ok (!(a == b))
      | op => .ok (op.ofLt plt a b) }

def sameTask (a b : Int × Nat) : Bool := a == b

theorem taskEnv_finer : taskEnv.Finer plt sameTask where
  order := plt_order
  lt_ok := fun _ _ => rfl
  sorted := pairEnv_lawful.sorted
  ilog2 := log2_ok
  eq_ok := fun _ _ => rfl
  ne_ok := fun _ _ => rfl
  fine := fun a b h => by
    have : a = b := by simpa [sameTask] using h
    subst this
    simp [equiv, plt, ilt]

theorem sameTask_equiv : IsEquiv sameTask := ⟨fun a => by simp [sameTask], fun a b => by simp [sameTask, Bool.beq_comm], fun a b c h1 h2 => by
  have e1 : a = b := by simpa [sameTask] using h1
  have e2 : b = c := by simpa [sameTask] using h2
  simp [sameTask, e1, e2]⟩

abbrev taskSet := listSet sameTask sameTask_equiv true

theorem taskSet_lawful : taskSet.Lawful sameTask := listSet_lawful _ _ _

def taskNew := SS.new taskSet (SL.api taskEnv) (some [(1, 0), (2, 0), (1, 1), (0, 7), (2, 1), (1, 0)])

def tasks : SS { l : List (Int × Nat) // Distinct sameTask l } (St (Int × Nat) (Int × Nat)) :=
  match taskNew with
  | .ok s => s
  | .error _ => ⟨⟨[], .nil⟩, St.empty⟩

theorem comesFirst_iff {l : List (Int × Nat)} {v : Int × Nat} :
    ComesFirst plt sameTask v l ↔ (l.any (sameTask · v) = true → (l.dropWhile (plt · v)).head?.any (sameTask · v) = true) := by
  unfold ComesFirst
  rw [present (eqv := sameTask)]
  refine imp_congr_right fun _ => ⟨?_, ?_⟩
  · rintro ⟨A, x, B, rfl, hx, hA⟩
    have := taskEnv_finer.fine _ _ hx
    simp only [equiv, Bool.and_eq_true, Bool.not_eq_true'] at this
    rw [Equality.SL.dropWhile_split hA this.1]
    exact hx
  · intro h
    cases hd : l.dropWhile (plt · v) with
    | nil => rw [hd] at h; cases h
    | cons x B =>
      rw [hd] at h
      exact ⟨l.takeWhile (plt · v), x, B, by rw [← hd, List.takeWhile_append_dropWhile], h,
        fun a ha => List.all_eq_true.1 List.all_takeWhile a ha⟩

theorem tasks_new : SS.new taskSet (SL.api taskEnv) (some [(1, 0), (2, 0), (1, 1), (0, 7), (2, 1), (1, 0)]) = .ok tasks := rfl

theorem tasks_reachable : SS.TameReachable taskSet (SL.api taskEnv) plt sameTask tasks := .new tasks_new

example : SS.iter (SL.api taskEnv) tasks = [(0, 7), (1, 0), (1, 1), (2, 0), (2, 1)] := by decide +kernel

/-- `(1, 0)` comes first among the tasks of priority 1, `(1, 1)` does not, and `(0, 7)` is the only one of priority 0. -/
theorem tasks_first : ComesFirst plt sameTask (1, 0) (SS.iter (SL.api taskEnv) tasks) := comesFirst_iff.2 (by decide +kernel)

theorem tasks_later : ¬ ComesFirst plt sameTask (1, 1) (SS.iter (SL.api taskEnv) tasks) := by
  rw [comesFirst_iff]; decide +kernel

example : NoOther plt sameTask (0, 7) (SS.iter (SL.api taskEnv) tasks) := by unfold NoOther; decide +kernel

example := C78_set_two_stores taskEnv_finer taskSet_lawful tasks_reachable
example := C78_set_add taskEnv_finer taskSet_lawful tasks_reachable (1, 3)
example := C78_set_discard taskEnv_finer taskSet_lawful tasks_reachable tasks_first
example := C78_set_remove taskEnv_finer taskSet_lawful tasks_reachable tasks_first
example := C78_set_lost taskEnv_finer taskSet_lawful tasks_reachable tasks_later
example := C78_set_difference_update taskEnv_finer taskSet_lawful tasks_reachable [[(0, 7)]] (by
  simp only [List.flatten_cons, List.flatten_nil, List.append_nil, List.mem_singleton, forall_eq]; unfold NoOther; decide +kernel)
example := C78_set_difference_update_many taskEnv_finer taskSet_lawful tasks_reachable [[(1, 1)], [(2, 1)]] (by decide +kernel)

/-- The set after `(1, 0)` is removed: now `(1, 1)` comes first. -/
theorem tasks_after : SS.TameReachable taskSet (SL.api taskEnv) plt sameTask
    (SS.step taskSet (SL.api taskEnv) (.remove (1, 0)) tasks).2 := .step (.remove (1, 0)) trivial tasks_first tasks_reachable

example : ComesFirst plt sameTask (1, 1) (SS.iter (SL.api taskEnv) (SS.step taskSet (SL.api taskEnv) (.remove (1, 0)) tasks).2) :=
  comesFirst_iff.2 (by decide +kernel)

/-- `del sd[(1, 0)]`, then `sd.pop((1, 1))`: both are tame. -/
def taskDict : SD (Int × Nat) Nat (St (Int × Nat) (Int × Nat)) :=
  match SD.new sameTask (SL.api taskEnv) (.dict [((1, 0), 10), ((1, 1), 11), ((0, 7), 7)]) with
  | .ok s => s
  | .error _ => ⟨[], St.empty⟩

theorem taskDict_new : SD.new sameTask (SL.api taskEnv) (.dict [((1, 0), 10), ((1, 1), 11), ((0, 7), 7)]) = .ok taskDict := rfl

theorem taskDict_reachable : SD.TameReachable sameTask (SL.api taskEnv) plt taskDict := .new rfl taskDict_new

example := C78_dict_two_stores taskEnv_finer sameTask_equiv taskDict_reachable

def taskDictOps : List (SDOp (Int × Nat) Nat) := [.delitem (1, 0), .setitem (1, 5) 15, .pop (1, 1) none, .index (0, 7) none none]

theorem taskDict_tame : SD.TameFrom sameTask (SL.api taskEnv) plt taskDictOps taskDict := by
  refine ⟨comesFirst_iff.2 (by decide +kernel), trivial, comesFirst_iff.2 (by decide +kernel), ?_, trivial⟩
  show NoOther _ _ _ _
  unfold NoOther; decide +kernel

example := C78_dict_history taskEnv_finer sameTask_equiv rfl taskDict_new taskDictOps (by simp [taskDictOps, SDOp.Valid]) taskDict_tame

theorem taskDict_later : ¬ ComesFirst plt sameTask (1, 1) (SD.iter (SL.api taskEnv) taskDict) := by
  rw [comesFirst_iff]; decide +kernel

example := C78_dict_delete_lost taskEnv_finer sameTask_equiv taskDict_reachable taskDict_later
example := C78_dict_pop_lost taskEnv_finer sameTask_equiv taskDict_reachable taskDict_later (some 0)

end Demo

/-- A set of which `ss.discard(v)` raises ValueError although `v in ss`, and afterwards `v` is not in the set, which still yields it. -/
theorem C78_set_torn : ∃ (τ : Type) (S : SetOps τ (Int × Nat)) (E : Env (Int × Nat)) (lt eqv : Int × Nat → Int × Nat → Bool)
    (s s' : SS τ (St (Int × Nat) (Int × Nat))) (v : Int × Nat),
    S.Lawful eqv ∧ E.Finer lt eqv ∧ SS.Reachable S (SL.api E) s ∧ SS.contains S v s = true ∧
    SS.discard S (SL.api E) v s = (.error .valueError, s') ∧ SS.contains S v s' = false ∧ v ∈ SS.iter (SL.api E) s' := by
  obtain ⟨s', _, h2, h3, _⟩ := C78_set_lost Demo.taskEnv_finer Demo.taskSet_lawful Demo.tasks_reachable Demo.tasks_later
  refine ⟨_, Demo.taskSet, Demo.taskEnv, Demo.plt, Demo.sameTask, Demo.tasks, s', (1, 1), Demo.taskSet_lawful, Demo.taskEnv_finer, .new Demo.tasks_new,
    by decide +kernel, h2, ?_, by rw [h3]; decide +kernel⟩
  rename_i h4
  rw [h4.2.1]
  decide +kernel

/-- A dict of which `del sd[k]` raises ValueError although `k in sd`, and afterwards `sd.items()` raises KeyError. -/
theorem C78_dict_torn : ∃ (E : Env (Int × Nat)) (lt eqv : Int × Nat → Int × Nat → Bool)
    (s s' : SD (Int × Nat) Nat (St (Int × Nat) (Int × Nat))) (k : Int × Nat),
    IsEquiv eqv ∧ E.Finer lt eqv ∧ SD.Reachable eqv (SL.api E) s ∧ SD.contains eqv k s = true ∧
    SD.delitem eqv (SL.api E) k s = (.error .valueError, s') ∧ SD.contains eqv k s' = false ∧ k ∈ SD.iter (SL.api E) s' ∧
    SD.items eqv (SL.api E) s' = .error .keyError := by
  obtain ⟨s', h1, h2, h3, _, h5, _⟩ := C78_dict_delete_lost Demo.taskEnv_finer Demo.sameTask_equiv Demo.taskDict_reachable Demo.taskDict_later
  refine ⟨Demo.taskEnv, Demo.plt, Demo.sameTask, Demo.taskDict, s', (1, 1), Demo.sameTask_equiv, Demo.taskEnv_finer, .new rfl Demo.taskDict_new,
    by decide +kernel, h1, ?_, by rw [h3]; decide +kernel, h5⟩
  have := h2 (1, 1)
  rw [if_pos (by decide +kernel)] at this
  rw [SD.contains, PyDict.has_eq_lookup]
  rw [SD.get] at this
  rw [this]; rfl

end Verif
