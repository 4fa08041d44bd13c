import Verif.Proofs.IterHeapSets
import Verif.Props.Iter
/-!
# Iterators while the set or dict changes (C75)

As C69, for SortedSet and SortedDict.  A client starts with an empty set or dict and creates iterators, asks any of them for
values, and calls methods, in any order.  The iterators hold the list objects of `_list`.  `A.after s evs`: the container and
the iterators after the events `evs`.  The iterator created by the event `.opens k` after `pre` has the number
`(A.after s pre).2.length`.  Unless stated otherwise no law of the order is assumed, comparisons and key function may raise,
and `==` and the set need not be lawful either.
-/

namespace Verif
open Heap

section Sets
variable {α τ : Type}

theorem iter_contents (c : ListClass α) (l : c.Ref) : Verif.Core.iter l.view = c.heap.iter l := by cases c <;> rfl

/-- C75: whatever happens between the creation of an iterator of a SortedSet and a request to it, the answer is a value that
was in the set at the creation or after some of the events since, or StopIteration, or, for `islice` and `irange` only, an
IndexError. -/
theorem C75_set (S : SetOps τ α) (c : ListClass α) (pre mid : List (Event (IterKind α) (SSOp α))) (k : IterKind α)
    (hk : ((SS.liveSys S c).step (.opens k) ((SS.liveSys S c).after (SS.liveStart S c) pre)).1 = .ok .opened) :
    match ((SS.liveSys S c).step (.next ((SS.liveSys S c).after (SS.liveStart S c) pre).2.length)
      ((SS.liveSys S c).after (SS.liveStart S c) (pre ++ .opens k :: mid))).1 with
    | .ok (.value v) => ∃ mid', mid' <+: mid ∧
        v ∈ SS.iter c.heap ((SS.liveSys S c).after (SS.liveStart S c) (pre ++ .opens k :: mid')).1
    | .ok .stop => True
    | .ok _ => False
    | .error e => e = .indexError ∧ k ≠ .iter ∧ k ≠ .reversed := by
  have h := BoxSys.answers (SS.liveSys_lawful S c) pre mid k (s := SS.liveStart S c) start_own hk _ rfl
  rcases h with ⟨v, b, h1, ⟨mid', h2, h3⟩, h4⟩ | h1 | ⟨h1, h2⟩ | ⟨v, e, _, _, h4⟩
  · cases h4
    rw [h1]; exact ⟨mid', h2, by rw [SS.iter, ← iter_contents]; exact h3⟩
  · rw [h1]; trivial
  · rw [h1]; exact ⟨rfl, fun e => h2 (.inl e), fun e => h2 (.inr e)⟩
  · cases h4

/-- C75: an iterator that has stopped never yields again, whatever happens. -/
theorem C75_stopped_set (S : SetOps τ α) (c : ListClass α) (j : Nat) (s : BoxState (SS τ c.Ref) (IterKind α))
    (evs : List (Event (IterKind α) (SSOp α))) (h : ((SS.liveSys S c).step (.next j) s).1 = .ok .stop) :
    ((SS.liveSys S c).step (.next j)
      (runHist (SS.liveSys S c).step evs ((SS.liveSys S c).step (.next j) s).2).2).1 = .ok .stop :=
  BoxSys.done_next (BoxSys.done_hist evs (BoxSys.done_of_stop h))

/-- C75: whatever has happened to the set, a client that from now on only asks the iterator for values gets to the end of
it. -/
theorem C75_ends_set (S : SetOps τ α) (c : ListClass α) (s : SS τ c.Ref) (evs : List (Event (IterKind α) (SSOp α))) (j : Nat)
    (hj : j < ((SS.liveSys S c).after s evs).2.length) :
    ∃ n, ((SS.liveSys S c).step (.next j) ((SS.liveSys S c).after s (evs ++ List.replicate n (.next j)))).1 = .ok .stop := by
  obtain ⟨n, h⟩ := BoxSys.ends (A := SS.liveSys S c) hj
  exact ⟨n, by unfold BoxSys.after at h ⊢; rw [LiveSys.runHist_append]; exact h⟩

/-- C75: iterators that hold list objects keep every promise of C57 (SortedSet). -/
theorem C75_as_promised_set [DecidableEq α] {c : ListClass α} {S : SetOps τ α} {lt eqv : α → α → Bool}
    (hc : c.Orders lt eqv) (hS : S.Lawful eqv) (heq : ∀ a b, eqv a b = decide (a = b))
    (htotal : ∀ a b, lt a b = false → lt b a = false → a = b)
    (evs : List (Event (IterKind α) (SSOp α))) (hv : ∀ ev ∈ evs, ev.Valid SSOp.Valid) :
    let spec := runHist (SetSpec.iterSpec (setOrder lt eqv)).step evs ([], [])
    let real := runHist (SS.liveSys S c).step evs (SS.liveStart S c, [])
    real.1.length = spec.1.length ∧
    (∀ (i : Nat) r r', spec.1[i]? = some r → real.1[i]? = some r' → Meets r r') ∧
    SS.iter c.heap real.2.1 = spec.2.1 := by
  obtain ⟨O, I, h1, rfl, h3, h4, h5, h6⟩ := hc.heap
  have h : SS.Good S c.heap O eqv I := ⟨hS, h1, h3⟩
  have ht : SS.Total O eqv := ⟨heq, fun a b hab => by
    simp only [equiv, Bool.and_eq_true, Bool.not_eq_true'] at hab
    exact htotal a b hab.1 hab.2⟩
  have hsame : O.same = eqv := by funext a b; exact h3 a b
  have hspec : SetSpec.iterSpec (setOrder O.lt eqv) = SetSpec.iterSpec O := by
    unfold SetSpec.iterSpec
    congr 1
    funext op; exact (SetSpec.step_congr O rfl hsame op).symm
  rw [hspec]
  have hp := BoxSys.promised_start (A := SS.liveSys S c) (B := SetSpec.iterSpec O) (abs := SS.iter c.heap)
    (SS.liveStart_inv h h4)
  rw [show SS.iter c.heap (SS.liveStart S c) = [] from c.heap_iter_fresh] at hp
  obtain ⟨i1, i2, i3⟩ := (SS.liveSys_conforms h ht h5 h6).hist evs hv hp
  exact ⟨i1, i2, i3.abs⟩

end Sets

section Dicts
variable {κ ν : Type}

/-- C75: whatever happens between the creation of an iterator of a SortedDict and a request to it, the answer is one of
these.
* A key that was in the dict at the creation or after some of the events since; for an iterator of values or items, the value
  that such a key has now, or the item.
* StopIteration.
* For iterators of values and items: a KeyError, if such a key is not in the dict now.
* For `islice` and `irange`: an IndexError. -/
theorem C75_dict (eqv : κ → κ → Bool) (c : ListClass κ) (pre mid : List (Event (DIterKind κ) (SDOp κ ν))) (k : DIterKind κ)
    (hk : ((SD.liveSys eqv c).step (.opens k) ((SD.liveSys eqv c).after (SD.liveStart c) pre)).1 = .ok .opened) :
    let now := ((SD.liveSys eqv c).after (SD.liveStart c) (pre ++ .opens k :: mid)).1.dict
    let old (key : κ) : Prop := ∃ mid', mid' <+: mid ∧
      key ∈ SD.iter c.heap ((SD.liveSys eqv c).after (SD.liveStart c) (pre ++ .opens k :: mid')).1
    match ((SD.liveSys eqv c).step (.next ((SD.liveSys eqv c).after (SD.liveStart c) pre).2.length)
      ((SD.liveSys eqv c).after (SD.liveStart c) (pre ++ .opens k :: mid))).1 with
    | .ok (.value r) => ∃ key, old key ∧
      match k with
      | .keys _ => r = .key key
      | .values => ∃ v, PyDict.lookup eqv now key = some v ∧ r = .val v
      | .items => ∃ v, PyDict.lookup eqv now key = some v ∧ r = .item key v
    | .ok .stop => True
    | .ok _ => False
    | .error .keyError => (k = .values ∨ k = .items) ∧ ∃ key, old key ∧ PyDict.has eqv now key = false
    | .error e => e = .indexError ∧ ∃ k', k = .keys k' ∧ k' ≠ .iter ∧ k' ≠ .reversed := by
  intro now old
  have h := BoxSys.answers (SD.liveSys_lawful (ν := ν) eqv c) pre mid k (s := SD.liveStart c) start_own hk _ rfl
  have hold : ∀ key, (∃ mid', mid' <+: mid ∧
      key ∈ (SD.liveSys eqv c).contents ((SD.liveSys eqv c).after (SD.liveStart c) (pre ++ .opens k :: mid'))) → old key := by
    rintro key ⟨mid', h1, h2⟩
    exact ⟨mid', h1, by rw [SD.iter, ← iter_contents]; exact h2⟩
  rcases h with ⟨key, b, h1, h2, h3⟩ | h1 | ⟨h1, h2⟩ | ⟨key, e, h1, h2, h3⟩
  · rw [h1]
    refine ⟨key, hold key h2, ?_⟩
    cases k with
    | keys k => cases h3; rfl
    | values | items =>
      have h3 : (do let v ← PyDict.getitem eqv now key; _) = Except.ok b := h3
      unfold PyDict.getitem at h3
      split at h3 <;> cases h3
      exact ⟨_, ‹_›, rfl⟩
  · rw [h1]; trivial
  · rw [h1]
    refine ⟨rfl, ?_⟩
    cases k with
    | keys k =>
      exact ⟨k, rfl, fun e => h2 (.inl (by rw [e])), fun e => h2 (.inr (.inl (by rw [e])))⟩
    | values => exact absurd (.inr (.inr (.inl rfl))) h2
    | items => exact absurd (.inr (.inr (.inr rfl))) h2
  · rw [h1]
    cases k with
    | keys k => cases h3
    | values | items =>
      have h3 : (do let v ← PyDict.getitem eqv now key; _) = Except.error e := h3
      unfold PyDict.getitem at h3
      split at h3 <;> cases h3
      rename_i hx
      exact ⟨by simp, key, hold key h2, by rw [PyDict.has_eq_lookup, hx]; rfl⟩

/-- C75: an iterator that has stopped, or has raised a KeyError, never yields again, whatever happens. -/
theorem C75_stopped_dict (eqv : κ → κ → Bool) (c : ListClass κ) (j : Nat) (s : BoxState (SD κ ν c.Ref) (DIterKind κ))
    (evs : List (Event (DIterKind κ) (SDOp κ ν)))
    (h : ((SD.liveSys eqv c).step (.next j) s).1 = .ok .stop ∨ ((SD.liveSys eqv c).step (.next j) s).1 = .error .keyError) :
    ((SD.liveSys eqv c).step (.next j)
      (runHist (SD.liveSys eqv c).step evs ((SD.liveSys eqv c).step (.next j) s).2).2).1 = .ok .stop :=
  BoxSys.done_next (BoxSys.done_hist evs (h.elim BoxSys.done_of_stop BoxSys.done_of_keyError))

/-- C75: whatever has happened to the dict, a client that from now on only asks the iterator for values gets to the end of
it. -/
theorem C75_ends_dict (eqv : κ → κ → Bool) (c : ListClass κ) (s : SD κ ν c.Ref) (evs : List (Event (DIterKind κ) (SDOp κ ν)))
    (j : Nat) (hj : j < ((SD.liveSys eqv c).after s evs).2.length) :
    ∃ n, ((SD.liveSys eqv c).step (.next j) ((SD.liveSys eqv c).after s (evs ++ List.replicate n (.next j)))).1 =
      .ok .stop := by
  obtain ⟨n, h⟩ := BoxSys.ends (A := SD.liveSys eqv c) hj
  exact ⟨n, by unfold BoxSys.after at h ⊢; rw [LiveSys.runHist_append]; exact h⟩

/-- C75: iterators that hold list objects keep every promise of C58 (SortedDict). -/
theorem C75_as_promised_dict {c : ListClass κ} {lt eqv : κ → κ → Bool} (hc : c.Orders lt eqv)
    (he : IsEquiv eqv) (evs : List (Event (DIterKind κ) (SDOp κ ν))) (hv : ∀ ev ∈ evs, ev.Valid SDOp.Valid) :
    let spec := runHist (DictSpec.iterSpec eqv (setOrder lt eqv)).step evs ([], [])
    let real := runHist (SD.liveSys eqv c).step evs (SD.liveStart c, [])
    real.1.length = spec.1.length ∧
    (∀ (i : Nat) r r', spec.1[i]? = some r → real.1[i]? = some r' → Meets r r') ∧ real.2.1.dict = spec.2.1 := by
  obtain ⟨O, I, h1, rfl, h3, h4, h5, h6⟩ := hc.heap
  have h : SD.Good c.heap O eqv I := ⟨he, h1, h3⟩
  have hsame : O.same = eqv := by funext a b; exact h3 a b
  have hspec : DictSpec.iterSpec (ν := ν) eqv (setOrder O.lt eqv) = DictSpec.iterSpec eqv O := by
    unfold DictSpec.iterSpec
    congr 1
    funext op; exact (DictSpec.step_congr O rfl hsame op).symm
  rw [hspec]
  obtain ⟨i1, i2, i3⟩ := (SD.liveSys_conforms h h5 h6).hist evs hv
    (BoxSys.promised_start (A := SD.liveSys eqv c) (B := DictSpec.iterSpec eqv O) (abs := SD.dict) (SD.liveStart_inv h4))
  exact ⟨i1, i2, i3.abs⟩

end Dicts

/-! ## Examples -/

namespace Demo

/-- Ten values, at most four to a sublist. -/
def tenSet : List (Event (IterKind Int) (SSOp Int)) :=
  [.call (.reset 2), .call (.update [[1, 2, 3, 4, 5], [6, 7, 8, 9, 10]])]

def tenDict : List (Event (DIterKind Int) (SDOp Int Int)) :=
  [.call (.reset 2), .call (.update (.pairs [(1, 10), (2, 20), (3, 30), (4, 40), (5, 50), (6, 60), (7, 70), (8, 80), (9, 90)] none))]

theorem tenSet_opens (k : IterKind Int) (hk : k = .iter ∨ k = .islice (some 1) none true) :
    ((SS.liveSys (iset true) tensClass).step (.opens k)
      ((SS.liveSys (iset true) tensClass).after (SS.liveStart (iset true) tensClass) tenSet)).1 = .ok .opened := by
  rcases hk with rfl | rfl <;> decide +kernel

theorem tenDict_opens (k : DIterKind Int) (hk : k = .items ∨ k = .keys (.islice none none true)) :
    ((SD.liveSys (equiv ilt) intClass).step (.opens k)
      ((SD.liveSys (equiv ilt) intClass).after (SD.liveStart intClass) tenDict)).1 = .ok .opened := by
  rcases hk with rfl | rfl <;> decide +kernel

example (mid : List (Event (IterKind Int) (SSOp Int))) (k : IterKind Int) (hk : k = .iter ∨ k = .islice (some 1) none true) :=
  C75_set (iset true) tensClass tenSet mid k (tenSet_opens k hk)
example (mid : List (Event (DIterKind Int) (SDOp Int Int))) (k : DIterKind Int)
    (hk : k = .items ∨ k = .keys (.islice none none true)) :=
  C75_dict (equiv ilt) intClass tenDict mid k (tenDict_opens k hk)
example := C75_stopped_set (iset true) intClass 0 ((SS.liveSys (iset true) intClass).after (SS.liveStart (iset true) intClass) [.opens .iter])
  [.call (.add 5)] (by decide +kernel)
example := C75_ends_set (iset true) intClass (SS.liveStart (iset true) intClass)
  (tenSet ++ [.opens .reversed, .next 0, .call (.add 3), .call (.remove 9)]) 0 (by decide +kernel)
example := C75_as_promised_set intClass_orders (iset_lawful true)
  (fun a b => by rw [Bool.eq_iff_iff]; simp [equiv, ilt]; omega) (fun a b h1 h2 => by simp [ilt] at h1 h2; omega)
  (tenSet ++ [.opens .iter, .next 0, .call (.add 5), .next 0, .call (.getSlice ⟨none, none, none⟩), .next 0, .call (.remove 3), .next 0])
  (by simp [tenSet, Event.Valid, SSOp.Valid])
example := C75_stopped_dict (equiv ilt) intClass 0
  ((SD.liveSys (equiv ilt) intClass).after (SD.liveStart intClass) (tenDict ++ [.opens .items, .next 0, .call .clear]))
  [.call (.setitem 2 20)] (by decide +kernel)
example := C75_ends_dict (equiv ilt) intClass (SD.liveStart intClass) (tenDict ++ [.opens .values, .next 0, .call (.delitem 3)]) 0
  (by decide +kernel)
example := C75_as_promised_dict tensClass_orders ieqv_equiv
  (tenDict ++ [.opens .items, .next 0, .call (.setitem 2 77), .next 0, .call (.pop 2 none), .next 0])
  (by simp [tenDict, Event.Valid, SDOp.Valid, DictArg.fail])

/-- `|=` with many values replaces the sublists: the iterator yields the rest of the sublist that it holds and then what is
at its place in `_lists`. -/
example : (runHist (SS.liveSys (iset true) intClass).step
      (tenSet ++ [.opens .iter, .next 0, .call (.update [[0, 11, 12]]), .next 0, .next 0, .next 0]) (SS.liveStart (iset true) intClass, [])).1.drop 3 =
    [.ok (.value 1), .ok (.result .none), .ok (.value 2), .ok (.value 2), .ok (.value 3)] := by decide +kernel

/-- An iterator of items raises a KeyError for a key that was deleted, and is finished then; an iterator of keys yields it. -/
example : (runHist (SD.liveSys (equiv ilt) intClass).step
      (tenDict ++ [.opens .items, .opens (.keys .iter), .next 0, .next 1, .call .clear, .next 0, .next 1, .next 0])
      (SD.liveStart intClass, [])).1.drop 4 =
    [.ok (.value (.item 1 10)), .ok (.value (.key 1)), .ok (.result .none), .error .keyError, .ok (.value (.key 2)), .ok .stop] := by
  decide +kernel

/-- A key that was deleted and is there again: the iterator yields its present value. -/
example : (runHist (SD.liveSys (equiv ilt) intClass).step
      (tenDict ++ [.opens .values, .next 0, .call .clear, .call (.setitem 2 99), .next 0]) (SD.liveStart intClass, [])).1.drop 3 =
    [.ok (.value (.val 10)), .ok (.result .none), .ok (.result .none), .ok (.value (.val 99))] := by decide +kernel

end Demo
end Verif
