import Verif.Proofs.IterQuiet
import Verif.Props.SortedKeyList
/-!
# Iterators while the list changes (C69)

A client starts with `SortedList()` (or `SortedKeyList(key=...)`) and creates iterators, asks any of them for values, and
calls methods, in any order.  The iterators hold list objects, as the iterators of CPython do: a method that changes a
list object changes what the iterator sees, and a list object that the sorted list has dropped stays alive in the iterator.
`A.after evs`: the state after the events `evs`.  The iterator created by the event `.opens k` after `pre` has the number
`(A.after pre).2.length`.  No law of the order is assumed, and comparisons and key function may raise.
-/

namespace Verif
open Heap

section
variable {α κ : Type} {lt : α → α → Bool} {key : α → κ} {klt : κ → κ → Bool} {veq : α → α → Bool}

/-- C69: whatever happens between the creation of an iterator and a request to it, the answer is a value that was in
the list at the creation or after some of the calls since, or StopIteration, or, for `islice` and `irange` only, an
IndexError. -/
theorem C69_list (E : Env α) (pre mid : List (Event (IterKind α) (Op α))) (k : IterKind α)
    (hk : ((Heap.SL.liveSys E).step (.opens k) ((Heap.SL.liveSys E).after pre)).1 = .ok .opened) :
    match ((Heap.SL.liveSys E).step (.next ((Heap.SL.liveSys E).after pre).2.length)
      ((Heap.SL.liveSys E).after (pre ++ .opens k :: mid))).1 with
    | .ok (.value v) => ∃ mid', mid' <+: mid ∧ v ∈ ((Heap.SL.liveSys E).after (pre ++ .opens k :: mid')).values
    | .ok .stop => True
    | .ok _ => False
    | .error e => e = .indexError ∧ k ≠ .iter ∧ k ≠ .reversed := by
  have h := LiveSys.answers (Heap.SL.liveSys_lawful E) pre mid k start_own hk _ rfl
  rcases h with ⟨v, h1, h2⟩ | h1 | ⟨h1, h2⟩
  · unfold LiveSys.after
    rw [h1]; exact h2
  · unfold LiveSys.after
    rw [h1]; trivial
  · unfold LiveSys.after
    rw [h1]; exact ⟨rfl, fun e => h2 (.inl e), fun e => h2 (.inr e)⟩

/-- C69 (SortedKeyList). -/
theorem C69_key_list (K : KEnv α κ) (pre mid : List (Event (KIterKind α κ) (KOp α κ))) (k : KIterKind α κ)
    (hk : ((Heap.SKL.liveSys K).step (.opens k) ((Heap.SKL.liveSys K).after pre)).1 = .ok .opened) :
    match ((Heap.SKL.liveSys K).step (.next ((Heap.SKL.liveSys K).after pre).2.length)
      ((Heap.SKL.liveSys K).after (pre ++ .opens k :: mid))).1 with
    | .ok (.value v) => ∃ mid', mid' <+: mid ∧ v ∈ ((Heap.SKL.liveSys K).after (pre ++ .opens k :: mid')).values
    | .ok .stop => True
    | .ok _ => False
    | .error e => e = .indexError ∧ k ≠ .kind .iter ∧ k ≠ .kind .reversed := by
  have h := LiveSys.answers (Heap.SKL.liveSys_lawful K) pre mid k start_own hk _ rfl
  rcases h with ⟨v, h1, h2⟩ | h1 | ⟨h1, h2⟩
  · unfold LiveSys.after
    rw [h1]; exact h2
  · unfold LiveSys.after
    rw [h1]; trivial
  · unfold LiveSys.after
    rw [h1]; exact ⟨rfl, fun e => h2 (.inl e), fun e => h2 (.inr e)⟩

/-- C69: an iterator that has stopped never yields again, whatever happens. -/
theorem C69_stopped (E : Env α) (j : Nat) (s : LiveState α α) (evs : List (Event (IterKind α) (Op α)))
    (h : ((Heap.SL.liveSys E).step (.next j) s).1 = .ok .stop) :
    ((Heap.SL.liveSys E).step (.next j)
      (runHist (Heap.SL.liveSys E).step evs ((Heap.SL.liveSys E).step (.next j) s).2).2).1 = .ok .stop :=
  LiveSys.done_next (LiveSys.done_hist evs (LiveSys.done_of_stop h))

theorem C69_stopped_key (K : KEnv α κ) (j : Nat) (s : LiveState α κ) (evs : List (Event (KIterKind α κ) (KOp α κ)))
    (h : ((Heap.SKL.liveSys K).step (.next j) s).1 = .ok .stop) :
    ((Heap.SKL.liveSys K).step (.next j)
      (runHist (Heap.SKL.liveSys K).step evs ((Heap.SKL.liveSys K).step (.next j) s).2).2).1 = .ok .stop :=
  LiveSys.done_next (LiveSys.done_hist evs (LiveSys.done_of_stop h))

/-- C69: whatever has happened to the list, a client that from now on only asks the iterator for values gets to the end of
it. -/
theorem C69_ends (E : Env α) (evs : List (Event (IterKind α) (Op α))) (j : Nat)
    (hj : j < ((Heap.SL.liveSys E).after evs).2.length) :
    ∃ n, ((Heap.SL.liveSys E).step (.next j) ((Heap.SL.liveSys E).after (evs ++ List.replicate n (.next j)))).1 = .ok .stop := by
  obtain ⟨n, h⟩ := LiveSys.ends (A := Heap.SL.liveSys E) hj
  exact ⟨n, by unfold LiveSys.after at h ⊢; rw [LiveSys.runHist_append]; exact h⟩

theorem C69_ends_key (K : KEnv α κ) (evs : List (Event (KIterKind α κ) (KOp α κ))) (j : Nat)
    (hj : j < ((Heap.SKL.liveSys K).after evs).2.length) :
    ∃ n, ((Heap.SKL.liveSys K).step (.next j) ((Heap.SKL.liveSys K).after (evs ++ List.replicate n (.next j)))).1 = .ok .stop := by
  obtain ⟨n, h⟩ := LiveSys.ends (A := Heap.SKL.liveSys K) hj
  exact ⟨n, by unfold LiveSys.after at h ⊢; rw [LiveSys.runHist_append]; exact h⟩

/-- C69: iterators that hold list objects keep every promise of C57; in particular the results of the calls and the
values in the list do not depend on the iterators that exist. -/
theorem C69_as_promised {E : Env α} (hE : E.Lawful lt) (evs : List (Event (IterKind α) (Op α)))
    (hv : ∀ ev ∈ evs, ev.Valid Op.Valid) :
    let spec := runHist (Spec.iterSpec (Spec.Order.ofValues lt)).step evs ([], [])
    let real := runHist (Heap.SL.liveSys E).step evs LiveState.start
    real.1.length = spec.1.length ∧
    (∀ (i : Nat) r r', spec.1[i]? = some r → real.1[i]? = some r' → Meets r r') ∧ real.2.values = spec.2.1 :=
  (Heap.SL.liveSys_conforms hE).hist evs hv (LiveSys.promised_start (Heap.SL.start_inv hE))

theorem C69_as_promised_key {K : KEnv α κ} (hK : K.Lawful key klt veq) (evs : List (Event (KIterKind α κ) (KOp α κ)))
    (hv : ∀ ev ∈ evs, ev.Valid KOp.Valid) :
    let spec := runHist (Spec.kiterSpec key klt (Spec.Order.ofKey key klt veq K.vcmp)).step evs ([], [])
    let real := runHist (Heap.SKL.liveSys K).step evs LiveState.start
    real.1.length = spec.1.length ∧
    (∀ (i : Nat) r r', spec.1[i]? = some r → real.1[i]? = some r' → Meets r r') ∧ real.2.values = spec.2.1 :=
  (Heap.SKL.liveSys_conforms hK).hist evs hv (LiveSys.promised_start (Heap.SKL.start_inv hK))

/-- C69: an iterator created after any history yields, as long as only queries are made, its values, each once and in
order, and then stops, whatever is done with the other iterators. -/
theorem C69_each_value_once {E : Env α} (hE : E.Lawful lt) (pre evs : List (Event (IterKind α) (Op α))) (k : IterKind α)
    (hv : ∀ ev ∈ pre ++ evs, ev.Valid Op.Valid) (hq : ∀ ev ∈ evs, ev.Valid fun op => op.isQuery = true) :
    ∃ x, (Heap.SL.liveSys E).step (.opens k) ((Heap.SL.liveSys E).after pre) = (.ok .opened, x) ∧
      ∀ (m : Nat) r, (answersOf ((Heap.SL.liveSys E).after pre).2.length evs (runHist (Heap.SL.liveSys E).step evs x).1)[m]? = some r →
        r = .ok (match (Spec.iterValues (Spec.Order.ofValues lt) k ((Heap.SL.liveSys E).after pre).values)[m]? with
          | some v => .value v
          | none => .stop) := by
  have h := Heap.SL.liveSys_conforms hE
  have hi := (h.promised pre (fun ev he => hv ev (by simp [he])) (LiveSys.promised_start (Heap.SL.start_inv hE))).inv
  rcases ha : (Heap.SL.liveSys E).after pre with ⟨s, its⟩
  rw [show (runHist (Heap.SL.liveSys E).step pre LiveState.start).2 = (s, its) from ha] at hi
  obtain ⟨c, s', e, ⟨d, h0, h1⟩, h2, h3, h4⟩ := h.opens k s hi
  refine ⟨(s', its ++ [c]), by simp only [LiveSys.step, e], fun m r hr => ?_⟩
  refine h.drain evs (fun ev he => hv ev (by simp [he])) (fun ev hev => ?_) h4 (c := c) (by simp) (by rw [h2]; exact h0)
    (by rw [h3]; exact h1) m r hr
  have := hq ev hev
  cases ev with
  | call op => exact fun _ => this
  | _ => trivial

theorem C69_each_value_once_key {K : KEnv α κ} (hK : K.Lawful key klt veq)
    (pre evs : List (Event (KIterKind α κ) (KOp α κ))) (k : KIterKind α κ)
    (hv : ∀ ev ∈ pre ++ evs, ev.Valid KOp.Valid) (hq : ∀ ev ∈ evs, ev.Valid fun op => op.isQuery = true) :
    ∃ x, (Heap.SKL.liveSys K).step (.opens k) ((Heap.SKL.liveSys K).after pre) = (.ok .opened, x) ∧
      ∀ (m : Nat) r, (answersOf ((Heap.SKL.liveSys K).after pre).2.length evs (runHist (Heap.SKL.liveSys K).step evs x).1)[m]? = some r →
        r = .ok (match ((Spec.kiterSpec key klt (Spec.Order.ofKey key klt veq K.vcmp)).values k
            ((Heap.SKL.liveSys K).after pre).values)[m]? with
          | some v => .value v
          | none => .stop) := by
  have h := Heap.SKL.liveSys_conforms hK
  have hi := (h.promised pre (fun ev he => hv ev (by simp [he])) (LiveSys.promised_start (Heap.SKL.start_inv hK))).inv
  rcases ha : (Heap.SKL.liveSys K).after pre with ⟨s, its⟩
  rw [show (runHist (Heap.SKL.liveSys K).step pre LiveState.start).2 = (s, its) from ha] at hi
  obtain ⟨c, s', e, ⟨d, h0, h1⟩, h2, h3, h4⟩ := h.opens k s hi
  refine ⟨(s', its ++ [c]), by simp only [LiveSys.step, e], fun m r hr => ?_⟩
  refine h.drain evs (fun ev he => hv ev (by simp [he])) (fun ev hev => ?_) h4 (c := c) (by simp) (by rw [h2]; exact h0)
    (by rw [h3]; exact h1) m r hr
  have := hq ev hev
  cases ev with
  | call op => exact fun _ => this
  | _ => trivial

end

/-! ## Examples -/

namespace Demo

/-- Ten values, at most four to a sublist. -/
def ten : List (Event (IterKind Int) (Op Int)) :=
  [.call (.reset 2), .call (.update [1, 2, 3, 4, 5, 6, 7, 8, 9, 10])]

example := C69_list intEnv ten [.next 0, .call (.remove 2), .next 0, .call .clear] (.islice (some 1) none true) (by decide +kernel)
example := C69_stopped intEnv 0 ((Heap.SL.liveSys intEnv).after [.opens .iter]) [.call (.add 5)] (by decide +kernel)
example := C69_ends intEnv (ten ++ [.opens .reversed, .next 0, .call (.add 3), .call (.remove 9)]) 0 (by decide +kernel)
example := C69_key_list tensEnv [.call (.op (.update [31, 17, 25, 33]))] [.call (.op (.discard 25)), .next 0]
  (.irangeKey (some 2) none true true false) (by decide +kernel)
example := C69_stopped_key tensEnv 0 ((Heap.SKL.liveSys tensEnv).after [.opens (.kind .iter)]) [.call (.op (.add 5))] (by decide +kernel)
example := C69_ends_key tensEnv [.call (.op (.update [31, 17, 25, 33])), .opens (.irangeKey (some 2) none true true false), .call (.op .clear)] 0
  (by decide +kernel)
example := C69_as_promised intEnv_lawful (ten ++ [.opens .iter, .next 0, .call (.count 3), .next 0, .call (.remove 3), .next 0])
  (by simp [ten, Event.Valid, Op.Valid])
example := C69_as_promised_key tensEnv_lawful [.call (.op (.update [31, 17, 25, 33])), .opens (.kind .reversed), .next 0]
  (by simp [Event.Valid, KOp.Valid, Op.Valid])
example := C69_each_value_once intEnv_lawful (ten ++ [.opens .iter, .call (.remove 3)]) [.next 1, .next 0, .call (.getInt 4), .next 1]
  (.irange (some 2) (some 7) true true true) (by simp [ten, Event.Valid, Op.Valid]) (by simp [Event.Valid, Op.isQuery])
example := C69_each_value_once_key tensEnv_lawful [.call (.op (.update [31, 17, 25, 33]))] [.next 0, .call (.bisectKeyLeft 3), .next 0]
  (.kind .iter) (by simp [Event.Valid, KOp.Valid, Op.Valid]) (by simp [Event.Valid, KOp.isQuery, Op.isQuery])

/-- Adding a smaller value makes the iterator yield a value again. -/
example : (runHist (Heap.SL.liveSys intEnv).step (ten ++ [.opens .iter, .next 0, .call (.add 0), .next 0]) LiveState.start).1.drop 3 =
    [.ok (.value 1), .ok (.result .none), .ok (.value 1)] := by decide +kernel

/-- Removing a value that was yielded makes it skip one. -/
example : (runHist (Heap.SL.liveSys intEnv).step (ten ++ [.opens .iter, .next 0, .call (.remove 1), .next 0]) LiveState.start).1.drop 3 =
    [.ok (.value 1), .ok (.result .none), .ok (.value 3)] := by decide +kernel

/-- `clear` drops the sublist, which the iterator still holds: it yields values that are no longer in the list. -/
example : (runHist (Heap.SL.liveSys intEnv).step (ten ++ [.opens .iter, .next 0, .call .clear, .next 0, .next 0]) LiveState.start).1.drop 3 =
    [.ok (.value 1), .ok (.result .none), .ok (.value 2), .ok .stop] := by decide +kernel

/-- `islice` raises an IndexError, and then goes on. -/
example : (runHist (Heap.SL.liveSys intEnv).step
      ([.call (.update [1, 2, 3]), .opens (.islice none none true), .call (.remove 2), .next 0, .next 0, .next 0, .next 0])
      LiveState.start).1.drop 2 =
    [.ok (.result .none), .error .indexError, .ok (.value 3), .ok (.value 1), .ok .stop] := by decide +kernel

end Demo
end Verif
