import Verif.Proofs.Iter
import Verif.Props.SortedKeyList
import Verif.Props.SortedDict
/-!
# Iterators under every schedule (C57, C58)

`runHist A.step evs (s, [])`: a client makes the iterators, requests and calls `evs` on the object `s`, in this order.
`Meets`: the answer is the specified one, if one is promised.
-/

namespace Verif

section Lists
variable {α κ : Type} {lt : α → α → Bool} {key : α → κ} {klt : κ → κ → Bool} {veq : α → α → Bool}

/-- C57: in every schedule of creating iterators, asking any of them for a value and making other calls, each answer is
the promised one: an iterator yields the values it was created for, one by one, and then stops, unless in between a call
was made that is not a query; calls are answered as without the iterators. -/
theorem C57_list {E : Env α} {s : St α α} (hE : E.Lawful lt) (hs : (SL.api E).Reachable s)
    (evs : List (Event (IterKind α) (Op α))) (hv : ∀ ev ∈ evs, ev.Valid Op.Valid) :
    let spec := runHist (Spec.iterSpec (Spec.Order.ofValues lt)).step evs (Core.iter s, [])
    let real := runHist (SL.iterSys E).step evs (s, [])
    real.1.length = spec.1.length ∧
    (∀ (i : Nat) r r', spec.1[i]? = some r → real.1[i]? = some r' → Meets r r') ∧ Core.iter real.2.1 = spec.2.1 :=
  (SL.iterSys_lawful hE).hist evs hv (IterSys.rel_start ((SL.api_lawful hE).reachable hs))

/-- C57 (SortedKeyList). -/
theorem C57_key_list {K : KEnv α κ} {s : St α κ} (hK : K.Lawful key klt veq) (hs : SKL.Reachable K s)
    (evs : List (Event (KIterKind α κ) (KOp α κ))) (hv : ∀ ev ∈ evs, ev.Valid KOp.Valid) :
    let spec := runHist (Spec.kiterSpec key klt (Spec.Order.ofKey key klt veq K.vcmp)).step evs (Core.iter s, [])
    let real := runHist (SKL.iterSys K).step evs (s, [])
    real.1.length = spec.1.length ∧
    (∀ (i : Nat) r r', spec.1[i]? = some r → real.1[i]? = some r' → Meets r r') ∧ Core.iter real.2.1 = spec.2.1 :=
  (SKL.iterSys_lawful hK).hist evs hv (IterSys.rel_start (SKL.reachable_inv hK hs))

/-- C57: the requests made to one iterator, between which the client asks any other iterators for values, creates
iterators, and makes queries, are answered by its values, each once and in order, and then by StopIteration. -/
theorem C57_each_value_once {E : Env α} {s : St α α} (hE : E.Lawful lt) (hs : (SL.api E).Reachable s)
    (others : List (IterKind α × Cursor)) (k : IterKind α) (evs : List (Event (IterKind α) (Op α)))
    (hv : ∀ ev ∈ evs, ev.Valid Op.Valid) (hq : ∀ ev ∈ evs, ev.Valid fun op => op.isQuery = true) :
    ∃ x, (SL.iterSys E).step (.opens k) (s, others) = (.ok .opened, x) ∧
      ∀ (m : Nat) r, (answersOf others.length evs (runHist (SL.iterSys E).step evs x).1)[m]? = some r →
        r = .ok (match (Spec.iterValues (Spec.Order.ofValues lt) k (Core.iter s))[m]? with
          | some v => .value v
          | none => .stop) := by
  have h := SL.iterSys_lawful hE
  obtain ⟨c, s', e, h1, h2, _, h4⟩ := h.opens k s ((SL.api_lawful hE).reachable hs)
  refine ⟨(s', others ++ [(k, c)]), by simp only [IterSys.step, e], fun m r hr => ?_⟩
  refine h.drain id k (fun _ _ _ => rfl) evs hv (fun ev hev => ?_) h4 (c := c) (by simp) (by rw [h2]; exact h1) m r hr
  have := hq ev hev
  cases ev with
  | call op => exact fun _ => this
  | _ => trivial

/-- C57, one by one (SortedKeyList). -/
theorem C57_each_value_once_key {K : KEnv α κ} {s : St α κ} (hK : K.Lawful key klt veq) (hs : SKL.Reachable K s)
    (others : List (KIterKind α κ × Cursor)) (k : KIterKind α κ) (evs : List (Event (KIterKind α κ) (KOp α κ)))
    (hv : ∀ ev ∈ evs, ev.Valid KOp.Valid) (hq : ∀ ev ∈ evs, ev.Valid fun op => op.isQuery = true) :
    ∃ x, (SKL.iterSys K).step (.opens k) (s, others) = (.ok .opened, x) ∧
      ∀ (m : Nat) r, (answersOf others.length evs (runHist (SKL.iterSys K).step evs x).1)[m]? = some r →
        r = .ok (match ((Spec.kiterSpec key klt (Spec.Order.ofKey key klt veq K.vcmp)).values k (Core.iter s))[m]? with
          | some v => .value v
          | none => .stop) := by
  have h := SKL.iterSys_lawful hK
  obtain ⟨c, s', e, h1, h2, _, h4⟩ := h.opens k s (SKL.reachable_inv hK hs)
  refine ⟨(s', others ++ [(k, c)]), by simp only [IterSys.step, e], fun m r hr => ?_⟩
  refine h.drain id k (fun _ _ _ => rfl) evs hv (fun ev hev => ?_) h4 (c := c) (by simp) (by rw [h2]; exact h1) m r hr
  have := hq ev hev
  cases ev with
  | call op => exact fun _ => this
  | _ => trivial

end Lists

section SetsAndDicts
variable {α τ κ ν : Type}

/-- C57 (SortedSet): as for a SortedList; while iterating one may also add a value that is present and discard one that
is absent. -/
theorem C57_set [DecidableEq α] {c : ListClass α} {S : SetOps τ α} {lt eqv : α → α → Bool} {s : SS τ c.State}
    (hc : c.Orders lt eqv) (hS : S.Lawful eqv) (heq : ∀ a b, eqv a b = decide (a = b))
    (htotal : ∀ a b, lt a b = false → lt b a = false → a = b) (hs : SS.Reachable S c.api s)
    (evs : List (Event (IterKind α) (SSOp α))) (hv : ∀ ev ∈ evs, ev.Valid SSOp.Valid) :
    let spec := runHist (SetSpec.iterSpec (setOrder lt eqv)).step evs (SS.iter c.api s, [])
    let real := runHist (SS.iterSys S c).step evs (s, [])
    real.1.length = spec.1.length ∧
    (∀ (i : Nat) r r', spec.1[i]? = some r → real.1[i]? = some r' → Meets r r') ∧
    SS.iter c.api real.2.1 = spec.2.1 := by
  obtain ⟨O, I, h1, rfl, h3, h4⟩ := hc.iterable
  have h : SS.Good S c.api O eqv I := ⟨hS, h1, h3⟩
  have ht : SS.Total O eqv := ⟨heq, fun a b hab => by
    simp only [equiv, Bool.and_eq_true, Bool.not_eq_true'] at hab
    exact htotal a b hab.1 hab.2⟩
  have hsame : O.same = eqv := by funext a b; exact h3 a b
  have hspec : SetSpec.iterSpec (setOrder O.lt eqv) = SetSpec.iterSpec O := by
    unfold SetSpec.iterSpec
    congr 1
    funext op; exact (SetSpec.step_congr O rfl hsame op).symm
  rw [hspec]
  exact (SS.iterSys_lawful h ht h4).hist evs hv (IterSys.rel_start (SS.reachable_inv h hs))

/-- C58: in every schedule of iterators over the keys, the values and the items of a SortedDict, of requests and of other
calls, each answer is the promised one.  While iterating one may also give a key that is present a new value, by
`sd[k] = v` or `setdefault`; iterators over values and items yield the value that the key has when it is reached. -/
theorem C58_dict {c : ListClass κ} {lt eqv : κ → κ → Bool} {s : SD κ ν c.State} (hc : c.Orders lt eqv)
    (he : IsEquiv eqv) (hs : SD.Reachable eqv c.api s) (evs : List (Event (DIterKind κ) (SDOp κ ν)))
    (hv : ∀ ev ∈ evs, ev.Valid SDOp.Valid) :
    let spec := runHist (DictSpec.iterSpec eqv (setOrder lt eqv)).step evs (s.dict, [])
    let real := runHist (SD.iterSys eqv c).step evs (s, [])
    real.1.length = spec.1.length ∧
    (∀ (i : Nat) r r', spec.1[i]? = some r → real.1[i]? = some r' → Meets r r') ∧ real.2.1.dict = spec.2.1 := by
  obtain ⟨O, I, h1, rfl, h3, h4⟩ := hc.iterable
  have h : SD.Good c.api O eqv I := ⟨he, h1, h3⟩
  have hsame : O.same = eqv := by funext a b; exact h3 a b
  have hspec : DictSpec.iterSpec (ν := ν) eqv (setOrder O.lt eqv) = DictSpec.iterSpec eqv O := by
    unfold DictSpec.iterSpec
    congr 1
    funext op; exact (DictSpec.step_congr O rfl hsame op).symm
  rw [hspec]
  exact (SD.iterSys_lawful h h4).hist evs hv (IterSys.rel_start (SD.reachable_inv h hs))

end SetsAndDicts

/-! ## The hypotheses are met -/

namespace Demo

/-- Three iterators, of which two are asked in turn, queries in between, then a mutation. -/
def schedule : List (Event (IterKind Int) (Op Int)) :=
  [.opens .reversed, .next 0, .opens (.irange (some 3) (some 5) false true false), .next 1, .call (.index 7 none none),
   .next 0, .next 1, .next 1, .next 1, .opens (.islice (some 1) (some (-1)) true), .next 2, .call (.add 4), .next 2,
   .next 3, .opens .iter, .next 3]

theorem schedule_valid : ∀ ev ∈ schedule, ev.Valid Op.Valid := by simp [schedule, Event.Valid, Op.Valid]

example := C57_list intEnv_lawful sl_reachable schedule schedule_valid

/-- What is promised for that schedule: one answer only is left open, that of the iterator created before `add`. -/
example : (runHist (Spec.iterSpec (Spec.Order.ofValues ilt)).step schedule (Core.iter sl, [])).1 =
    [.ok (some .opened), .ok (some (.value 9)), .ok (some .opened), .ok (some (.value 4)), .ok (some (.result (.int 5))),
     .ok (some (.value 8)), .ok (some (.value 5)), .ok (some .stop), .ok (some .stop), .ok (some .opened),
     .ok (some (.value 8)), .ok (some (.result .none)), .ok none, .ok (some .noIterator), .ok (some .opened),
     .ok (some (.value 3))] := by decide +kernel

example := C57_each_value_once intEnv_lawful sl_reachable [(.iter, Cursor.iter)] .reversed
  [.next 1, .next 0, .call (.count 3), .next 1, .opens .iter, .next 2, .next 1] (by simp [Event.Valid, Op.Valid])
  (by simp [Event.Valid, Op.isQuery])

example := C57_key_list tensEnv_lawful skl_reachable
  [.opens (.irangeKey (some 3) (some 5) true false true), .next 0, .call (.bisectKeyLeft 4), .next 0,
   .opens (.kind (.irange (some 33) none true true false)), .next 1, .next 0, .call (.op (.discard 31)), .next 1]
  (by simp [Event.Valid, KOp.Valid, Op.Valid])

example := C57_each_value_once_key tensEnv_lawful skl_reachable [] (.irangeKey (some 3) (some 5) true false true)
  [.next 0, .call (.bisectKeyLeft 4), .next 0, .next 0] (by simp [Event.Valid, KOp.Valid])
  (by simp [Event.Valid, KOp.isQuery])

example := C57_set intClass_orders (iset_lawful true) (fun a b => by rw [Bool.eq_iff_iff]; simp [equiv, ilt]; omega)
  (fun a b h1 h2 => by simp [ilt] at h1 h2; omega) set1_reachable
  [.opens .iter, .next 0, .call (.add 5), .next 0, .call (.union [[1, 2]]), .next 0, .call (.discard 77), .next 0]
  (by simp [Event.Valid, SSOp.Valid])

/-- The value of a key is changed before the iterator over items reaches it. -/
def dictSchedule : List (Event (DIterKind Int) (SDOp Int Int)) :=
  [.opens .items, .opens (.keys .reversed), .next 0, .call (.setitem 31 77), .next 1, .next 0, .next 0,
   .call (.setdefault 31 0), .call (.pop 31 none), .next 0]

theorem dictSchedule_valid : ∀ ev ∈ dictSchedule, ev.Valid SDOp.Valid := by
  simp [dictSchedule, Event.Valid, SDOp.Valid]

example := C58_dict tensClass_orders ieqv_equiv dict2_reachable dictSchedule dictSchedule_valid
example := C58_dict intClass_orders ieqv_equiv dict1_reachable dictSchedule dictSchedule_valid

example : (runHist (DictSpec.iterSpec (equiv ilt) (setOrder ilt (equiv ilt))).step dictSchedule (dict1.dict, [])).1 =
    [.ok (some .opened), .ok (some .opened), .ok (some (.value (.item 7 5))), .ok (some (.result .none)),
     .ok (some (.value (.key 71))), .ok (some (.value (.item 25 2))), .ok (some (.value (.item 31 77))),
     .ok (some (.result (.val 77))), .ok (some (.result (.val 77))), .ok none] := by decide +kernel

end Demo
end Verif
