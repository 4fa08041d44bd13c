import Verif.Props.DemoWild
import Verif.Props.Recover
import Verif.Proofs.WildSetStep
import Verif.Proofs.WildDictStep
/-!
# C64: a SortedSet is a set and a SortedDict is a dict even if values do not compare well

`SS.Wild` and `SD.Wild` (Verif/WildSets.lean): every call brings its own comparisons and key function, of which it is only
assumed that `x == y` implies that the built-in set or dict takes `x` and `y` for equal.  There may be no order at all, `<`
may be inconsistent, raise, or change from call to call.  The mutating calls that compare values have returned so far, or have
left the object as it was; queries, and calls by position, may have raised.

Then the two stores of the object are in step: what the set or dict answers as a set or dict is right, and what it answers by
position agrees with the order in which it iterates, whatever that order is.
-/

namespace Verif
open PyDict

section Sets
variable {α τ : Type} {S : SetOps τ α} {eqv : α → α → Bool} {c : ListClass α} {s : SS τ c.State} {L : ListAPI c.State α}

/-- C64: iterating a set yields exactly the members, each once, `len()` counts them, and `reversed()` is the other way round. -/
theorem C64_set_in_step (hS : S.Lawful eqv) (hs : SS.Wild S eqv c s) (hL : c.Erratic eqv L) :
    let l := SS.iter L s
    Distinct eqv l ∧ SS.length S s = l.length ∧ (∀ v, SS.contains S v s = l.any (eqv · v)) ∧
      SS.reversed L s = l.reverse := by
  have h := hs.inStep hS
  have e : SS.iter L s = c.values s.list := by rw [SS.iter, hL.robust.iter]
  intro l
  show Distinct eqv (SS.iter L s) ∧ SS.length S s = (SS.iter L s).length ∧
    (∀ v, SS.contains S v s = (SS.iter L s).any (eqv · v)) ∧ SS.reversed L s = (SS.iter L s).reverse
  rw [e]
  exact ⟨h.distinct hS, h.len hS, h.mem hS, hL.robust.reversed _ h.list⟩

/-- C64: every call.  It changes the members as it should, if it compares values only when it returns (`SetSpec.after`).  A call
that compares no values leaves the others in their order (`SetSpec.remaining`).  The answer is the one of a set, or of a list
with the order of iteration (`SetSpec.answer`); only calls that compare values may raise another exception.  Calls that should
raise, because of a missing value or a bad index or slice, do. -/
theorem C64_set_call (hS : S.Lawful eqv) (hs : SS.Wild S eqv c s) (hL : c.Erratic eqv L) (op : SSOp α) (hv : op.Valid) :
    let l := SS.iter L s
    let r := SS.step S L op s
    ((op.compares = true → ∃ o, r.1 = .ok o) → ∀ v, (SS.iter L r.2).any (eqv · v) = SetSpec.after eqv op l v) ∧
    (op.compares = false → SS.iter L r.2 = SetSpec.remaining op l) ∧
    (∀ a, SetSpec.answer eqv op l = some a → r.1 = a ∨ (op.compares = true ∧ ∃ e, r.1 = .error e)) ∧
    (∀ e, SetSpec.answer eqv op l = some (.error e) → r.1 = .error e) := by
  have h := SS.wild_step hS hL.robust (hs.inStep hS) op hv
  simp only [SS.iter, hL.robust.iter]
  exact ⟨h.after, h.order, h.answer, h.refuse⟩

/-- C64: `copy`, `|`, `&`, `-`, `^`, if they return, return a set with the right members, each once. -/
theorem C64_set_operators (hS : S.Lawful eqv) (hs : SS.Wild S eqv c s) (hL : c.Erratic eqv L) (op : SSOp α) {xs : List α}
    (h : (SS.step S L op s).1 = .ok (.vals xs)) (v : α) {b : Bool} (hb : SetSpec.result eqv op (SS.iter L s) v = some b) :
    Distinct eqv xs ∧ xs.any (eqv · v) = b := by
  refine SS.wild_result hS hL.robust (hs.inStep hS) op h v ?_
  rw [← hb, SS.iter, hL.robust.iter]

end Sets

section Dicts
variable {κ ν : Type} {eqv : κ → κ → Bool} {c : ListClass κ} {s : SD κ ν c.State} {L : ListAPI c.State κ}

/-- C64: iterating a dict yields exactly the keys, each once, `len()` counts them, `reversed()` is the other way round, and
iterating `sd.items()` and `sd.values()` does not raise and yields the value of each key. -/
theorem C64_dict_in_step (he : IsEquiv eqv) (hs : SD.Wild eqv c s) (hL : c.Erratic eqv L) :
    let ks := SD.iter L s
    Distinct eqv ks ∧ SD.length s = ks.length ∧ (∀ k, SD.contains eqv k s = ks.any (eqv · k)) ∧
      SD.reversed L s = ks.reverse ∧
      ∃ ps, SD.items eqv L s = .ok ps ∧ SD.values eqv L s = .ok (ps.map Prod.snd) ∧ ps.map Prod.fst = ks ∧
        ∀ p ∈ ps, SD.get eqv p.1 s = some p.2 := by
  have h := hs.inStep he
  have e : SD.iter L s = c.values s.list := by rw [SD.iter, hL.robust.iter]
  intro ks
  show Distinct eqv (SD.iter L s) ∧ SD.length s = (SD.iter L s).length ∧ (∀ k, SD.contains eqv k s = (SD.iter L s).any (eqv · k)) ∧
      SD.reversed L s = (SD.iter L s).reverse ∧
      ∃ ps, SD.items eqv L s = .ok ps ∧ SD.values eqv L s = .ok (ps.map Prod.snd) ∧ ps.map Prod.fst = SD.iter L s ∧
        ∀ p ∈ ps, SD.get eqv p.1 s = some p.2
  rw [e]
  refine ⟨h.distinct he, ?_, h.has, hL.robust.reversed _ h.list, _, SD.wild_items he hL.robust h,
    SD.wild_values he hL.robust h, DictSpec.keys_itemsIn (h.lookup he), fun p hp => ?_⟩
  · rw [← h.perm.length_eq, PyDict.keys, List.length_map]; rfl
  · obtain ⟨k, _, hk⟩ := List.mem_filterMap.1 hp
    obtain ⟨v, hv, rfl⟩ := Option.map_eq_some_iff.1 hk
    exact hv

/-- C64: every call.  It changes the items as the call on a plain dict does, if it compares keys only when it returns
(`DictSpec.after`).  A call that compares no keys leaves the others in their order (`DictSpec.remaining`).  The answer is the one
of a dict, or of a list with the order of iteration (`DictSpec.answer`); only calls that compare keys may raise another exception.
Calls that should raise, because of a missing key or a bad index or slice, do. -/
theorem C64_dict_call (he : IsEquiv eqv) (hs : SD.Wild eqv c s) (hL : c.Erratic eqv L) (op : SDOp κ ν)
    (hv : ∀ load, op = .reset load → 1 ≤ load) :
    let ks := SD.iter L s
    let r := SD.step eqv L op s
    ((op.compares = true → ∃ o, r.1 = .ok o) → r.2.dict = DictSpec.after eqv op ks s.dict) ∧
    (op.compares = false → SD.iter L r.2 = DictSpec.remaining op ks) ∧
    (∀ a, DictSpec.answer eqv op ks s.dict = some a → r.1 = a ∨ (op.compares = true ∧ ∃ e, r.1 = .error e)) ∧
    (∀ e, DictSpec.answer eqv op ks s.dict = some (.error e) → r.1 = .error e) := by
  have h := SD.wild_step he hL.robust (hs.inStep he) op hv
  simp only [SD.iter, hL.robust.iter]
  exact ⟨h.after, h.order, h.answer, h.refuse⟩

/-- C64: `copy` and `|`, if they return, return a dict with the right value for every key. -/
theorem C64_dict_operators (he : IsEquiv eqv) (hs : SD.Wild eqv c s) (hL : c.Erratic eqv L) (op : SDOp κ ν)
    {ps : List (κ × ν)} (h : (SD.step eqv L op s).1 = .ok (.items ps)) (k : κ) {o : Option ν}
    (ho : DictSpec.result eqv op s.dict k = some o) : Distinct eqv (ps.map Prod.fst) ∧ lookup eqv ps k = o :=
  SD.wild_result he hL.robust (hs.inStep he) op h k ho

end Dicts

/-! ## Sets and dicts with `nan`, and with values of two kinds -/

namespace Demo

/-- Integers that the built-in set and dict find equal if they are the same object; of these 0 behaves like `nan`. -/
def same (a b : Int) : Bool := a == b

def same_equiv : IsEquiv same := beq_equiv

theorem nan_erratic : intClass.Erratic same (SL.api nanEnv) := by
  refine ⟨nanEnv, nanEnv_sane, fun x y h => ?_, rfl⟩
  simp only [nanEnv] at h
  split at h
  · cases h
  · have h : equiv ilt x y = true := Except.ok.inj h
    simp only [equiv, ilt, Bool.and_eq_true, Bool.not_eq_true', decide_eq_false_iff_not] at h
    simp only [same, beq_iff_eq]; omega

theorem mixed_erratic : intClass.Erratic same (SL.api mixedEnv) := by
  refine ⟨mixedEnv, mixedEnv_sane, fun x y h => ?_, rfl⟩
  simpa [mixedEnv, same] using h

abbrev sameSet : SetOps { l : List Int // Distinct same l } Int := listSet same same_equiv false

/-- `ss = SortedSet([5, nan, 3, 8]); ss._reset(1); ss.add(4)` -/
def nanSet : SS { l : List Int // Distinct same l } (St Int Int) :=
  (runHist (SS.step sameSet (SL.api nanEnv)) [.reset 1, .add 4, .getInt 2]
    { set := sameSet.ofList [5, 0, 3, 8], list := (SL.update nanEnv [5, 0, 3, 8] St.empty).2 }).2

theorem nanSet_wild : SS.Wild sameSet same intClass nanSet :=
  .step (c := intClass) _ nan_erratic trivial (.step (c := intClass) _ nan_erratic trivial
    (.step (c := intClass) _ nan_erratic (Nat.le_refl 1) (.new (c := intClass) (xs := some [5, 0, 3, 8]) nan_erratic (by rfl))
      fun _ => .inl ⟨.none, by decide +kernel⟩) fun _ => .inl ⟨.none, by decide +kernel⟩) nofun

/-- It is not sorted. -/
example : SS.iter (SL.api nanEnv) nanSet = [3, 5, 0, 4, 8] := by decide +kernel

example := C64_set_in_step (listSet_lawful same same_equiv false) nanSet_wild nan_erratic
example := C64_set_in_step (listSet_lawful same same_equiv false) nanSet_wild mixed_erratic
example := C64_set_call (listSet_lawful same same_equiv false) nanSet_wild nan_erratic (.update [[1, 0], [7, 5]]) trivial
example := C64_set_operators (listSet_lawful same same_equiv false) nanSet_wild nan_erratic (.intersection [[1, 0, 5]])
  (xs := [5, 0]) (by decide +kernel) 0 (b := true) (by decide +kernel)

/-- `nan` is in the set, at position 2; `ss.discard(nan)` removes it from the built-in set and then does not find it in the
list (`sortedset.py:394-397`): it raises ValueError, as `C64_set_call` allows a call that compares values. -/
example : (SS.step sameSet (SL.api nanEnv) (.contains 0) nanSet).1 = .ok (.bool true) ∧
    (SS.step sameSet (SL.api nanEnv) (.getInt 2) nanSet).1 = .ok (.val 0) ∧
    (SS.step sameSet (SL.api nanEnv) (.discard 0) nanSet).1 = .error .valueError := by decide +kernel

/-- `sd = SortedDict([(5, 'e'), (nan, 'n'), (3, 'c'), (8, 'h')]); sd._list._reset(1); sd[4] = 'd'` -/
def nanDict : SD Int String (St Int Int) :=
  (runHist (SD.step same (SL.api nanEnv)) [.reset 1, .setitem 4 "d", .keysAt 2]
    { dict := [(5, "e"), (0, "n"), (3, "c"), (8, "h")], list := (SL.update nanEnv [5, 0, 3, 8] St.empty).2 }).2

theorem nanDict_wild : SD.Wild same intClass nanDict :=
  .step (c := intClass) _ nan_erratic nofun (.step (c := intClass) _ nan_erratic nofun
    (.step (c := intClass) _ nan_erratic (fun l h => by cases h; exact Nat.le_refl 1)
      (.new (c := intClass) (arg := .pairs [(5, "e"), (0, "n"), (3, "c"), (8, "h")] none) nan_erratic (by rfl))
      fun _ => .inl ⟨.none, by decide +kernel⟩) fun _ => .inl ⟨.none, by decide +kernel⟩) nofun

example : SD.iter (SL.api nanEnv) nanDict = [3, 5, 0, 4, 8] := by decide +kernel

example := C64_dict_in_step same_equiv nanDict_wild nan_erratic
example := C64_dict_call same_equiv nanDict_wild nan_erratic (.update (.pairs [(1, "a"), (0, "m")] none)) nofun
example := C64_dict_call same_equiv nanDict_wild mixed_erratic (.setitem (-1) "x") nofun
example := C64_dict_operators same_equiv nanDict_wild nan_erratic (.or [(0, "m")])
  (ps := [(3, "c"), (4, "d"), (5, "e"), (0, "m"), (8, "h")]) (by decide +kernel) 0 (o := some "m") (by decide +kernel)

/-- A dict that lost its keys (`Verif/Props/Recover.lean`) and was cleared is in step again. -/
theorem wreckDict_cleared : SD.Wild (equiv ilt) intClass (SD.clear (SL.api intEnv) wreckDict).2 := by
  refine .cleared (c := intClass) ⟨intEnv, ⟨fun xs ys e => ?_, log2_ok⟩, fun x y h => ?_, rfl⟩ wreckDict_ever
  · cases e; simpa using insertAll_perm (Spec.Order.ofValues ilt) [] xs
  · have := intEnv_lawful.cmp .eq x y
    rw [this] at h
    exact Except.ok.inj h

end Demo
end Verif
