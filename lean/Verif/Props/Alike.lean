import Verif.Proofs.Alike
import Verif.Props.Views
import Verif.Props.Audit
import Verif.Props.Gen
/-!
# Containers that show the same contents are interchangeable (C86)

What a container was built from, in which order, with which calls, with which load factor, and in which order the
built-in set inside it yields its values, leaves no trace: two containers that show the same contents now answer every
history of calls alike and show the same contents after it.
-/

namespace Verif
open PyDict (lookup)

section Lists
variable {α : Type} {lt eqv : α → α → Bool} {c c' : ListClass α} {s : c.State} {t : c'.State}

theorem Spec.step_congr {O O' : Spec.Order α} (hl : O.lt = O'.lt) (hs : O.same = O'.same) (op : Op α)
    (hop : ∀ o other, op ≠ .compare o other) : Spec.step O op = Spec.step O' op := by
  obtain ⟨l, e, m⟩ := O
  obtain ⟨l', e', m'⟩ := O'
  simp only at hl hs
  subst hl hs
  cases op with
  | compare o other => exact absurd rfl (hop o other)
  | _ => rfl

/-- C86 (lists): a SortedList or a SortedKeyList and another one, of the same or of the other class, with the same order
and the same equality.  If they show the same values now, then every history of calls that are not comparisons of whole
sequences gives the same results with both, and they show the same values afterwards.  (Comparisons of whole sequences
use the operators of the values, which are not part of the order.) -/
theorem C86_list (hc : c.Orders lt eqv) (hc' : c'.Orders lt eqv) (hs : c.api.Reachable s) (ht : c'.api.Reachable t)
    (hst : c.api.iter s = c'.api.iter t) (ops : List (Op α)) (hv : ∀ op ∈ ops, op.Valid)
    (hops : ∀ op ∈ ops, ∀ o other, op ≠ .compare o other) :
    (runHist c.api.step ops s).1 = (runHist c'.api.step ops t).1 ∧
      c.api.iter (runHist c.api.step ops s).2 = c'.api.iter (runHist c'.api.step ops t).2 := by
  obtain ⟨O, I, h, h1, h2⟩ := hc.lawful
  obtain ⟨O', I', h', h1', h2'⟩ := hc'.lawful
  have hsame : O.same = O'.same := by funext a b; rw [h2, h2']
  obtain ⟨a1, a2, _⟩ := Refines.hist (spec := Spec.step O') ops (fun op ho => by
    rw [← Spec.step_congr (h1.trans h1'.symm) hsame op (hops op ho)]
    exact h.step op (hv op ho)) (h.reachable hs)
  obtain ⟨b1, b2, _⟩ := h'.hist ops hv (h'.reachable ht)
  rw [hst] at a1 a2
  exact ⟨a1.trans b1.symm, a2.trans b2.symm⟩

end Lists

section Sets
variable {τ τ' α : Type} [DecidableEq α] {S : SetOps τ α} {S' : SetOps τ' α} {c c' : ListClass α} {lt eqv : α → α → Bool}
  {s : SS τ c.State} {t : SS τ' c'.State}

/-- C86 (sets): two sorted sets with the same order, which tells different values apart, whose built-in sets may yield
their values in different orders (because of different hash seeds, or different pasts).  If they show the same values
now, then every history of calls gives the same results with both, and they show the same values afterwards. -/
theorem C86_set (hc : c.Orders lt eqv) (hc' : c'.Orders lt eqv) (hS : S.Lawful eqv) (hS' : S'.Lawful eqv)
    (heq : ∀ a b, eqv a b = decide (a = b)) (htotal : ∀ a b, lt a b = false → lt b a = false → a = b)
    (hs : SS.Reachable S c.api s) (ht : SS.Reachable S' c'.api t) (hst : SS.iter c.api s = SS.iter c'.api t)
    (ops : List (SSOp α)) (hv : ∀ op ∈ ops, op.Valid) :
    (runHist (SS.step S c.api) ops s).1 = (runHist (SS.step S' c'.api) ops t).1 ∧
      SS.iter c.api (runHist (SS.step S c.api) ops s).2 = SS.iter c'.api (runHist (SS.step S' c'.api) ops t).2 := by
  have run : ∀ {τ : Type} {S : SetOps τ α} {c : ListClass α} {s : SS τ c.State}, c.Orders lt eqv → S.Lawful eqv →
      SS.Reachable S c.api s →
      (runHist (SS.step S c.api) ops s).1 = (runHist (SetSpec.step (setOrder lt eqv)) ops (SS.iter c.api s)).1 ∧
      SS.iter c.api (runHist (SS.step S c.api) ops s).2 =
        (runHist (SetSpec.step (setOrder lt eqv)) ops (SS.iter c.api s)).2 := by
    intro τ S c s hc hS hs
    obtain ⟨O, I, h, rfl⟩ := SS.good hc hS
    have ht : SS.Total O eqv := ⟨heq, fun a b hab => by
      simp only [equiv, Bool.and_eq_true, Bool.not_eq_true'] at hab
      exact htotal a b hab.1 hab.2⟩
    have hsame : O.same = eqv := by funext a b; exact h.same a b
    have hstep : SetSpec.step (setOrder O.lt eqv) = SetSpec.step O := by
      funext op; exact (SetSpec.step_congr O rfl hsame op).symm
    obtain ⟨r1, r2, _⟩ := Refines.hist ops (fun op ho => SS.step_refines h ht op (hv op ho)) (SS.reachable_inv h hs)
    rw [hstep]
    exact ⟨r1, r2⟩
  obtain ⟨a1, a2⟩ := run hc hS hs
  obtain ⟨b1, b2⟩ := run hc' hS' ht
  rw [hst] at a1 a2
  exact ⟨a1.trans b1.symm, a2.trans b2.symm⟩

/-- C86 (sets), continued: two such sorted sets with the same members show the same values.  So sets that are equal
(`s == t`) are interchangeable. -/
theorem C86_set_members (hc : c.Orders lt eqv) (hc' : c'.Orders lt eqv) (hS : S.Lawful eqv) (hS' : S'.Lawful eqv)
    (heq : ∀ a b, eqv a b = decide (a = b)) (htotal : ∀ a b, lt a b = false → lt b a = false → a = b)
    (hs : SS.Reachable S c.api s) (ht : SS.Reachable S' c'.api t)
    (hst : ∀ v, SS.contains S v s = SS.contains S' v t) : SS.iter c.api s = SS.iter c'.api t := by
  have run : ∀ {τ : Type} {S : SetOps τ α} {c : ListClass α} {s : SS τ c.State}, c.Orders lt eqv → S.Lawful eqv →
      SS.Reachable S c.api s → Sorted lt (SS.iter c.api s) ∧ (SS.iter c.api s).Nodup ∧
        ∀ v, SS.contains S v s = decide (v ∈ SS.iter c.api s) := by
    intro τ S c s hc hS hs
    obtain ⟨O, I, h, rfl⟩ := SS.good hc hS
    have ht : SS.Total O eqv := ⟨heq, fun a b hab => by
      simp only [equiv, Bool.and_eq_true, Bool.not_eq_true'] at hab
      exact htotal a b hab.1 hab.2⟩
    have hi := SS.reachable_inv h hs
    exact ⟨hi.sorted' h, ht.nodup (hi.distinct' h), fun v => by
      rw [SS.contains, hi.mem h, ← ht.any]; rfl⟩
  obtain ⟨a1, a2, a3⟩ := run hc hS hs
  obtain ⟨b1, b2, b3⟩ := run hc' hS' ht
  obtain ⟨O, I, h, rfl⟩ := SS.good hc hS
  have htot : SS.Total O eqv := ⟨heq, fun a b hab => by
    simp only [equiv, Bool.and_eq_true, Bool.not_eq_true'] at hab
    exact htotal a b hab.1 hab.2⟩
  refine htot.unique a1 b1 a2 b2 fun v => ?_
  have := hst v
  rw [a3, b3] at this
  simpa using this

/-- C86 (sets), continued: sets that are constructed from the same values, in whatever order and with whatever
repetitions they come, and whatever the hash seed, answer every history of calls alike. -/
theorem C86_set_new (hc : c.Orders lt eqv) (hc' : c'.Orders lt eqv) (hS : S.Lawful eqv) (hS' : S'.Lawful eqv)
    (heq : ∀ a b, eqv a b = decide (a = b)) (htotal : ∀ a b, lt a b = false → lt b a = false → a = b)
    {xs ys : List α} (hxy : ∀ v, v ∈ xs ↔ v ∈ ys) (e : SS.new S c.api (some xs) = .ok s)
    (e' : SS.new S' c'.api (some ys) = .ok t) (ops : List (SSOp α)) (hv : ∀ op ∈ ops, op.Valid) :
    (runHist (SS.step S c.api) ops s).1 = (runHist (SS.step S' c'.api) ops t).1 ∧
      SS.iter c.api (runHist (SS.step S c.api) ops s).2 = SS.iter c'.api (runHist (SS.step S' c'.api) ops t).2 := by
  have run : ∀ {τ : Type} {S : SetOps τ α} {c : ListClass α} {s : SS τ c.State} {xs : List α}, c.Orders lt eqv →
      S.Lawful eqv → SS.new S c.api (some xs) = .ok s → ∀ v, SS.contains S v s = decide (v ∈ xs) := by
    intro τ S c s xs hc hS e v
    obtain ⟨O, I, h, rfl⟩ := SS.good hc hS
    obtain ⟨s', e', hi, hp⟩ := SS.new_ok h (some xs)
    rw [e] at e'; cases e'
    have ht : SS.Total O eqv := ⟨heq, fun a b hab => by
      simp only [equiv, Bool.and_eq_true, Bool.not_eq_true'] at hab
      exact htotal a b hab.1 hab.2⟩
    rw [SS.contains, hi.mem h]
    rw [show (c.api.iter s.list) = SS.iter c.api s from rfl, any_perm hp]
    rw [any_foldl_addNew h.equiv, ht.any, ht.any]
    simp
  refine C86_set hc hc' hS hS' heq htotal (.new e) (.new e') ?_ ops hv
  refine C86_set_members hc hc' hS hS' heq htotal (.new e) (.new e') fun v => ?_
  rw [run hc hS e, run hc' hS' e', Bool.eq_iff_iff]
  simp [hxy]

end Sets

section Dicts
variable {κ ν : Type} {c c' : ListClass κ} {lt eqv : κ → κ → Bool} {s : SD κ ν c.State} {t : SD κ ν c'.State}

/-- C86 (dicts): two sorted dicts with the same order, which may leave keys that are different without an order.  If they
show the same items now, then every history of calls gives the same results with both, and they show the same items
afterwards: neither the order in which the items were inserted nor anything else of the past can be told. -/
theorem C86_dict (hc : c.Orders lt eqv) (hc' : c'.Orders lt eqv) (he : IsEquiv eqv) (hs : SD.Reachable eqv c.api s)
    (ht : SD.Reachable eqv c'.api t) (hst : SD.items eqv c.api s = SD.items eqv c'.api t) (ops : List (SDOp κ ν))
    (hv : ∀ op ∈ ops, op.Valid) :
    (runHist (SD.step eqv c.api) ops s).1 = (runHist (SD.step eqv c'.api) ops t).1 ∧
      SD.items eqv c.api (runHist (SD.step eqv c.api) ops s).2 =
        SD.items eqv c'.api (runHist (SD.step eqv c'.api) ops t).2 := by
  have run : ∀ {c : ListClass κ} {s : SD κ ν c.State}, c.Orders lt eqv → SD.Reachable eqv c.api s →
      PyDict.Keyed eqv s.dict ∧ SD.items eqv c.api s = .ok (DictSpec.sortedItems eqv (setOrder lt eqv) s.dict) ∧
      (runHist (SD.step eqv c.api) ops s).1 = (runHist (DictSpec.step eqv (setOrder lt eqv)) ops s.dict).1 ∧
      SD.items eqv c.api (runHist (SD.step eqv c.api) ops s).2 =
        .ok (DictSpec.sortedItems eqv (setOrder lt eqv) (runHist (DictSpec.step eqv (setOrder lt eqv)) ops s.dict).2) := by
    intro c s hc hs
    obtain ⟨O, I, h, rfl⟩ := SD.good hc he
    have hsame : O.same = eqv := by funext a b; exact h.same a b
    have hstep : DictSpec.step eqv (setOrder O.lt eqv) = DictSpec.step (ν := ν) eqv O := by
      funext op; exact (DictSpec.step_congr O rfl hsame op).symm
    have hi := SD.reachable_inv h hs
    obtain ⟨r1, r2, r3⟩ := Refines.hist ops (fun op ho => SD.step_refines h op (hv op ho)) hi
    rw [hstep]
    refine ⟨hi.keyed, (SD.items_ok h hi).trans rfl, r1, ?_⟩
    rw [SD.items_ok h r3, r2]; rfl
  have hO : StrictWeakOrder (setOrder lt eqv).lt := by
    obtain ⟨O, I, h, rfl⟩ := SD.good hc he
    exact h.order
  obtain ⟨a0, a1, a2, a3⟩ := run hc hs
  obtain ⟨b0, b1, b2, b3⟩ := run hc' ht
  rw [a1, b1] at hst
  obtain ⟨h1, h2⟩ := DictSpec.Alike.hist hO he ops ⟨a0, b0, Except.ok.inj hst⟩
  exact ⟨by rw [a2, b2, h1], by rw [a3, b3, h2.items]⟩

/-- C86 (dicts), continued: sorted dicts that are equal (`s == t`), with an order that tells all keys apart and identity
as `==`, answer every history of calls alike. -/
theorem C86_dict_equal [DecidableEq κ] [DecidableEq ν] {t : SD κ ν c.State} (hc : c.Orders lt eqv)
    (heq : ∀ a b, eqv a b = decide (a = b)) (htotal : ∀ a b, lt a b = false → lt b a = false → a = b)
    (hs : SD.Reachable eqv c.api s) (ht : SD.Reachable eqv c.api t)
    (h : SD.eq eqv (fun a b => decide (a = b)) t.dict s = true) (ops : List (SDOp κ ν)) (hv : ∀ op ∈ ops, op.Valid) :
    (runHist (SD.step eqv c.api) ops s).1 = (runHist (SD.step eqv c.api) ops t).1 ∧
      SD.items eqv c.api (runHist (SD.step eqv c.api) ops s).2 =
        SD.items eqv c.api (runHist (SD.step eqv c.api) ops t).2 :=
  C86_dict hc hc ⟨fun a => by simp [heq], fun a b => by simp [heq, eq_comm], fun a b d => by
    simp only [heq, decide_eq_true_eq]; exact Eq.trans⟩ hs ht (C56_equal_items hc heq htotal hs ht h) ops hv

end Dicts

/-! ## Cases that meet the hypotheses, and a counterexample -/

namespace Demo

/-- `SortedSet([3, 5, 1, 5])` where the built-in set yields its values against the order of insertion -/
def genSetFlip : SS { l : List Int // Distinct (equiv ilt) l } intClass.State :=
  (SS.update (iset true) intClass.api [[3, 5, 1, 5]] ⟨(iset true).empty, (St.empty : St Int Int)⟩).2

theorem genSet_new : SS.new (iset false) intClass.api (some [5, 1, 3]) = .ok genSet := by rfl
theorem genSetFlip_new : SS.new (iset true) intClass.api (some [3, 5, 1, 5]) = .ok genSetFlip := by rfl

/-- The built-in sets yield their values in different orders. -/
example : (iset false).toList genSet.set ≠ (iset true).toList genSetFlip.set := by decide +kernel

example := C86_set_new intClass_orders intClass_orders (iset_lawful false) (iset_lawful true) ieq_decide ilt_total
  (fun v => by simp; omega) genSet_new genSetFlip_new setOps setOps_valid
example := C86_set intClass_orders intClass_orders (iset_lawful false) (iset_lawful true) ieq_decide ilt_total
  (.new genSet_new) (.new genSetFlip_new) (by decide +kernel) setOps setOps_valid
example := C86_set_members intClass_orders intClass_orders (iset_lawful false) (iset_lawful true) ieq_decide ilt_total
  (.new genSet_new) (.new genSetFlip_new) fun v => by
    rw [SS.contains, SS.contains, (iset_lawful false).mem, (iset_lawful true).mem]
    simp only [show (iset false).toList genSet.set = [5, 1, 3] from by decide +kernel,
      show (iset true).toList genSetFlip.set = [3, 5, 1] from by decide +kernel, List.any_cons, List.any_nil, Bool.or_false]
    rw [Bool.eq_iff_iff]; simp [ieq_decide]; omega

/-- With a key function that does not tell values apart the order of the built-in set shows: that the order tells
different values apart is needed in `C86_set_new`. -/
example : (SS.new (iset false) tensClass.api (some [35, 31])).toOption.map (fun s =>
      SS.iter tensClass.api (SS.update (iset false) tensClass.api [[32, 52]] s).2) = some [35, 31, 32, 52] ∧
    (SS.new (iset true) tensClass.api (some [35, 31])).toOption.map (fun s =>
      SS.iter tensClass.api (SS.update (iset true) tensClass.api [[32, 52]] s).2) = some [32, 35, 31, 52] := by
  decide +kernel

/-- `sd = SortedDict([...])` again, with the items in another order and another load factor. -/
def dictBack : SD Int Int intClass.State :=
  (runHist (SD.step (equiv ilt) intClass.api) [.reset 3, .setitem 40 4, .delitem 97] (SD.update (equiv ilt) intClass.api
    (.pairs [(97, 0), (71, 4), (62, 1), (52, 0), (44, 5), (40, 1), (31, 3), (25, 2), (7, 5)] none) ⟨[], (St.empty : St Int Int)⟩).2).2

theorem dictBack_reachable : SD.Reachable (equiv ilt) intClass.api dictBack :=
  dict_reachable_hist (.new (arg := .pairs [(97, 0), (71, 4), (62, 1), (52, 0), (44, 5), (40, 1), (31, 3), (25, 2), (7, 5)] none) rfl (by rfl))
    _ (by simp [SDOp.Valid])

/-- The built-in dicts inside hold the items in different orders, and the keys are divided differently. -/
example : dict1.dict ≠ dictBack.dict ∧ dict1.list.lists ≠ dictBack.list.lists := by decide +kernel

example := C86_dict intClass_orders intClass_orders ieqv_equiv dict1_reachable dictBack_reachable (by decide +kernel) dictOps
  dictOps_valid
example := C86_dict_equal intClass_orders ieq_decide ilt_total dict1_reachable dictBack_reachable (by decide +kernel)
  dictOps dictOps_valid
/-- Keys may be tied in the order. -/
example := C86_dict tensClass_orders tensClass_orders ieqv_equiv dict2_reachable dict2_reachable rfl kdictOps kdictOps_valid

/-- `SortedKeyList([9, 8, 7, 5, 4, 3, 3, 3])`, with the default key, the identity -/
def idList : St Int Int := (SKL.update idEnv [9, 8, 7, 5, 4, 3, 3, 3] St.empty).2

abbrev idClass : ListClass Int := .keyed idEnv

theorem idClass_orders : idClass.Orders ilt (equiv ilt) := .keyed idEnv_lawful fun _ _ h => h

/-- A SortedList with load factor 1 and a SortedKeyList with the default load factor. -/
example := C86_list (c := intClass) (c' := idClass) (t := idList) intClass_orders idClass_orders sl_reachable
  (.new (xs := some [9, 8, 7, 5, 4, 3, 3, 3]) (by rfl)) (by decide +kernel) ops ops_valid (by simp [ops])

end Demo
end Verif
