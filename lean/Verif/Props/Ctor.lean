import Verif.Proofs.Ctor
import Verif.Props.SortedKeyList
/-!
# C62: constructors

`keyFn f` says what the callable `f` computes and how its results compare; `identity` is the default key function of
SortedKeyList.  `cls none` is the list class of a container without key function, `cls (some f)` that of one with key
function `f`; `lt key` is the order that results.
-/

namespace Verif
variable {F α κ ν τ : Type}

/-! ## Sorted lists -/

section Lists
variable {E : Env α} {keyFn : F → KeyFn α} {identity : F} {lt : α → α → Bool}

/-- C62: `SortedList(iterable)` and `SortedList(iterable, key=None)` are plain sorted lists with the values of `iterable`,
sorted stably.  The same holds for subclasses. -/
theorem C62_list_without_key (hE : E.Lawful lt) {cls : ListType} (hcls : cls = .sortedList ∨ cls = .subclassOfSortedList)
    {key : KeyArg F} (hkey : key = .absent ∨ key = .none) (iterable : Option (List α)) :
    ∃ s, listCall E keyFn identity cls iterable key = .ok (cls, .plain s) ∧ (SL.api E).Reachable s ∧
      IsStableSort lt (iterable.getD []) (Core.iter s) := by
  obtain ⟨s, e, _, h⟩ := SL.new_ok hE iterable
  refine ⟨s, ?_, .new (xs := iterable) e, ?_⟩
  · rcases hcls with rfl | rfl <;> rcases hkey with rfl | rfl <;>
      simp only [listCall, listNew, listInitKey, bind, Except.bind, e] <;> rfl
  · rw [h]
    exact Spec.insertAll_isStableSort (O := Spec.Order.ofValues lt) hE.order Spec.sorted_nil _

/-- C62: `SortedKeyList(iterable, key=f)` and `SortedList(iterable, key=f)` are sorted-key lists with key function `f` and the
values of `iterable`, sorted stably by key.  So are subclasses of SortedKeyList. -/
theorem C62_list_with_key {f : F} {key : α → (keyFn f).κ} {klt : (keyFn f).κ → (keyFn f).κ → Bool} {veq : α → α → Bool}
    (hK : (keyFn f).env.Lawful key klt veq) {cls : ListType} (hcls : cls ≠ .subclassOfSortedList)
    (iterable : Option (List α)) :
    ∃ s, listCall E keyFn identity cls iterable (.func f) =
        .ok (if cls = .subclassOfSortedKeyList then .subclassOfSortedKeyList else .sortedKeyList, .keyed f s) ∧
      SKL.Reachable (keyFn f).env s ∧ IsStableSort (fun a b => klt (key a) (key b)) (iterable.getD []) (Core.iter s) := by
  obtain ⟨s, e, _, h⟩ := SKL.new_ok (cmp := (keyFn f).env.vcmp) hK iterable
  refine ⟨s, ?_, .new (xs := iterable) e, ?_⟩
  · cases cls with
    | subclassOfSortedList => exact absurd rfl hcls
    | _ => simp only [listCall, listNew, listInitKey, bind, Except.bind, e] <;> rfl
  · rw [h]
    exact Spec.insertAll_isStableSort (O := Spec.Order.ofKey key klt veq (keyFn f).env.vcmp) (hK.order.comap key)
      Spec.sorted_nil _

/-- C62: without `key`, SortedKeyList uses the identity function. -/
theorem C62_key_list_default {cls : ListType} (hcls : cls = .sortedKeyList ∨ cls = .subclassOfSortedKeyList)
    (iterable : Option (List α)) :
    listCall E keyFn identity cls iterable .absent = listCall E keyFn identity cls iterable (.func identity) := by
  rcases hcls with rfl | rfl <;> rfl

/-- C62: a key function for a subclass of SortedList is a TypeError, whatever the values. -/
theorem C62_subclass_key (f : F) (iterable : Option (List α)) :
    listCall E keyFn identity .subclassOfSortedList iterable (.func f) = .error .typeError := rfl

/-- C62: `SortedKeyList(iterable, key=None)` is a TypeError, unless there are no values; then it gives an empty object to which
nothing can be added. -/
theorem C62_key_list_none (hE : E.Lawful lt) {cls : ListType}
    (hcls : cls = .sortedKeyList ∨ cls = .subclassOfSortedKeyList) (iterable : Option (List α)) :
    (iterable.getD [] ≠ [] ∧ listCall E keyFn identity cls iterable .none = .error .typeError) ∨
    (iterable.getD [] = [] ∧ ∃ s, listCall E keyFn identity cls iterable .none = .ok (cls, .nullKey s) ∧ Core.iter s = [] ∧
      ∀ v, SKL.add E.nullKey v s = (.error .typeError, s)) := by
  have hcall : listCall E keyFn identity cls iterable .none =
      (SKL.new E.nullKey iterable).map fun s => (cls, .nullKey s) := by
    rcases hcls with rfl | rfl <;> simp only [listCall, listNew, listInitKey, bind, Except.bind] <;>
      cases SKL.new E.nullKey iterable <;> rfl
  have hnil : E.sorted [] = .ok [] := by
    obtain ⟨ys, e, h⟩ := hE.sorted []
    rw [e, h.perm.eq_nil]
  rw [hcall]
  match iterable with
  | none => exact .inr ⟨rfl, _, rfl, rfl, fun v => rfl⟩
  | some [] =>
    have hu : SKL.update E.nullKey [] (St.empty : St α α) = (.ok (), St.empty) := by
      rw [← SKL.fill_nil E.nullKey]
      simp only [SKL.update, Env.nullKey, hnil]; rfl
    exact .inr ⟨rfl, St.empty, by simp only [SKL.new, hu]; rfl, rfl, fun v => rfl⟩
  | some (x :: xs) =>
    refine .inl ⟨by simp, ?_⟩
    obtain ⟨ys, e, h⟩ := hE.sorted (x :: xs)
    have hys : ys ≠ [] := fun h0 => by subst h0; exact absurd h.perm.nil_eq (by simp)
    have hf := SKL.fill_nullKey E hys
    have hu : SKL.update E.nullKey (x :: xs) St.empty = SKL.fill E.nullKey ys St.empty := by
      simp only [SKL.update, Env.nullKey, e]; rfl
    simp only [SKL.new, hu]
    revert hf
    generalize SKL.fill E.nullKey ys St.empty = r
    obtain ⟨r, s⟩ := r
    rintro rfl
    rfl

end Lists

/-! ## Sorted sets -/

/-- C62: `SortedSet(iterable, key=f)` has key function `f` and the values of `iterable`, in the order of `f`. -/
theorem C62_set {S : SetOps τ α} {cls : Option F → ListClass α} {lt : Option F → α → α → Bool} {eqv : α → α → Bool}
    (hcls : ∀ key, (cls key).Orders (lt key) eqv) (hS : S.Lawful eqv) (iterable : Option (List α)) (key : Option F) :
    ∃ s, setCall S cls iterable key = .ok { key := key, state := s } ∧ SS.Reachable S (cls key).api s ∧
      Sorted (lt key) (SS.iter (cls key).api s) ∧
      ∀ v, SS.contains S v s = true ↔ ∃ y ∈ iterable.getD [], eqv y v = true := by
  obtain ⟨O, I, h, h0⟩ := SS.good (hcls key) hS
  obtain ⟨s, e, hi, hp⟩ := SS.new_ok h iterable
  have hr : SS.Reachable S (cls key).api s := .new e
  refine ⟨s, by simp only [setCall, e]; rfl, hr, (C36_two_stores (hcls key) hS hr).1, fun v => ?_⟩
  rw [SS.contains, hi.mem h, show ((cls key).api.iter s.list).any _ = _ from any_perm hp, any_foldl_addNew h.equiv]
  simp

/-! ## Sorted dicts -/

section Dicts
variable {eqv : κ → κ → Bool} {cls : Option F → ListClass κ} {lt : Option F → κ → κ → Bool}

/-- C62: `SortedDict(*args, **kwargs)` raises exactly if the arguments have no meaning; else it has the key function given,
the last value given for each key, and its keys in the order of the key function. -/
theorem C62_dict (hcls : ∀ key, (cls key).Orders (lt key) eqv) (he : IsEquiv eqv) (args : List (DArg F κ ν))
    (kwargs : List (κ × ν)) :
    match DictSpec.arguments args kwargs with
    | .error e => dictCall eqv cls args kwargs = .error e
    | .ok (key, items) => ∃ s, dictCall eqv cls args kwargs = .ok { key := key, state := s } ∧
        SD.Reachable eqv (cls key).api s ∧ (∀ k, SD.get eqv k s = lastValue eqv items k) ∧
        Sorted (lt key) (SD.iter (cls key).api s) := by
  have h := dictCall_spec hcls he args kwargs
  revert h
  cases DictSpec.arguments args kwargs with
  | error e => exact id
  | ok r =>
    obtain ⟨key, items⟩ := r
    rintro ⟨s, e, hr, hd⟩
    refine ⟨s, e, hr, fun k => ?_, (C44_two_stores (hcls key) he hr).1⟩
    rw [SD.get, hd, PyDict.ofPairs, PyDict.lookup_update he, lastValue_eq]
    show (PyDict.lookup eqv items.reverse k).or none = _
    rw [Option.or_none]

/-- C62: `sd.update(*args, **kwargs)`: the last value given for a key replaces the old one.  If the arguments have no meaning, it
raises and changes nothing, except that an empty dict keeps the pairs that an iterable yielded before it raised. -/
theorem C62_update {c : ListClass κ} {lt : κ → κ → Bool} {s : SD κ ν c.State} (hc : c.Orders lt eqv) (he : IsEquiv eqv)
    (hs : SD.Reachable eqv c.api s) (args : List (DArg F κ ν)) (kwargs : List (κ × ν)) :
    match DictSpec.given args kwargs with
    | .ok items => ∃ s', SD.updateCall eqv c.api args kwargs s = (.ok (), s') ∧ SD.Reachable eqv c.api s' ∧
        ∀ k, SD.get eqv k s' = (lastValue eqv items k).or (SD.get eqv k s)
    | .error e => (SD.updateCall eqv c.api args kwargs s).1 = .error e ∧
        (SD.length s ≠ 0 ∨ (∀ items, args ≠ [.pairs items (some e)]) → (SD.updateCall eqv c.api args kwargs s).2 = s) := by
  cases hg : DictSpec.given args kwargs with
  | ok items =>
    have hb := builtinPairs_ok hg
    have hf : (DictArg.ofCall args kwargs).fail = none := by rw [DictArg.ofCall_fail, hb]
    obtain ⟨s', h⟩ := C46_update hc he hs hf
    rw [DictArg.ofCall_items, hb] at h
    simp only [SD.updateCall_eq]
    exact ⟨s', h⟩
  | error e =>
    have hb := builtinPairs_error hg
    have hf : (DictArg.ofCall args kwargs).fail = some e := by rw [DictArg.ofCall_fail, hb]
    show (SD.updateCall eqv c.api args kwargs s).1 = _ ∧ _
    rw [SD.updateCall_eq]
    obtain ⟨d, l⟩ := s
    by_cases h0 : d.length = 0
    · obtain rfl : d = [] := List.length_eq_zero_iff.1 h0
      have hu : SD.update eqv c.api (DictArg.ofCall args kwargs) (⟨[], l⟩ : SD κ ν c.State) =
          (.error e, ⟨PyDict.update eqv [] (builtinPairs args kwargs).1, l⟩) := by
        simp only [SD.update, Py.get_bind, List.length_nil, if_true]
        have hd : SD.dictUpdate eqv (DictArg.ofCall args kwargs) ({ dict := [], list := l } : SD κ ν c.State) =
            (.error e, { dict := PyDict.update eqv [] (DictArg.ofCall args kwargs).items, list := l }) := by
          simp only [SD.dictUpdate, hf]; rfl
        show Py.bind (SD.dictUpdate eqv _) _ _ = _
        simp only [Py.bind, hd, DictArg.ofCall_items]
      rw [hu]
      refine ⟨rfl, fun h => ?_⟩
      rcases h with h | h
      · exact absurd rfl h
      · have : (builtinPairs args kwargs).1 = [] := by
          unfold DictSpec.given at hg
          split at hg <;> first | cases hg | skip
          · exact absurd rfl (h _)
          all_goals simp [builtinPairs]
        rw [this]; rfl
    · have hu : SD.update eqv c.api (DictArg.ofCall args kwargs) (⟨d, l⟩ : SD κ ν c.State) = (.error e, ⟨d, l⟩) := by
        have hp : SD.pairsOf eqv (DictArg.ofCall args kwargs) = .error e := by
          revert hf
          cases DictArg.ofCall args kwargs with
          | dict items => intro hf; cases hf
          | pairs items fail => intro hf; cases hf; rfl
        simp only [SD.update, Py.get_bind, if_neg h0, hp]
        rfl
      rw [hu]
      exact ⟨rfl, fun _ => rfl⟩

/-- C62: `sd.copy()` has the key function of `sd` and the same items in the same order. -/
theorem C62_copy (hcls : ∀ key, (cls key).Orders (lt key) eqv) (he : IsEquiv eqv) {o : DictObj ν cls}
    (ho : SD.Reachable eqv (cls o.key).api o.state) :
    ∃ s', dictCopy eqv o = .ok { key := o.key, state := s' } ∧ SD.Reachable eqv (cls o.key).api s' ∧
      SD.items eqv (cls o.key).api s' = SD.items eqv (cls o.key).api o.state := by
  obtain ⟨O, I, h, h0⟩ := SD.good (hcls o.key) he
  obtain ⟨s', e, hr, _, _, h1⟩ := C48_copy (hcls o.key) he ho
  have hi := SD.items_ok h (SD.reachable_inv h ho)
  refine ⟨s', ?_, hr, h1⟩
  rw [SD.copy, hi] at e
  exact dictDerived hi (pairs := id) e

/-- C62: `sd | m` has the key function of `sd`; the items of `m` win. -/
theorem C62_or (hcls : ∀ key, (cls key).Orders (lt key) eqv) (he : IsEquiv eqv) {o : DictObj ν cls}
    (ho : SD.Reachable eqv (cls o.key).api o.state) (m : List (κ × ν)) :
    ∃ s', dictOr eqv m o = .ok { key := o.key, state := s' } ∧ SD.Reachable eqv (cls o.key).api s' ∧
      ∀ k, SD.get eqv k s' = (lastValue eqv m k).or (SD.get eqv k o.state) := by
  obtain ⟨O, I, h, h0⟩ := SD.good (hcls o.key) he
  obtain ⟨s', e, hr, h1⟩ := C48_or (hcls o.key) he ho m
  have hi := SD.items_ok h (SD.reachable_inv h ho)
  refine ⟨s', ?_, hr, h1⟩
  rw [SD.or, hi] at e
  exact dictDerived hi (pairs := (· ++ m)) e

/-- C62: `m | sd` has the key function of `sd`; the items of `sd` win. -/
theorem C62_ror (hcls : ∀ key, (cls key).Orders (lt key) eqv) (he : IsEquiv eqv) {o : DictObj ν cls}
    (ho : SD.Reachable eqv (cls o.key).api o.state) (m : List (κ × ν)) :
    ∃ s', dictRor eqv m o = .ok { key := o.key, state := s' } ∧ SD.Reachable eqv (cls o.key).api s' ∧
      ∀ k, SD.get eqv k s' = (SD.get eqv k o.state).or (lastValue eqv m k) := by
  obtain ⟨O, I, h, h0⟩ := SD.good (hcls o.key) he
  obtain ⟨s', e, hr, h1⟩ := C48_ror (hcls o.key) he ho m
  have hi := SD.items_ok h (SD.reachable_inv h ho)
  refine ⟨s', ?_, hr, h1⟩
  rw [SD.ror, hi] at e
  exact dictDerived hi (pairs := (m ++ ·)) e

/-- C62: `SortedDict.fromkeys(ks, v)` has no key function, and `v` for exactly the keys `ks`. -/
theorem C62_fromkeys (hcls : ∀ key, (cls key).Orders (lt key) eqv) (he : IsEquiv eqv) (ks : List κ) (v : ν) :
    ∃ s', dictFromkeys eqv cls ks v = .ok { key := none, state := s' } ∧ SD.Reachable eqv (cls none).api s' ∧
      Sorted (lt none) (SD.iter (cls none).api s') ∧
      ∀ k, SD.get eqv k s' = if ks.any (eqv · k) then some v else none := by
  obtain ⟨s', e, hr, h, hsort⟩ := C62_dict hcls he [.pairs (ks.map fun k => (k, v)) none] []
  refine ⟨s', e, hr, hsort, fun k => ?_⟩
  rw [h k, lastValue_eq, List.append_nil, ← List.map_reverse, ← List.any_reverse]
  induction ks.reverse with
  | nil => rfl
  | cons x xs ih =>
    rw [List.map_cons, PyDict.lookup_cons, ih, List.any_cons]
    cases eqv x k <;> rfl

/-- C62: unpickling gives a dict with the same key function and the same items in the same order. -/
theorem C62_unpickle (hcls : ∀ key, (cls key).Orders (lt key) eqv) (he : IsEquiv eqv) {o : DictObj ν cls}
    (ho : SD.Reachable eqv (cls o.key).api o.state) :
    ∃ s', dictUnpickle eqv o = .ok { key := o.key, state := s' } ∧ SD.Reachable eqv (cls o.key).api s' ∧
      SD.items eqv (cls o.key).api s' = SD.items eqv (cls o.key).api o.state := by
  obtain ⟨s', e, hr, _, h1⟩ := C23_dict_pickle (hcls o.key) he ho
  refine ⟨s', ?_, hr, h1⟩
  rw [dictUnpickle, dictCall_ofKey]
  show Except.map _ (SD.new eqv (cls o.key).api (.dict (SD.reduceArgs o.state))) = _
  rw [e]; rfl

end Dicts

/-! ## The hypotheses can be met -/

namespace Demo

/-- Two callables: `lambda x: x // 10` and `lambda x: -x`. -/
inductive Fn where
  | tens
  | neg

def fns : Fn → KeyFn Int
  | .tens => ⟨Int, tensEnv⟩
  | .neg => ⟨Int, negEnv⟩

def classOf : Option Fn → ListClass Int
  | none => intClass
  | some .tens => tensClass
  | some .neg => negClass

def ltOf : Option Fn → Int → Int → Bool
  | none => ilt
  | some .tens => fun a b => ilt (a / 10) (b / 10)
  | some .neg => fun a b => ilt (-a) (-b)

theorem classOf_orders : ∀ key, (classOf key).Orders (ltOf key) (equiv ilt)
  | none => intClass_orders
  | some .tens => tensClass_orders
  | some .neg => negClass_orders

example := C62_list_without_key (keyFn := fns) (identity := .tens) intEnv_lawful (.inl rfl) (.inr rfl) (some [3, 1, 2])
example := C62_list_with_key (E := intEnv) (keyFn := fns) (identity := .tens) (f := .neg) (cls := .sortedList) negEnv_lawful
  (by decide) (some [3, 1, 2])
example := C62_key_list_none (keyFn := fns) (identity := .tens) intEnv_lawful (.inl rfl) (some [3])
example := C62_set classOf_orders (iset_lawful true) (some [3, 1, 2, 3]) (some .neg)

/-- `SortedDict(neg, [(1, 10), (2, 20), (1, 30)], ...)` -/
example : (match dictCall (ν := Int) (equiv ilt) classOf [.callable .neg, .pairs [(1, 10), (2, 20), (1, 30)] none] [(5, 50)] with
    | .ok o => (match SD.items (equiv ilt) (classOf o.key).api o.state with
      | .ok l => l
      | .error _ => [])
    | .error _ => []) = [(5, 50), (2, 20), (1, 30)] := by decide +kernel

example := C62_dict (ν := Int) classOf_orders ieqv_equiv [.callable .neg, .pairs [(1, 10), (2, 20), (1, 30)] none] [(5, 50)]
example := C62_dict (ν := Int) classOf_orders ieqv_equiv [.callable .neg, .callable .tens] [(5, 50)]
example := C62_update (F := Fn) intClass_orders ieqv_equiv dict1_reachable [.dict [(3, 5)]] [(7, 7)]
example := C62_update (F := Fn) intClass_orders ieqv_equiv dict1_reachable [.other] []
example := C62_copy (o := ⟨none, dict1⟩) classOf_orders ieqv_equiv dict1_reachable
example := C62_or (o := ⟨some .tens, dict2⟩) classOf_orders ieqv_equiv dict2_reachable [(38, 1)]
example := C62_ror (o := ⟨some .tens, dict2⟩) classOf_orders ieqv_equiv dict2_reachable [(38, 1)]
example := C62_unpickle (o := ⟨some .tens, dict2⟩) classOf_orders ieqv_equiv dict2_reachable
example := C62_fromkeys classOf_orders ieqv_equiv [4, 2, 4] 'x'

end Demo
end Verif
