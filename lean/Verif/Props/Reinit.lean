import Verif.Proofs.Reinit
import Verif.Props.Ctor
import Verif.Props.Views
/-!
# Properties of `__init__` called on an object that exists already (C81)
-/

namespace Verif
variable {F α τ κ ν : Type}

/-- The values that `x.__init__(iterable)` is given to start with; `none` if there is no argument.  For a list that is
its own argument there are none: it is emptied first. -/
def InitArg.forList : InitArg α → Option (List α)
  | .absent => none
  | .values xs => some xs
  | .self => some []

/-! ## Sorted lists -/

section Lists
variable {E : Env α} {keyFn : F → KeyFn α} {identity : F}

/-- C81: `sl.__init__(iterable, key)` makes any sorted list, in any state, the list that the class would construct from these
arguments. -/
theorem C81_list {cls : ListType} {arg : InitArg α} {key : KeyArg F} {fresh : ListObj keyFn}
    (h : listCall E keyFn identity cls arg.forList key = .ok (cls, fresh)) (o : ListObj keyFn) :
    listInit E keyFn identity cls arg key o = (.ok (), fresh) := by
  have hSL : ∀ {s}, SL.new E arg.forList = .ok s → listFill (SL.update E) arg = (.ok (), s) := by
    intro s
    cases arg with
    | absent => intro h; cases h; rfl
    | values xs =>
      show (match SL.update E xs St.empty with | (.ok (), s) => Except.ok s | (.error e, _) => .error e) = _ → SL.update E xs St.empty = _
      generalize SL.update E xs St.empty = r
      obtain ⟨r, s'⟩ := r
      cases r <;> (intro h; cases h); rfl
    | self =>
      show (match SL.update E [] St.empty with | (.ok (), s) => Except.ok s | (.error e, _) => .error e) = _ → SL.update E [] St.empty = _
      generalize SL.update E [] St.empty = r
      obtain ⟨r, s'⟩ := r
      cases r <;> (intro h; cases h); rfl
  have hSKL : ∀ {β : Type} (K : KEnv α β) {s}, SKL.new K arg.forList = .ok s → listFill (SKL.update K) arg = (.ok (), s) := by
    intro β K s
    cases arg with
    | absent => intro h; cases h; rfl
    | values xs =>
      show (match SKL.update K xs St.empty with | (.ok (), s) => Except.ok s | (.error e, _) => .error e) = _ → SKL.update K xs St.empty = _
      generalize SKL.update K xs St.empty = r
      obtain ⟨r, s'⟩ := r
      cases r <;> (intro h; cases h); rfl
    | self =>
      show (match SKL.update K [] St.empty with | (.ok (), s) => Except.ok s | (.error e, _) => .error e) = _ → SKL.update K [] St.empty = _
      generalize SKL.update K [] St.empty = r
      obtain ⟨r, s'⟩ := r
      cases r <;> (intro h; cases h); rfl
  unfold listCall at h
  unfold listInit
  cases hn : listNew cls key with
  | error e => rw [hn] at h; cases h
  | ok cls' =>
    rw [hn] at h
    simp only [bind, Except.bind] at h
    cases hk : listInitKey identity cls' key with
    | error e => rw [hk] at h; cases h
    | ok kind =>
      rw [hk] at h
      cases kind with
      | plain =>
        cases hx : SL.new E arg.forList with
        | error e => simp only [hx] at h; cases h
        | ok s =>
          simp only [hx] at h
          obtain ⟨rfl, rfl⟩ := Prod.mk.inj (Except.ok.inj h)
          simp only [hk, hSL hx]
      | keyed f =>
        cases hx : SKL.new (keyFn f).env arg.forList with
        | error e => simp only [hx] at h; cases h
        | ok s =>
          simp only [hx] at h
          obtain ⟨rfl, rfl⟩ := Prod.mk.inj (Except.ok.inj h)
          simp only [hk, hSKL _ hx]
      | nullKey =>
        cases hx : SKL.new E.nullKey arg.forList with
        | error e => simp only [hx] at h; cases h
        | ok s =>
          simp only [hx] at h
          obtain ⟨rfl, rfl⟩ := Prod.mk.inj (Except.ok.inj h)
          simp only [hk, hSKL _ hx]

/-- C81: a SortedList does not take a key function afterwards: an AssertionError, and nothing has changed. -/
theorem C81_list_key (f : F) (arg : InitArg α) {cls : ListType} (hcls : cls = .sortedList ∨ cls = .subclassOfSortedList)
    (o : ListObj keyFn) : listInit E keyFn identity cls arg (.func f) o = (.error .assertionError, o) := by
  rcases hcls with rfl | rfl <;> rfl

end Lists

/-! ## Sorted sets -/

section Sets
variable {S : SetOps τ α} {cls : Option F → ListClass α} {lt : Option F → α → α → Bool} {eqv : α → α → Bool}

/-- The values that `ss.__init__(iterable, key)` adds. -/
def InitArg.added : InitArg α → List α
  | .absent | .self => []
  | .values xs => xs

theorem setInit_inv {key : Option F} {O : Spec.Order α} {I : (cls key).State → Prop}
    (h : SS.Good S (cls key).api O eqv I) (arg : InitArg α) (o : SetInst τ cls) :
    ∃ s, setInit S cls arg key o = (.ok (), { key := key, listKey := key, state := s }) ∧ SS.Inv S (cls key).api I s ∧
      ∀ v, SS.contains S v s = (SS.contains S v o.state || arg.added.any (eqv · v)) := by
  obtain ⟨s0, e0, hi0, hs0⟩ := SS.fromset_ok h o.state.set
  unfold SS.fromset at e0
  cases hl : (cls key).api.new (some (S.toList o.state.set)) with
  | error e => rw [hl] at e0; cases e0
  | ok l =>
    rw [hl] at e0
    cases e0
    unfold setInit
    simp only [hl]
    have hmem : ∀ v, SS.contains S v ({ set := o.state.set, list := l } : SS τ (cls key).State) = SS.contains S v o.state :=
      fun _ => rfl
    have hup : ∀ xs, ∃ s, SS.update S (cls key).api [xs] ({ set := o.state.set, list := l } : SS τ (cls key).State) =
        (.ok (), s) ∧ SS.Inv S (cls key).api I s ∧
        ∀ v, SS.contains S v s = (SS.contains S v o.state || xs.any (eqv · v)) := by
      intro xs
      obtain ⟨s', e', h1, h2⟩ := SS.update_ok h [xs] hi0
      refine ⟨s', e', h1, fun v => ?_⟩
      rw [← hmem v, SS.contains, h1.mem h, SS.contains, hi0.mem h,
        show ((cls key).api.iter s'.list).any _ = _ from any_perm h2, any_foldl_addNew h.equiv]
      simp [SS.iter]
    cases arg with
    | absent => exact ⟨_, rfl, hi0, fun v => by simp [InitArg.added, hmem]⟩
    | values xs =>
      obtain ⟨s', e', h1, h2⟩ := hup xs
      exact ⟨s', by simp only; rw [e'], h1, h2⟩
    | self =>
      obtain ⟨s', e', h1, h2⟩ := hup (SS.iter (cls key).api ({ set := o.state.set, list := l } : SS τ (cls key).State))
      refine ⟨s', by simp only; rw [e'], h1, fun v => ?_⟩
      rw [h2, ← hmem v, SS.contains, hi0.mem h]
      simp [InitArg.added, SS.iter]

/-- C81: `ss.__init__(iterable, key)` keeps the values of a sorted set, adds those of `iterable`, and gives it the new key
function: the values are in its order.  This holds in any state of the set. -/
theorem C81_set (hcls : ∀ key, (cls key).Orders (lt key) eqv) (hS : S.Lawful eqv) (arg : InitArg α) (key : Option F)
    (o : SetInst τ cls) :
    ∃ s, setInit S cls arg key o = (.ok (), { key := key, listKey := key, state := s }) ∧
      Sorted (lt key) (SS.iter (cls key).api s) ∧ SS.length S s = (SS.iter (cls key).api s).length ∧
      (∀ v, (∃ y ∈ SS.iter (cls key).api s, eqv y v = true) ↔ SS.contains S v s = true) ∧
      ∀ v, SS.contains S v s = true ↔ SS.contains S v o.state = true ∨ ∃ y ∈ arg.added, eqv y v = true := by
  obtain ⟨O, I, h, h0⟩ := SS.good (hcls key) hS
  obtain ⟨s, e, hi, hm⟩ := setInit_inv h arg o
  refine ⟨s, e, h0 ▸ hi.sorted h, hi.len h, fun v => ?_, fun v => ?_⟩
  · rw [SS.contains, hi.mem h]; exact any_eq_true_iff.symm
  · rw [hm, Bool.or_eq_true]
    exact or_congr Iff.rfl any_eq_true_iff

/-- C81: and the calls that follow are answered as by a plain sorted list without repetitions, if the new order tells
different values apart. -/
theorem C81_set_history [DecidableEq α] (hcls : ∀ key, (cls key).Orders (lt key) eqv) (hS : S.Lawful eqv)
    (heq : ∀ a b, eqv a b = decide (a = b)) (arg : InitArg α) (key : Option F)
    (htotal : ∀ a b, lt key a b = false → lt key b a = false → a = b) (o : SetInst τ cls) (ops : List (SSOp α))
    (hv : ∀ op ∈ ops, op.Valid) :
    ∃ s, setInit S cls arg key o = (.ok (), { key := key, listKey := key, state := s }) ∧
      let spec := runHist (SetSpec.step (setOrder (lt key) eqv)) ops (SS.iter (cls key).api s)
      let real := runHist (SS.step S (cls key).api) ops s
      real.1 = spec.1 ∧ SS.iter (cls key).api real.2 = spec.2 := by
  obtain ⟨O, I, h, h0⟩ := SS.good (hcls key) hS
  rw [← h0] at htotal ⊢
  have ht : SS.Total O eqv := ⟨heq, fun a b hab => by
    simp only [equiv, Bool.and_eq_true, Bool.not_eq_true'] at hab
    exact htotal a b hab.1 hab.2⟩
  have hsame : O.same = eqv := by funext a b; exact h.same a b
  have hstep : SetSpec.step (setOrder O.lt eqv) = SetSpec.step O := by
    funext op; exact (SetSpec.step_congr O rfl hsame op).symm
  obtain ⟨s, e, hi, _⟩ := setInit_inv h arg o
  refine ⟨s, e, ?_⟩
  rw [hstep]
  obtain ⟨r1, r2, _⟩ := Refines.hist ops (fun op ho => SS.step_refines h ht op (hv op ho)) hi
  exact ⟨r1, r2⟩

end Sets

/-! ## Sorted dicts -/

section Dicts
variable {eqv : κ → κ → Bool} {cls : Option F → ListClass κ} {lt : Option F → κ → κ → Bool}

/-- The items of a dict: no two keys are equal. -/
def IsDict (eqv : κ → κ → Bool) (items : List (κ × ν)) : Prop :=
  (items.map Prod.fst).Pairwise fun a b => eqv a b = false

/-- After `sd.__init__(...)` the dict is whole: it has the key function `key`, and the calls that follow are answered as by a
plain dict with the given items, whose keys are in the order of `key`. -/
def WholeDict (eqv : κ → κ → Bool) (cls : Option F → ListClass κ) (lt : Option F → κ → κ → Bool) (key : Option F)
    (items : List (κ × ν)) (r : Except PyErr Unit × DictInst ν cls) : Prop :=
  ∃ s : SD κ ν (cls key).State, r = (.ok (), { key := key, listKey := key, state := s }) ∧
    ∀ ops : List (SDOp κ ν), (∀ op ∈ ops, op.Valid) →
      let O := setOrder (lt key) eqv
      let spec := runHist (DictSpec.step eqv O) ops items
      let real := runHist (SD.step eqv (cls key).api) ops s
      real.1 = spec.1 ∧ real.2.dict = spec.2 ∧ SD.iter (cls key).api real.2 = DictSpec.sortedKeys O spec.2

theorem dictInit_eq (args : List (DArg F κ ν)) (kwargs : List (κ × ν)) {l : (cls (splitArgs args).1).State}
    (e : (cls (splitArgs args).1).api.new none = .ok l) (o : DictInst ν cls) :
    dictInit eqv cls args kwargs o =
      let r := SD.update eqv (cls (splitArgs args).1).api (DictArg.ofCall (splitArgs args).2 kwargs)
        { dict := o.state.dict, list := l }
      (r.1, { key := (splitArgs args).1, listKey := (splitArgs args).1, state := r.2 }) := by
  unfold dictInit
  simp only [e, SD.updateCall_eq]

/-- What the arguments are, in terms of the model. -/
theorem arguments_ok {args : List (DArg F κ ν)} {kwargs items : List (κ × ν)} {key : Option F}
    (h : DictSpec.arguments args kwargs = .ok (key, items)) :
    (splitArgs args).1 = key ∧ DictSpec.given (splitArgs args).2 kwargs = .ok items := by
  rw [arguments_split] at h
  cases hg : DictSpec.given (splitArgs args).2 kwargs with
  | error e => rw [hg] at h; cases h
  | ok its =>
    rw [hg] at h
    obtain ⟨h1, h2⟩ := Prod.mk.inj (Except.ok.inj h)
    exact ⟨h1, by rw [h2]⟩

theorem mem_splitArgs {args : List (DArg F κ ν)} {a : DArg F κ ν} (h : a ∈ (splitArgs args).2) : a ∈ args := by
  unfold splitArgs at h
  split at h
  · exact List.mem_cons_of_mem _ h
  · split at h
    · exact List.mem_cons_of_mem _ h
    · exact h
  · exact h

/-- C81: `sd.__init__(*args, **kwargs)` on an empty dict is the constructor. -/
theorem C81_dict_empty {args : List (DArg F κ ν)} {kwargs : List (κ × ν)} {fresh : DictObj ν cls} {o : DictInst ν cls}
    (h : dictCall eqv cls args kwargs = .ok fresh) (h0 : SD.length o.state = 0) :
    dictInit eqv cls args kwargs o = (.ok (), { key := fresh.key, listKey := fresh.key, state := fresh.state }) := by
  rw [dictCall_eq] at h
  unfold SD.new at h
  have hd : o.state.dict = [] := List.length_eq_zero_iff.1 h0
  cases e : (cls (splitArgs args).1).api.new none with
  | error e' => rw [e] at h; cases h
  | ok l =>
    rw [dictInit_eq args kwargs e, hd]
    rw [e] at h
    revert h
    simp only
    generalize SD.update eqv (cls (splitArgs args).1).api (DictArg.ofCall (splitArgs args).2 kwargs)
      ({ dict := [], list := l } : SD κ ν _) = r
    obtain ⟨r, s⟩ := r
    cases r <;> (intro h; cases h); rfl

/-- C81: `sd.__init__(*args, **kwargs)` with more than a tenth as many items as the dict has: an update, and the key function
changes.  This holds in any state of the dict. -/
theorem C81_dict_many (hcls : ∀ key, (cls key).Orders (lt key) eqv) (he : IsEquiv eqv) {args : List (DArg F κ ν)}
    {kwargs items : List (κ × ν)} {key : Option F} (h : DictSpec.arguments args kwargs = .ok (key, items))
    (hargs : ∀ a ∈ args, ∀ its, a.dict? = some its → IsDict eqv its) {o : DictInst ν cls} (ho : IsDict eqv o.state.dict)
    (hmany : 10 * (PyDict.ofPairs eqv items).length > SD.length o.state) :
    WholeDict eqv cls lt key (PyDict.update eqv o.state.dict items) (dictInit eqv cls args kwargs o) := by
  obtain ⟨rfl, hg⟩ := arguments_ok h
  obtain ⟨O, I, hgood, h0⟩ := SD.good (hcls (splitArgs args).1) he
  obtain ⟨l, e, hi, hl⟩ := hgood.list.new none
  have hp := SD.pairsOf_given (eqv := eqv) hg fun a ha its hits => hargs a (mem_splitArgs ha) its hits
  have key : ∃ s', SD.update eqv (cls (splitArgs args).1).api (DictArg.ofCall (splitArgs args).2 kwargs)
      { dict := o.state.dict, list := l } = (.ok (), s') ∧ s'.dict = PyDict.update eqv o.state.dict items ∧
      SD.Inv (cls (splitArgs args).1).api O eqv I s' := by
    by_cases hne : o.state.dict = []
    · have hb := builtinPairs_ok hg
      have hf : (DictArg.ofCall (splitArgs args).2 kwargs).fail = none := by rw [DictArg.ofCall_fail, hb]
      obtain ⟨s', e', h1, h2⟩ := SD.update_empty hgood hi hl hf
      rw [hne]
      exact ⟨s', e', by rw [h1, DictArg.ofCall_items, hb]; rfl, h2⟩
    · obtain ⟨s', e', h1, h2⟩ := SD.update_rebuild hgood hi ho hne hp hmany
      exact ⟨s', e', by rw [h1, PyDict.update_ofPairs he], h2⟩
  obtain ⟨s', e', h1, h2⟩ := key
  refine ⟨s', by rw [dictInit_eq args kwargs e, e'], fun ops hops => ?_⟩
  have := SD.Inv.later hgood h2 ops hops
  rw [h1, h0] at this
  exact this

/-- C81: `sd.__init__(key, sd)` changes the key function and nothing else.  This holds in any state of the dict. -/
theorem C81_dict_self (hcls : ∀ key, (cls key).Orders (lt key) eqv) (he : IsEquiv eqv) (key : Option F)
    {o : DictInst ν cls} (ho : IsDict eqv o.state.dict) :
    WholeDict eqv cls lt key o.state.dict (dictInitSelf eqv cls key o) := by
  obtain ⟨O, I, hgood, h0⟩ := SD.good (hcls key) he
  obtain ⟨l, e, hi, hl⟩ := hgood.list.new none
  obtain ⟨s', e', h1, h2⟩ := SD.updateSelf_ok hgood hi hl ho
  refine ⟨s', by simp only [dictInitSelf, e, e'], fun ops hops => ?_⟩
  have := SD.Inv.later hgood h2 ops hops
  rw [h1, h0] at this
  exact this

/-- C81: `sd.__init__(*args, **kwargs)` with fewer items, on a dict that is not empty, does not raise, but damages the dict: it
still has all items, but iteration yields only the keys that were added; the keys that it had before are missing, and
`_check()` fails. -/
theorem C81_dict_few (hcls : ∀ key, (cls key).Orders (lt key) eqv) (he : IsEquiv eqv) {args : List (DArg F κ ν)}
    {kwargs items : List (κ × ν)} {key : Option F} (h : DictSpec.arguments args kwargs = .ok (key, items))
    (hargs : ∀ a ∈ args, ∀ its, a.dict? = some its → IsDict eqv its) {o : DictInst ν cls} (ho : IsDict eqv o.state.dict)
    (hne : SD.length o.state ≠ 0) (hfew : 10 * (PyDict.ofPairs eqv items).length ≤ SD.length o.state) :
    ∃ s, dictInit eqv cls args kwargs o = (.ok (), { key := key, listKey := key, state := s }) ∧
      (∀ k, SD.get eqv k s = (lastValue eqv items k).or (SD.get eqv k o.state)) ∧
      Sorted (lt key) (SD.iter (cls key).api s) ∧
      (∀ k, (∃ y ∈ SD.iter (cls key).api s, eqv y k = true) ↔
        SD.contains eqv k s = true ∧ SD.contains eqv k o.state = false) ∧
      SD.length s = SD.length o.state + (SD.iter (cls key).api s).length ∧ SD.check eqv (cls key) s ≠ .ok () := by
  obtain ⟨rfl, hg⟩ := arguments_ok h
  obtain ⟨O, I, hgood, h0⟩ := SD.good (hcls (splitArgs args).1) he
  obtain ⟨l, e, hi, hl⟩ := hgood.list.new none
  have hp := SD.pairsOf_given (eqv := eqv) hg fun a ha its hits => hargs a (mem_splitArgs ha) its hits
  have hne' : o.state.dict ≠ [] := fun e => hne (by rw [SD.length, e]; rfl)
  have hfew' : ¬ 10 * (PyDict.ofPairs eqv items).length > o.state.dict.length := by
    have : 10 * (PyDict.ofPairs eqv items).length ≤ o.state.dict.length := hfew
    omega
  obtain ⟨s, e', h1, h2⟩ := SD.update_torn hgood hi hl ho hne' hp hfew'
  have hlen : s.dict.length = o.state.dict.length + ((cls (splitArgs args).1).api.iter s.list).length := by
    have := h2.keys.length_eq
    simpa [PyDict.keys] using this
  refine ⟨s, by rw [dictInit_eq args kwargs e, e'], fun k => ?_, h0 ▸ hgood.list.sorted _ h2.list, fun k => ?_, hlen, ?_⟩
  · rw [SD.get, h1, PyDict.update_ofPairs he, PyDict.lookup_update he, lastValue_eq]; rfl
  · have hmem : SD.contains eqv k s = (SD.contains eqv k o.state ||
        ((cls (splitArgs args).1).api.iter s.list).any (eqv · k)) := by
      rw [SD.contains, PyDict.has_eq, any_perm h2.keys, List.any_append, ← PyDict.has_eq]; rfl
    have hdis : SD.contains eqv k o.state = true → ((cls (splitArgs args).1).api.iter s.list).any (eqv · k) = false := by
      intro hk
      rw [SD.contains, PyDict.has_eq, List.any_eq_true] at hk
      obtain ⟨x, hx, hxk⟩ := hk
      refine Bool.eq_false_iff.2 fun hy => ?_
      rw [List.any_eq_true] at hy
      obtain ⟨y, hy, hyk⟩ := hy
      have hd := Distinct.perm he h2.keys h2.keyed
      have := (List.pairwise_append.1 hd).2.2 x hx y hy
      rw [he.trans x k y hxk (by rw [he.symm]; exact hyk)] at this
      cases this
    rw [← any_eq_true_iff, hmem]
    show ((cls (splitArgs args).1).api.iter s.list).any (eqv · k) = true ↔ _
    cases hk : SD.contains eqv k o.state with
    | true => rw [hdis hk]; simp
    | false => simp
  · intro hc
    have hlist : (cls (splitArgs args).1).api.len s.list = ((cls (splitArgs args).1).api.iter s.list).length :=
      Except.ok.inj (hgood.list.len _ h2.list).1
    have hfalse : (SD.length s == (cls (splitArgs args).1).api.len s.list) = false := by
      rw [beq_eq_false_iff_ne, SD.length, hlist, hlen]
      have : o.state.dict.length ≠ 0 := hne
      omega
    unfold SD.check at hc
    cases hck : (cls (splitArgs args).1).check s.list with
    | error e => rw [hck] at hc; cases hc
    | ok u =>
      rw [hck, hfalse] at hc
      cases hc

end Dicts

/-! ## The hypotheses can be met -/

namespace Demo

/-- The values of a sorted list. -/
def valuesOf : ListObj fns → List Int
  | .plain s => Core.iter s
  | .keyed _ s => Core.iter s
  | .nullKey s => Core.iter s

/-- A SortedKeyList in an odd state. -/
def odd : ListObj fns := .keyed .neg { (St.empty : St Int Int) with lists := [[5, 4]], len := 9 }

example : valuesOf odd = [5, 4] := by decide +kernel
/-- `skl.__init__([31, 12, 10, 35], key=lambda x: x // 10)` -/
example : valuesOf (listInit intEnv fns .neg .sortedKeyList (.values [31, 12, 10, 35]) (.func .tens) odd).2 =
    [12, 10, 31, 35] := by decide +kernel
/-- `skl.__init__(skl, key=lambda x: x // 10)` -/
example : valuesOf (listInit intEnv fns .neg .sortedKeyList .self (.func .tens) odd).2 = [] := by decide +kernel

example : ∃ fresh, ∀ o, listInit intEnv fns .tens .sortedKeyList (.values [3, 1, 2]) (.func .neg) o = (.ok (), fresh) := by
  obtain ⟨s, e, _, _⟩ := C62_list_with_key (E := intEnv) (keyFn := fns) (identity := .tens) (f := .neg) (cls := .sortedKeyList)
    negEnv_lawful (by decide) (some [3, 1, 2])
  exact ⟨.keyed .neg s, fun o => C81_list (arg := .values [3, 1, 2]) e o⟩

/-- The set {25, 31, 38, 52, 62, 71, 83}. -/
def setObj : SetInst { l : List Int // Distinct (equiv ilt) l } classOf := ⟨none, none, set1⟩

/-- `ss.__init__([7, 31], key=neg)` -/
example : (let o := (setInit (iset true) classOf (.values [7, 31]) (some .neg) setObj).2
    SS.iter (classOf o.listKey).api o.state) = [83, 71, 62, 52, 38, 31, 25, 7] := by decide +kernel

example := C81_set classOf_orders (iset_lawful true) (.values [7]) (some .neg) setObj
example := C81_set_history classOf_orders (iset_lawful true) ieq_decide (.values [7]) none ilt_total setObj [.add 3, .pop 0]
  (by simp [SSOp.Valid])

/-- The dict {7: 5, 25: 2, 31: 3, 40: 4, 44: 5, 52: 0, 62: 1, 71: 4}. -/
def dictObj : DictInst Int classOf := ⟨none, none, dict1⟩

theorem dictObj_isDict : IsDict (equiv ilt) dictObj.state.dict := by unfold IsDict; decide +kernel

/-- `sd.__init__(neg, {40: 0})` -/
example : (let o := (dictInit (equiv ilt) classOf [.callable .neg, .dict [(40, 0)]] [] dictObj).2
    SD.items (equiv ilt) (classOf o.listKey).api o.state) =
    .ok [(71, 4), (62, 1), (52, 0), (44, 5), (40, 0), (31, 3), (25, 2), (7, 5)] := by decide +kernel

/-- `sd.__init__(neg, sd)` -/
example : (let o := (dictInitSelf (equiv ilt) classOf (some .neg) dictObj).2
    SD.items (equiv ilt) (classOf o.listKey).api o.state) =
    .ok [(71, 4), (62, 1), (52, 0), (44, 5), (40, 4), (31, 3), (25, 2), (7, 5)] := by decide +kernel

/-- `sd.__init__(neg)`: the dict has eight items, and iteration shows none. -/
example : (let o := (dictInit (equiv ilt) classOf [.callable .neg] [] dictObj).2
    (SD.length o.state, SD.iter (classOf o.listKey).api o.state)) = (8, []) := by decide +kernel

example := C81_dict_many classOf_orders ieqv_equiv (args := [.callable .neg, .dict [(40, 0)]]) (kwargs := []) rfl
  (by intro a ha its h; simp at ha; rcases ha with rfl | rfl <;> cases h; simp [IsDict]) dictObj_isDict (by decide +kernel)
example := C81_dict_few classOf_orders ieqv_equiv (args := [.callable .neg]) (kwargs := []) rfl
  (by intro a ha its h; simp at ha; subst ha; cases h) dictObj_isDict (by decide +kernel) (by decide +kernel)
example := C81_dict_self classOf_orders ieqv_equiv (some .neg) dictObj_isDict
example : ∃ r, dictInit (ν := Int) (equiv ilt) classOf [.callable .neg, .dict [(40, 0)]] [] ⟨none, none, ⟨[], dict1.list⟩⟩ =
    (.ok (), r) := by
  obtain ⟨s, e, _⟩ := C62_dict (ν := Int) classOf_orders ieqv_equiv [.callable .neg, .dict [(40, 0)]] []
  exact ⟨_, C81_dict_empty e rfl⟩

end Demo
end Verif
