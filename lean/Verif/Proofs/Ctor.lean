import Verif.Model.Ctor
import Verif.Props.SortedDict
/-!
# Constructors: lemmas
-/

namespace Verif
variable {F κ ν σ : Type}

/-- The argument that `update(*args, **kwargs)` amounts to. -/
def DictArg.ofCall (args : List (DArg F κ ν)) (kwargs : List (κ × ν)) : DictArg κ ν :=
  match kwargs, args with
  | [], [.dict items] => .dict items
  | [], [.callableDict _ items] => .dict items
  | _, _ => .pairs (builtinPairs args kwargs).1 (builtinPairs args kwargs).2

theorem DictArg.ofCall_items (args : List (DArg F κ ν)) (kwargs : List (κ × ν)) :
    (DictArg.ofCall args kwargs).items = (builtinPairs args kwargs).1 := by
  unfold ofCall
  split <;> simp [builtinPairs, DictArg.items]

theorem DictArg.ofCall_fail (args : List (DArg F κ ν)) (kwargs : List (κ × ν)) :
    (DictArg.ofCall args kwargs).fail = (builtinPairs args kwargs).2 := by
  unfold ofCall
  split <;> simp [builtinPairs, DictArg.fail]

/-- The built-in dict takes its arguments as specified. -/
theorem builtinPairs_ok {args : List (DArg F κ ν)} {kwargs items : List (κ × ν)}
    (h : DictSpec.given args kwargs = .ok items) : builtinPairs args kwargs = (items, none) := by
  unfold DictSpec.given at h
  split at h <;> first | (cases h; rfl) | cases h

theorem builtinPairs_error {args : List (DArg F κ ν)} {kwargs : List (κ × ν)} {e : PyErr}
    (h : DictSpec.given args kwargs = .error e) : (builtinPairs args kwargs).2 = some e := by
  unfold DictSpec.given at h
  split at h <;> first | (cases h; rfl) | (cases h; simp [builtinPairs]) | cases h

namespace SD
variable {eqv : κ → κ → Bool} {L : ListAPI σ κ}

theorem builtinUpdate_eq (args : List (DArg F κ ν)) (kwargs : List (κ × ν)) :
    builtinUpdate (σ := σ) eqv args kwargs = dictUpdate eqv (DictArg.ofCall args kwargs) := by
  unfold builtinUpdate dictUpdate
  rw [DictArg.ofCall_items, DictArg.ofCall_fail]
  rfl

theorem builtinUpdate_dict (pairs : List (κ × ν)) :
    builtinUpdate (σ := σ) eqv [DArg.dict (F := F) pairs] [] = dictUpdate eqv (.dict pairs) := builtinUpdate_eq _ _

theorem pairsOf_eq (args : List (DArg F κ ν)) (kwargs : List (κ × ν)) :
    updatePairs eqv args kwargs = pairsOf eqv (DictArg.ofCall args kwargs) := by
  have key : ∀ (as : List (DArg F κ ν)) (kw : List (κ × ν)),
      builtinDict eqv as kw = pairsOf eqv (.pairs (builtinPairs as kw).1 (builtinPairs as kw).2) := by
    intro as kw
    unfold builtinDict
    cases h : builtinPairs as kw with
    | mk p o => cases o <;> rfl
  cases kwargs with
  | cons kw kws => simp only [updatePairs, DictArg.ofCall, key]
  | nil =>
    match args with
    | [] => rfl
    | [.dict items] => rfl
    | [.callableDict _ items] => rfl
    | [.none] => rfl
    | [.callable _] => rfl
    | [.other] => rfl
    | [.pairs items none] => simp [updatePairs, DictArg.ofCall, key, DArg.dict?]
    | [.pairs items (some e)] => simp [updatePairs, DictArg.ofCall, key, DArg.dict?]
    | a :: b :: rest =>
      simp only [updatePairs, DictArg.ofCall, key, List.length_cons]
      split
      · rename_i h; simp at h
      · rfl

theorem updateCall_eq (args : List (DArg F κ ν)) (kwargs : List (κ × ν)) :
    updateCall (σ := σ) eqv L args kwargs = update eqv L (DictArg.ofCall args kwargs) := by
  unfold updateCall update
  simp only [pairsOf_eq, builtinUpdate_dict]
  rw [builtinUpdate_eq]

end SD

/-- The constructor is the one of the class with the key function found among the arguments. -/
theorem dictCall_eq (eqv : κ → κ → Bool) (cls : Option F → ListClass κ) (args : List (DArg F κ ν))
    (kwargs : List (κ × ν)) :
    dictCall eqv cls args kwargs =
      (SD.new eqv (cls (splitArgs args).1).api (DictArg.ofCall (splitArgs args).2 kwargs)).map (DictObj.mk _) := by
  unfold dictCall
  simp only [SD.updateCall_eq]
  unfold SD.new
  show Except.bind _ _ = _
  cases (cls (splitArgs args).1).api.new none with
  | error e => rfl
  | ok l =>
    simp only [Except.bind]
    generalize SD.update eqv (cls (splitArgs args).1).api (DictArg.ofCall (splitArgs args).2 kwargs) { dict := [], list := l } = r
    obtain ⟨r, s⟩ := r
    cases r <;> rfl

/-- The specification splits the arguments in the same way. -/
theorem arguments_split (args : List (DArg F κ ν)) (kwargs : List (κ × ν)) :
    DictSpec.arguments args kwargs =
      (DictSpec.given (splitArgs args).2 kwargs).map fun items => ((splitArgs args).1, items) := by
  match args with
  | [] => rfl
  | .none :: rest => rfl
  | .callable f :: rest => rfl
  | .callableDict f items :: rest => rfl
  | .dict items :: rest => rfl
  | .pairs items fail :: rest => rfl
  | .other :: rest => rfl

/-- A constructor whose items end with an exception raises it. -/
theorem SD.new_fail {eqv : κ → κ → Bool} {L : ListAPI σ κ} {O : Spec.Order κ} {I : σ → Prop} (h : SD.Good L O eqv I)
    {arg : DictArg κ ν} {e : PyErr} (hf : arg.fail = some e) : SD.new eqv L arg = .error e := by
  obtain ⟨l, e', _, _⟩ := h.list.new none
  unfold SD.new
  rw [e']
  simp only [SD.update, Py.get_bind, List.length_nil, if_true]
  have hd : SD.dictUpdate eqv arg ({ dict := [], list := l } : SD κ ν σ) =
      (.error e, { dict := PyDict.update eqv [] arg.items, list := l }) := by
    simp only [SD.dictUpdate, hf]; rfl
  show (match (Py.bind (SD.dictUpdate eqv arg) _ _ : Except PyErr Unit × SD κ ν σ) with
    | (.ok _, s') => _ | (.error e, _) => _) = _
  simp only [Py.bind, hd]

theorem dictCall_spec {eqv : κ → κ → Bool} {cls : Option F → ListClass κ} {lt : Option F → κ → κ → Bool}
    (hcls : ∀ key, (cls key).Orders (lt key) eqv) (he : IsEquiv eqv) (args : List (DArg F κ ν)) (kwargs : List (κ × ν)) :
    match DictSpec.arguments args kwargs with
    | .error e => dictCall eqv cls args kwargs = .error e
    | .ok (key, items) => ∃ s, dictCall eqv cls args kwargs = .ok { key := key, state := s } ∧
        SD.Reachable eqv (cls key).api s ∧ s.dict = PyDict.ofPairs eqv items := by
  rw [arguments_split, dictCall_eq]
  obtain ⟨O, I, h, _⟩ := SD.good (hcls (splitArgs args).1) he
  cases hg : DictSpec.given (splitArgs args).2 kwargs with
  | error e =>
    show Except.map _ (SD.new eqv (cls (splitArgs args).1).api (DictArg.ofCall (splitArgs args).2 kwargs)) = _
    rw [SD.new_fail h (by rw [DictArg.ofCall_fail]; exact builtinPairs_error hg)]
    rfl
  | ok items =>
    have hb := builtinPairs_ok hg
    have hf : (DictArg.ofCall (splitArgs args).2 kwargs).fail = none := by rw [DictArg.ofCall_fail, hb]
    obtain ⟨s, e, hd, _⟩ := SD.new_ok h hf
    refine ⟨s, ?_, .new hf e, ?_⟩
    · rw [e]; rfl
    · rw [hd, DictArg.ofCall_items, hb]

theorem dictCall_ofKey (eqv : κ → κ → Bool) (cls : Option F → ListClass κ) (key : Option F) (arg : DArg F κ ν) :
    dictCall eqv cls [.ofKey key, arg] [] =
      (SD.new eqv (cls key).api (DictArg.ofCall [arg] [])).map (DictObj.mk _) := by
  cases key with
  | none => rw [dictCall_eq]; rfl
  | some f => rw [dictCall_eq]; rfl

theorem DictArg.ofCall_pairs (items : List (κ × ν)) :
    DictArg.ofCall [DArg.pairs (F := F) items none] [] = .pairs items none := by
  simp [DictArg.ofCall, builtinPairs]

/-- The result of a call that makes a dict of the same class, with the key function. -/
theorem dictDerived {eqv : κ → κ → Bool} {cls : Option F → ListClass κ} {o : DictObj ν cls} {own : List (κ × ν)}
    (h : SD.items eqv (cls o.key).api o.state = .ok own) {pairs : List (κ × ν) → List (κ × ν)}
    {s' : SD κ ν (cls o.key).State} (e : SD.new eqv (cls o.key).api (.pairs (pairs own) none) = .ok s') :
    (do
      let own ← SD.items eqv (cls o.key).api o.state
      dictCall eqv cls [.ofKey o.key, .pairs (pairs own) none] [] : Except PyErr (DictObj ν cls)) =
    .ok { key := o.key, state := s' } := by
  rw [h]
  show dictCall eqv cls [.ofKey o.key, .pairs (pairs own) none] [] = _
  rw [dictCall_ofKey, DictArg.ofCall_pairs, e]
  rfl

namespace SKL
variable {α : Type}

/-- With `_key = None`, filling an empty list with values is a TypeError. -/
theorem fill_nullKey (E : Env α) {values : List α} (h : values ≠ []) :
    (fill E.nullKey values (St.empty : St α α)).1 = .error .typeError := by
  obtain ⟨v, vs, rfl⟩ := List.exists_cons_of_ne_nil h
  obtain ⟨cs, ec, h1, h2, _⟩ := chunks_ok (load := 1000) (by decide) (v :: vs)
  match cs, h1, h2, ec with
  | [], h1, _, _ => cases h1
  | [] :: _, _, h2, _ => exact absurd rfl (h2 [] (by simp))
  | (a :: as) :: ls, _, _, ec =>
    unfold fill
    simp only [Py.get_bind]
    rw [show Core.chunks (St.empty : St α α).load (v :: vs) = _ from ec]
    simp only [Py.lift_ok_bind, Py.modify_bind, Py.get_bind]
    rfl

theorem fill_nil (K : KEnv α κ) : fill K [] (St.empty : St α κ) = (.ok (), St.empty) := by
  have ec : Core.chunks (St.empty : St α κ).load ([] : List α) = .ok [] := by simp [Core.chunks, St.empty, defaultLoadFactor]
  unfold fill
  simp only [Py.get_bind]
  rw [ec]
  rfl

end SKL

end Verif
