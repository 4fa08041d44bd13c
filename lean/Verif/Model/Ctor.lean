import Verif.CtorSpec
import Verif.Model.SortedSet
import Verif.Model.SortedDict
/-!
# Constructors: how the arguments are taken apart

`F` is the type of callables that can serve as key functions, and `cls : Option F → ListClass α` tells what a key function
means: `cls none` is the class that compares values directly, `cls (some f)` the class that compares by `f`.  The other
modules start after the arguments have been taken apart, with the class given; here the constructors choose it.
-/

namespace Verif
variable {F α κ ν τ : Type}

/-! ## sortedlist.py -/

/-- What the attribute `_key` is going to be, and with it which methods the object has.  `nullKey`: a SortedKeyList with
`_key = None`.  (sortedlist.py:118-145, 1656-1657.) -/
inductive ListKind (F : Type) where
  | plain
  | keyed (f : F)
  | nullKey

/-- The class of the object that `cls.__new__` returns (sortedlist.py:118-146, 1659-1660). -/
def listNew (cls : ListType) (key : KeyArg F) : Except PyErr ListType :=
  match cls with
  | .sortedKeyList | .subclassOfSortedKeyList => .ok cls
  | .sortedList =>
    match key with
    | .absent | .none => .ok cls
    | .func _ => .ok .sortedKeyList
  | .subclassOfSortedList =>
    match key with
    | .absent | .none => .ok cls
    | .func _ => .error .typeError

/-- The attribute `_key` after `__init__` (sortedlist.py:107, 1620, 1645).  `identity` is the default argument of
`SortedKeyList.__init__`. -/
def listInitKey (identity : F) (cls : ListType) (key : KeyArg F) : Except PyErr (ListKind F) :=
  match cls with
  | .sortedList | .subclassOfSortedList =>
    match key with
    | .absent | .none => .ok .plain
    | .func _ => .error .assertionError
  | .sortedKeyList | .subclassOfSortedKeyList =>
    match key with
    | .absent => .ok (.keyed identity)
    | .none => .ok .nullKey
    | .func f => .ok (.keyed f)

/-- A SortedKeyList whose `_key` is None: `sorted(iterable, key=None)` compares values, `self._key(value)` is a
TypeError.  (sortedlist.py:1620-1658.) -/
def Env.nullKey (E : Env α) : KEnv α α where
  key _ := .error .typeError
  kcmp := E.cmp
  vcmp := E.cmp
  sortedByKey := E.sorted
  ilog2 := E.ilog2

/-- A key function `f`, with the comparisons of the keys it returns.  (sortedlist.py:1620-1658.) -/
structure KeyFn (α : Type) : Type 1 where
  κ : Type
  env : KEnv α κ

/-- A sorted list of any of the classes.  (sortedlist.py:118-145, 1656-1657.) -/
inductive ListObj (keyFn : F → KeyFn α) where
  | plain (s : St α α)
  | keyed (f : F) (s : St α (keyFn f).κ)
  | nullKey (s : St α α)

/-- `cls(iterable, key)`: `type.__call__` runs `cls.__new__(cls, iterable, key)`, and then, since the result is an instance of
`cls`, the `__init__` of the class of the result with the same arguments (sortedlist.py:89-116, 1620-1657). -/
def listCall (E : Env α) (keyFn : F → KeyFn α) (identity : F) (cls : ListType) (iterable : Option (List α))
    (key : KeyArg F) : Except PyErr (ListType × ListObj keyFn) := do
  let cls' ← listNew cls key
  match ← listInitKey identity cls' key with
  | .plain => do
    let s ← SL.new E iterable
    return (cls', .plain s)
  | .keyed f => do
    let s ← SKL.new (keyFn f).env iterable
    return (cls', .keyed f s)
  | .nullKey => do
    let s ← SKL.new E.nullKey iterable
    return (cls', .nullKey s)

/-! ## sortedset.py -/

/-- A SortedSet with the attribute `_key`.  (sortedset.py:97-157.) -/
structure SetObj (τ : Type) (cls : Option F → ListClass α) where
  key : Option F
  state : SS τ (cls key).State

/-- `SortedSet(iterable, key)` (sortedset.py:97-157) -/
def setCall (S : SetOps τ α) (cls : Option F → ListClass α) (iterable : Option (List α)) (key : Option F) :
    Except PyErr (SetObj τ cls) := do
  let s ← SS.new S (cls key).api iterable
  return { key := key, state := s }

/-! ## sorteddict.py -/

/-- `callable(arg)`, and the callable (sorteddict.py:134.) -/
def DArg.callable? : DArg F κ ν → Option F
  | .callable f | .callableDict f _ => some f
  | _ => Option.none

/-- `isinstance(arg, dict)`, and the items (sorteddict.py:505.) -/
def DArg.dict? : DArg F κ ν → Option (List (κ × ν))
  | .dict items | .callableDict _ items => some items
  | _ => Option.none

/-- The pairs that `dict(*args, **kwargs)` and `d.update(*args, **kwargs)` of the built-in dict store one after the other,
and the exception that ends them: TypeError for more than one positional argument, and for one that is not iterable.
Keyword arguments come last.  (Python's `dict`, the base class, sorteddict.py:27.) -/
def builtinPairs (args : List (DArg F κ ν)) (kwargs : List (κ × ν)) : List (κ × ν) × Option PyErr :=
  match args with
  | [] => (kwargs, none)
  | [.dict items] | [.callableDict _ items] => (items ++ kwargs, none)
  | [.pairs items none] => (items ++ kwargs, none)
  | [.pairs items (some e)] => (items, some e)
  | [.none] | [.callable _] | [.other] => ([], some .typeError)
  | _ :: _ :: _ => ([], some .typeError)

namespace SD
variable {σ : Type} (eqv : κ → κ → Bool) (L : ListAPI σ κ)

/-- `dict.update(self, *args, **kwargs)` (Python's `dict`, the base class, sorteddict.py:27.) -/
def builtinUpdate (args : List (DArg F κ ν)) (kwargs : List (κ × ν)) : Py (SD κ ν σ) Unit := do
  onDict fun d => PyDict.update eqv d (builtinPairs args kwargs).1
  match (builtinPairs args kwargs).2 with
  | none => pure ()
  | some e => Py.raise e

/-- `dict(*args, **kwargs)` (Python's `dict`, the base class, sorteddict.py:27.) -/
def builtinDict (args : List (DArg F κ ν)) (kwargs : List (κ × ν)) : Except PyErr (List (κ × ν)) :=
  match builtinPairs args kwargs with
  | (pairs, none) => .ok (PyDict.ofPairs eqv pairs)
  | (_, some e) => .error e

/-- `pairs` in `update` (sorteddict.py:505-508) -/
def updatePairs (args : List (DArg F κ ν)) (kwargs : List (κ × ν)) : Except PyErr (List (κ × ν)) :=
  match kwargs, args.head?.bind DArg.dict?, args.length with
  | [], some items, 1 => .ok items
  | _, _, _ => builtinDict eqv args kwargs

/-- `update(*args, **kwargs)` (sorteddict.py:487-516).  In the loop of lines 515-516 `pairs[key]` is the value of the item
at hand. -/
def updateCall (args : List (DArg F κ ν)) (kwargs : List (κ × ν)) : Py (SD κ ν σ) Unit := do
  let s ← Py.get
  if s.dict.length = 0 then
    builtinUpdate eqv args kwargs
    let s ← Py.get
    onList (L.update (PyDict.keys s.dict))
  else
    let pairs ← Py.lift (updatePairs eqv args kwargs)
    if 10 * pairs.length > s.dict.length then
      builtinUpdate eqv [DArg.dict (F := F) pairs] []
      onList L.clear
      let s ← Py.get
      onList (L.update (PyDict.keys s.dict))
    else
      Py.forEach (fun p => setitem eqv L p.1 p.2) pairs

end SD

/-- A SortedDict with the attribute `_key`.  (sorteddict.py:134-168.) -/
structure DictObj (ν : Type) (cls : Option F → ListClass κ) where
  key : Option F
  state : SD κ ν (cls key).State

/-- `_key` and the `args` that are left (sorteddict.py:134-138) -/
def splitArgs (args : List (DArg F κ ν)) : Option F × List (DArg F κ ν) :=
  match args with
  | .none :: rest => (none, rest)
  | a :: rest =>
    match a.callable? with
    | some f => (some f, rest)
    | none => (none, a :: rest)
  | [] => (none, [])

/-- `SortedDict(*args, **kwargs)` (sorteddict.py:97-170): the first positional argument is the key function if it is None
or callable. -/
def dictCall (eqv : κ → κ → Bool) (cls : Option F → ListClass κ) (args : List (DArg F κ ν)) (kwargs : List (κ × ν)) :
    Except PyErr (DictObj ν cls) := do
  let key := (splitArgs args).1
  let l ← (cls key).api.new none
  match SD.updateCall eqv (cls key).api (splitArgs args).2 kwargs { dict := [], list := l } with
  | (.ok (), s) => .ok { key := key, state := s }
  | (.error e, _) => .error e

/-- The argument that `self._key` becomes when it is passed on as the first argument.  (sorteddict.py:295-303, 520-528.) -/
def DArg.ofKey : Option F → DArg F κ ν
  | Option.none => DArg.none
  | Option.some f => DArg.callable f

/-- `copy` (sorteddict.py:295-305): `self.__class__(self._key, self.items())` -/
def dictCopy (eqv : κ → κ → Bool) {cls : Option F → ListClass κ} (o : DictObj ν cls) : Except PyErr (DictObj ν cls) := do
  let own ← SD.items eqv (cls o.key).api o.state
  dictCall eqv cls [.ofKey o.key, .pairs own none] []

/-- `sd | other` (sorteddict.py:279-283) with a mapping whose items are `other` -/
def dictOr (eqv : κ → κ → Bool) {cls : Option F → ListClass κ} (other : List (κ × ν)) (o : DictObj ν cls) :
    Except PyErr (DictObj ν cls) := do
  let own ← SD.items eqv (cls o.key).api o.state
  dictCall eqv cls [.ofKey o.key, .pairs (own ++ other) none] []

/-- `other | sd` (sorteddict.py:285-289) with a mapping whose items are `other` -/
def dictRor (eqv : κ → κ → Bool) {cls : Option F → ListClass κ} (other : List (κ × ν)) (o : DictObj ν cls) :
    Except PyErr (DictObj ν cls) := do
  let own ← SD.items eqv (cls o.key).api o.state
  dictCall eqv cls [.ofKey o.key, .pairs (other ++ own) none] []

/-- `fromkeys` (sorteddict.py:307-319) -/
def dictFromkeys (eqv : κ → κ → Bool) (cls : Option F → ListClass κ) (ks : List κ) (v : ν) : Except PyErr (DictObj ν cls) :=
  dictCall eqv cls [.pairs (ks.map fun k => (k, v)) none] []

/-- Unpickling what `__reduce__` (sorteddict.py:520-528) returned: `type(self)(self._key, items)`, `items` a plain dict -/
def dictUnpickle (eqv : κ → κ → Bool) {cls : Option F → ListClass κ} (o : DictObj ν cls) : Except PyErr (DictObj ν cls) :=
  dictCall eqv cls [.ofKey o.key, .dict (SD.reduceArgs o.state)] []

end Verif
