import Verif.Model.Ctor
/-!
# `__init__` called on an object that exists already

`type.__call__` runs `__init__` once, on a new object (Model/Ctor.lean).  A program can run it again: `x.__init__(...)`, or a
subclass whose bases both call it.  Here `__init__` is modelled as a method of an object in any state.
-/

namespace Verif
variable {F α τ κ ν : Type}

/-- The argument `iterable` of `__init__`: not passed (or None), an iterable of values, or the object itself.
(sortedlist.py:89, sortedset.py:97, sorteddict.py:97.) -/
inductive InitArg (α : Type) where
  | absent
  | values (xs : List α)
  | self

/-! ## sortedlist.py -/

/-- What `__init__` does after `_key` is set (sortedlist.py:108-116, 1646-1657): the attributes get their initial values, then
`self._update(iterable)`.  An iterable that is the list itself is read after `self._lists = []`. -/
def listFill {β : Type} (update : List α → Py (St α β) Unit) (arg : InitArg α) : Except PyErr Unit × St α β :=
  match arg with
  | .absent => (.ok (), St.empty)
  | .values xs => update xs St.empty
  | .self => update (Core.iter (St.empty : St α β)) St.empty

/-- `sl.__init__(iterable, key)` (sortedlist.py:89-116, 1620-1657) for an object of class `cls`. -/
def listInit (E : Env α) (keyFn : F → KeyFn α) (identity : F) (cls : ListType) (arg : InitArg α) (key : KeyArg F)
    (o : ListObj keyFn) : Except PyErr Unit × ListObj keyFn :=
  match listInitKey identity cls key with
  | .error e => (.error e, o)
  | .ok .plain => let r := listFill (SL.update E) arg; (r.1, .plain r.2)
  | .ok (.keyed f) => let r := listFill (SKL.update (keyFn f).env) arg; (r.1, .keyed f r.2)
  | .ok .nullKey => let r := listFill (SKL.update E.nullKey) arg; (r.1, .nullKey r.2)

/-! ## sortedset.py -/

/-- A SortedSet with the attribute `_key`, and the key function that `_list` was made with: they differ after an `__init__`
that raised between the two assignments.  (sortedset.py:121-157.) -/
structure SetInst (τ : Type) (cls : Option F → ListClass α) where
  key : Option F
  listKey : Option F
  state : SS τ (cls listKey).State

/-- `ss.__init__(iterable, key)` (sortedset.py:121-157).  The attribute `_set` exists and is kept (128-129); `_list` is made
of its values (131).  An iterable that is the set itself is read from the new `_list`. -/
def setInit (S : SetOps τ α) (cls : Option F → ListClass α) (arg : InitArg α) (key : Option F) (o : SetInst τ cls) :
    Except PyErr Unit × SetInst τ cls :=
  match (cls key).api.new (some (S.toList o.state.set)) with
  | .error e => (.error e, { o with key := key })
  | .ok l =>
    let s : SS τ (cls key).State := { set := o.state.set, list := l }
    let r : Except PyErr Unit × SS τ (cls key).State := match arg with
      | .absent => (.ok (), s)
      | .values xs => SS.update S (cls key).api [xs] s
      | .self => SS.update S (cls key).api [SS.iter (cls key).api s] s
    (r.1, { key := key, listKey := key, state := r.2 })

/-! ## sorteddict.py -/

/-- A SortedDict with the attribute `_key`, and the key function that `_list` was made with.  (sorteddict.py:134-168.) -/
structure DictInst (ν : Type) (cls : Option F → ListClass κ) where
  key : Option F
  listKey : Option F
  state : SD κ ν (cls listKey).State

/-- `sd.__init__(*args, **kwargs)` (sorteddict.py:134-170).  The items are kept; `_list` is a new, empty list (140); then
`self._update(*args, **kwargs)` (170). -/
def dictInit (eqv : κ → κ → Bool) (cls : Option F → ListClass κ) (args : List (DArg F κ ν)) (kwargs : List (κ × ν))
    (o : DictInst ν cls) : Except PyErr Unit × DictInst ν cls :=
  let key := (splitArgs args).1
  match (cls key).api.new none with
  | .error e => (.error e, { o with key := key })
  | .ok l =>
    let r := SD.updateCall eqv (cls key).api (splitArgs args).2 kwargs { dict := o.state.dict, list := l }
    (r.1, { key := key, listKey := key, state := r.2 })

/-- `sd.update(sd)` (sorteddict.py:487-516).  In line 501 and 511 the built-in `dict.update(self, self)` changes nothing; lines
505-506 make `pairs` the dict itself. -/
def SD.updateSelf {σ : Type} (eqv : κ → κ → Bool) (L : ListAPI σ κ) : Py (SD κ ν σ) Unit := do
  let s ← Py.get
  if s.dict.length = 0 then
    SD.onList (L.update (PyDict.keys s.dict))
  else if 10 * s.dict.length > s.dict.length then
    SD.onList L.clear
    SD.onList (L.update (PyDict.keys s.dict))
  else
    Py.forEach (fun p => SD.setitem eqv L p.1 p.2) s.dict

/-- `sd.__init__(key, sd)` (sorteddict.py:134-170), or `sd.__init__(sd)` for the key `none` -/
def dictInitSelf (eqv : κ → κ → Bool) (cls : Option F → ListClass κ) (key : Option F) (o : DictInst ν cls) :
    Except PyErr Unit × DictInst ν cls :=
  match (cls key).api.new none with
  | .error e => (.error e, { o with key := key })
  | .ok l =>
    let r := SD.updateSelf eqv (cls key).api { dict := o.state.dict, list := l }
    (r.1, { key := key, listKey := key, state := r.2 })

end Verif
