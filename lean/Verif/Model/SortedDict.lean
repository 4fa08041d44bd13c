import Verif.Model.API
import Verif.PyDict
/-!
# sorteddict.py

A SortedDict is a built-in dict (the object itself: `class SortedDict(dict)`) and a sorted list `_list` of its keys (a
SortedList, or a SortedKeyList when a key function was given).  The dict is modelled by `PyDict`, an insertion-ordered
list of items with `eqv` for `==` of keys.  The sorted list is a parameter `L : ListAPI σ κ`; the same `L` stands for
the same `_key`.
-/

namespace Verif

/-- The items of the dict and the attribute `_list` (sorteddict.py:140).  The attributes `_list_add`, ...,
`bisect_left`, ... (145-168) are bound methods of `_list`, which `__init__` creates and no method replaces. -/
structure SD (κ ν σ : Type) where
  dict : List (κ × ν)
  list : σ

namespace SD
variable {κ ν σ : Type}

/-- A call of a method of `_list`.  (sorteddict.py:140-168, the references to `_list` and its methods.) -/
def onList {β : Type} (m : Py σ β) : Py (SD κ ν σ) β := fun s =>
  let r := m s.list
  (r.1, { s with list := r.2 })

/-- A mutation of the dict that cannot raise.  (Python's `dict`, the base class, sorteddict.py:27.) -/
def onDict (f : List (κ × ν) → List (κ × ν)) : Py (SD κ ν σ) Unit := Py.modify fun s => { s with dict := f s.dict }

variable (eqv : κ → κ → Bool) (L : ListAPI σ κ)

/-- `key in self`, inherited from dict (Inherited from `dict`, sorteddict.py:27.) -/
def contains (k : κ) (s : SD κ ν σ) : Bool := PyDict.has eqv s.dict k

/-- `self[key]`, inherited from dict (Inherited from `dict`, sorteddict.py:27.) -/
def getitem (k : κ) : Py (SD κ ν σ) ν := do
  let s ← Py.get
  Py.lift (PyDict.getitem eqv s.dict k)

/-- `self.get(key)`, inherited from dict; `none` is Python's `None` (Inherited from `dict`, sorteddict.py:27.) -/
def get (k : κ) (s : SD κ ν σ) : Option ν := PyDict.lookup eqv s.dict k

/-- `len(self)`, inherited from dict (Inherited from `dict`, sorteddict.py:27.) -/
def length (s : SD κ ν σ) : Nat := s.dict.length

/-- `dict.__delitem__(self, key)` (Python's `dict`, the base class, sorteddict.py:27.) -/
def dictDelitem (k : κ) : Py (SD κ ν σ) Unit := do
  let s ← Py.get
  if PyDict.has eqv s.dict k then onDict fun d => PyDict.erase eqv d k
  else Py.raise .keyError

/-- `dict.pop(self, key)` (Python's `dict`, the base class, sorteddict.py:27.) -/
def dictPop (k : κ) : Py (SD κ ν σ) ν := do
  let s ← Py.get
  let v ← Py.lift (PyDict.getitem eqv s.dict k)
  onDict fun d => PyDict.erase eqv d k
  pure v

/-- `clear` (sorteddict.py:201-208) -/
def clear : Py (SD κ ν σ) Unit := do
  onDict fun _ => []
  onList L.clear

/-- `__delitem__` (sorteddict.py:210-231) -/
def delitem (k : κ) : Py (SD κ ν σ) Unit := do
  dictDelitem eqv k
  onList (L.remove k)

/-- `__iter__` (sorteddict.py:233-242), as the list of keys yielded; also iteration over `sd.keys()`
(`KeysView.__iter__` of collections.abc: `yield from self._mapping`) -/
def iter (s : SD κ ν σ) : List κ := L.iter s.list

/-- `__reversed__` (sorteddict.py:244-253), as the list of keys yielded -/
def reversed (s : SD κ ν σ) : List κ := L.reversed s.list

/-- `__setitem__` (sorteddict.py:255-275) -/
def setitem (k : κ) (v : ν) : Py (SD κ ν σ) Unit := do
  let s ← Py.get
  if contains eqv k s then pure () else onList (L.add k)
  onDict fun d => PyDict.set eqv d k v

/-- Iteration over `sd.items()` (sorteddict.py:331-339; `ItemsView.__iter__` of collections.abc:
`for key in self._mapping: yield (key, self._mapping[key])`), as the list of items yielded -/
def items (s : SD κ ν σ) : Except PyErr (List (κ × ν)) :=
  mapE (fun k => do
    let v ← PyDict.getitem eqv s.dict k
    pure (k, v)) (iter L s)

/-- Iteration over `sd.values()` (sorteddict.py:341-351; `ValuesView.__iter__` of collections.abc:
`for key in self._mapping: yield self._mapping[key]`), as the list of values yielded -/
def values (s : SD κ ν σ) : Except PyErr (List ν) := mapE (fun k => PyDict.getitem eqv s.dict k) (iter L s)

/-- `dict.update(self, *args, **kwargs)` (Python's `dict`, the base class, sorteddict.py:27.) -/
def dictUpdate (arg : DictArg κ ν) : Py (SD κ ν σ) Unit := do
  onDict fun d => PyDict.update eqv d arg.items
  match arg.fail with
  | none => pure ()
  | some e => Py.raise e

/-- `pairs` in `update` (sorteddict.py:505-508): the dict given, or `dict(*args, **kwargs)` -/
def pairsOf : DictArg κ ν → Except PyErr (List (κ × ν))
  | .dict items => .ok items
  | .pairs items none => .ok (PyDict.ofPairs eqv items)
  | .pairs _ (some e) => .error e

/-- `update` (sorteddict.py:487-516), also `sd |= other` (291-293).  In the loop of lines 515-516 `pairs[key]` is the
value of the item at hand. -/
def update (arg : DictArg κ ν) : Py (SD κ ν σ) Unit := do
  let s ← Py.get
  if s.dict.length = 0 then
    dictUpdate eqv arg
    let s ← Py.get
    onList (L.update (PyDict.keys s.dict))
  else
    let pairs ← Py.lift (pairsOf eqv arg)
    if 10 * pairs.length > s.dict.length then
      dictUpdate eqv (.dict pairs)
      onList L.clear
      let s ← Py.get
      onList (L.update (PyDict.keys s.dict))
    else
      Py.forEach (fun p => setitem eqv L p.1 p.2) pairs

/-- `__init__` (sorteddict.py:97-170); the key function is in `L`. -/
def new (arg : DictArg κ ν) : Except PyErr (SD κ ν σ) :=
  match L.new none with
  | .error e => .error e
  | .ok l =>
    match update eqv L arg { dict := [], list := l } with
    | (.ok _, s') => .ok s'
    | (.error e, _) => .error e

/-- `__or__` (sorteddict.py:279-283) with a mapping whose items are `other` -/
def or (other : List (κ × ν)) (s : SD κ ν σ) : Except PyErr (SD κ ν σ) := do
  let own ← items eqv L s
  new eqv L (.pairs (own ++ other) none)

/-- `__ror__` (sorteddict.py:285-289) with a mapping whose items are `other` -/
def ror (other : List (κ × ν)) (s : SD κ ν σ) : Except PyErr (SD κ ν σ) := do
  let own ← items eqv L s
  new eqv L (.pairs (other ++ own) none)

/-- `copy` (sorteddict.py:295-305) -/
def copy (s : SD κ ν σ) : Except PyErr (SD κ ν σ) := do
  let own ← items eqv L s
  new eqv L (.pairs own none)

/-- `fromkeys` (sorteddict.py:307-319): `cls((key, value) for key in iterable)`; no key function is passed, so `L` is the
list class without key. -/
def fromkeys (ks : List κ) (v : ν) : Except PyErr (SD κ ν σ) := new eqv L (.pairs (ks.map fun k => (k, v)) none)

/-- `pop` (sorteddict.py:360-390); `default = none` if the argument is not given -/
def pop (k : κ) (default : Option ν) : Py (SD κ ν σ) ν := do
  let s ← Py.get
  if contains eqv k s then
    onList (L.remove k)
    dictPop eqv k
  else
    match default with
    | none => Py.raise .keyError
    | some v => pure v

/-- `popitem` (sorteddict.py:392-425) -/
def popitem (i : Int) : Py (SD κ ν σ) (κ × ν) := do
  let s ← Py.get
  if s.dict.length = 0 then Py.raise .keyError
  else
    let key ← onList (L.pop i)
    let value ← dictPop eqv key
    pure (key, value)

/-- `peekitem` (sorteddict.py:427-455); also `sd.items()[i]` (`SortedItemsView.__getitem__`, 685-693) -/
def peekitem (i : Int) : Py (SD κ ν σ) (κ × ν) := do
  let key ← onList (L.getInt i)
  let value ← getitem eqv key
  pure (key, value)

/-- `setdefault` (sorteddict.py:457-485) -/
def setdefault (k : κ) (default : ν) : Py (SD κ ν σ) ν := do
  let s ← Py.get
  if contains eqv k s then getitem eqv k
  else
    onDict fun d => PyDict.set eqv d k default
    onList (L.add k)
    pure default

/-- The items in the `__reduce__` tuple (sorteddict.py:520-528), `dict.copy(self)`; the other component is the key
function. -/
def reduceArgs (s : SD κ ν σ) : List (κ × ν) := s.dict

/-- `_check` (sorteddict.py:546-555) -/
def check (eqv : κ → κ → Bool) (c : ListClass κ) (s : SD κ ν c.State) : Except PyErr Unit := do
  c.check s.list
  SL.assert (length s == c.api.len s.list)
  SL.assert ((c.api.iter s.list).all fun k => contains eqv k s)

/-- `sd == other`, inherited from dict, for a dict (or sorted dict) with the items `other`; `sd != other` is its
negation.  `veq` is `==` of values, which does not raise.  (Inherited from `dict`, sorteddict.py:27.) -/
def eq (eqv : κ → κ → Bool) (veq : ν → ν → Bool) (other : List (κ × ν)) (s : SD κ ν σ) : Bool :=
  PyDict.equal eqv veq s.dict other

/-! ### The views -/

/-- `sd.keys()[i]` (`SortedKeysView.__getitem__`, sorteddict.py:611-638) -/
def keysAt (i : Int) : Py (SD κ ν σ) κ := onList (L.getInt i)

/-- `sd.keys()[a:b:c]` (sorteddict.py:611-638) -/
def keysSlice (sl : PySlice) : Py (SD κ ν σ) (List κ) := onList (L.getSlice sl)

/-- `sd.items()[a:b:c]` (`SortedItemsView.__getitem__`, sorteddict.py:685-690) -/
def itemsSlice (sl : PySlice) : Py (SD κ ν σ) (List (κ × ν)) := do
  let keys ← onList (L.getSlice sl)
  Py.mapEach (fun k => do
    let v ← getitem eqv k
    pure (k, v)) keys

/-- `sd.values()[i]` (`SortedValuesView.__getitem__`, sorteddict.py:736-744) -/
def valuesAt (i : Int) : Py (SD κ ν σ) ν := do
  let key ← onList (L.getInt i)
  getitem eqv key

/-- `sd.values()[a:b:c]` (sorteddict.py:736-741) -/
def valuesSlice (sl : PySlice) : Py (SD κ ν σ) (List ν) := do
  let keys ← onList (L.getSlice sl)
  Py.mapEach (getitem eqv) keys

/-- `del view[i]` (`_view_delitem`, sorteddict.py:583-593) -/
def viewDelInt (i : Int) : Py (SD κ ν σ) Unit := do
  let key ← onList (L.pop i)
  dictDelitem eqv key

/-- `del view[a:b:c]` (`_view_delitem`, sorteddict.py:583-590) -/
def viewDelSlice (sl : PySlice) : Py (SD κ ν σ) Unit := do
  let keys ← onList (L.getSlice sl)
  onList (L.delSlice sl)
  Py.forEach (dictDelitem eqv) keys

/-! ## Calls -/

/-- Wrap the result of a call.  (Scaffolding of the model: no code of /repo.) -/
def out {τ β : Type} (f : β → DOut κ ν) (m : Py τ β) : Py τ (DOut κ ν) := do
  let b ← m
  pure (f b)

/-- A call that only reads the object.  (Scaffolding of the model: no code of /repo.) -/
def read {β : Type} (f : SD κ ν σ → Except PyErr β) : Py (SD κ ν σ) β := fun s => (f s, s)

/-- The items of a newly created dict.  (Scaffolding of the model: no code of /repo.) -/
def itemsOf (f : SD κ ν σ → Except PyErr (SD κ ν σ)) : Py (SD κ ν σ) (List (κ × ν)) := fun s =>
  match f s with
  | .ok s' => (items eqv L s', s)
  | .error e => (.error e, s)

/-- One call.  (Dispatch of the model: each call goes to the definition of its method, which cites its lines.) -/
def step : SDOp κ ν → Py (SD κ ν σ) (DOut κ ν)
  | .setitem k v => out (fun _ => .none) (setitem eqv L k v)
  | .delitem k => out (fun _ => .none) (delitem eqv L k)
  | .clear => out (fun _ => .none) (clear L)
  | .pop k default => out .val (pop eqv L k default)
  | .popitem i => out (fun p => .item p.1 p.2) (popitem eqv L i)
  | .peekitem i => out (fun p => .item p.1 p.2) (peekitem eqv L i)
  | .setdefault k v => out .val (setdefault eqv L k v)
  | .update arg => out (fun _ => .none) (update eqv L arg)
  | .getitem k => out .val (getitem eqv k)
  | .get k => out (fun o => o.elim .none .val) (read fun s => .ok (get eqv k s))
  | .contains k => out .bool (read fun s => .ok (contains eqv k s))
  | .len => out (fun (n : Nat) => .int n) (read fun s => .ok (length s))
  | .iter => out .keys (read fun s => .ok (iter L s))
  | .reversed => out .keys (read fun s => .ok (reversed L s))
  | .items => out .items (read (items eqv L))
  | .values => out .vals (read (values eqv L))
  | .keysAt i => out .key (keysAt L i)
  | .keysSlice sl => out .keys (keysSlice L sl)
  | .itemsAt i => out (fun p => .item p.1 p.2) (peekitem eqv L i)
  | .itemsSlice sl => out .items (itemsSlice eqv L sl)
  | .valuesAt i => out .val (valuesAt eqv L i)
  | .valuesSlice sl => out .vals (valuesSlice eqv L sl)
  | .viewDelInt i => out (fun _ => .none) (viewDelInt eqv L i)
  | .viewDelSlice sl => out (fun _ => .none) (viewDelSlice eqv L sl)
  | .bisectLeft k => out (fun (n : Nat) => .int n) (onList (L.bisectLeft k))
  | .bisectRight k => out (fun (n : Nat) => .int n) (onList (L.bisectRight k))
  | .index k a b => out .int (onList (L.index k a b))
  | .irange lo hi a b r => out .keys (onList (L.irange lo hi a b r))
  | .islice a b r => out .keys (onList (L.islice a b r))
  | .reset load => out (fun _ => .none) (onList (L.reset load))
  | .copy => out .items (itemsOf eqv L (copy eqv L))
  | .or other => out .items (itemsOf eqv L (or eqv L other))
  | .ror other => out .items (itemsOf eqv L (ror eqv L other))

/-- The states a SortedDict can reach: construct it (from pairs that are pairs), or receive it from `copy` or `|`, then
call methods with valid arguments, catching exceptions.  (Scaffolding of the model: no code of /repo.) -/
inductive Reachable : SD κ ν σ → Prop where
  | new {arg s} : arg.fail = none → new eqv L arg = .ok s → Reachable s
  | copy {s s'} : Reachable s → copy eqv L s = .ok s' → Reachable s'
  | or {s s' other} : Reachable s → or eqv L other s = .ok s' → Reachable s'
  | ror {s s' other} : Reachable s → ror eqv L other s = .ok s' → Reachable s'
  | step {s} (op : SDOp κ ν) : op.Valid → Reachable s → Reachable (step eqv L op s).2
  /-- `bisect_key_left`, `bisect_key_right`, `irange_key` of `_list` (sorteddict.py:164-168) -/
  | keyCall {s m} : L.keyCall m → Reachable s → Reachable (onList m s).2

end SD
end Verif
