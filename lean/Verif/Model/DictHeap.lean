import Verif.Model.SortedDict
import Verif.DictHeapSpec
/-!
# SortedDict with its parts by reference

Model/SortedDict.lean describes a SortedDict by the *values* of the dict and of `_list`.  Python's dicts and sorted lists are
mutable objects: a SortedDict is itself a dict object that can be passed wherever a dict can, even to its own methods;
`_list` is a reference, `__init__` caches methods of that object (`_list_add`, ...); views hold a reference to the
SortedDict; `update` reads its argument while it changes the receiver; and the client has dicts of its own.  Here every
dict and every sorted list is an object at an address, and the methods pass addresses around as the code does.

Simplifications: what happens inside a sorted list is a single step here (see Model/Heap.lean for its list objects), and so is
one item assignment of a dict.  A loop over the keys of a mapping runs over the keys it had when the loop began: no loop here
changes the mapping over which it runs.  (`dict.update(self, self)` assigns to existing keys only; in the loop of
sorteddict.py:515-516 `pairs` is not `self`, since `10 * len(self) > len(self)` unless `self` is empty.)  Errors that Lean's type system asks for and that
cannot happen (an address without object) are `modelGap`.

All line numbers refer to /repo/src/sortedcontainers/sorteddict.py.
-/

namespace Verif
namespace DictHeap

/-- The attributes of a SortedDict (sorteddict.py:140-168) -/
structure Attrs where
  /-- `_list` -/
  list : Nat
  /-- the sorted list whose methods `_list_add`, ..., `bisect_left`, ..., `_reset` are (145-168) -/
  methods : Nat

/-- A dict object: its items, and its attributes if it is a SortedDict (sorteddict.py:27, 134-168.) -/
structure Obj (κ ν : Type) where
  items : List (κ × ν)
  attrs : Option Attrs

/-- All dicts (sorted or not) and all sorted lists of the program; the identity of an object is its position.
(Scaffolding of the model: no code of /repo.) -/
structure Mem (κ ν σ : Type) where
  dicts : List (Obj κ ν)
  lists : List σ

/-- A method.  (Scaffolding of the model: no code of /repo.) -/
abbrev Run (κ ν σ β : Type) := Py (Mem κ ν σ) β

variable {κ ν σ β : Type}

/-- The items of the dict object at `a`, in insertion order (Scaffolding of the model: no code of /repo.) -/
def items (a : Nat) : Run κ ν σ (List (κ × ν)) := fun m =>
  match m.dicts[a]? with
  | some o => (.ok o.items, m)
  | none => (.error .modelGap, m)

/-- The attributes of the SortedDict at `a` (Scaffolding of the model: no code of /repo.) -/
def attrs (a : Nat) : Run κ ν σ Attrs := fun m =>
  match m.dicts[a]?.bind Obj.attrs with
  | some s => (.ok s, m)
  | none => (.error .modelGap, m)

/-- A change of the items of the dict object at `a`; everybody who refers to it sees the change.
(Scaffolding of the model: no code of /repo.) -/
def onDict (a : Nat) (f : List (κ × ν) → List (κ × ν)) : Run κ ν σ Unit := fun m =>
  match m.dicts[a]? with
  | some o => (.ok (), { m with dicts := m.dicts.set a { o with items := f o.items } })
  | none => (.error .modelGap, m)

/-- A method of the sorted list at `l`; everybody who refers to it sees the change.
(Scaffolding of the model: no code of /repo.) -/
def onList (l : Nat) (f : Py σ β) : Run κ ν σ β := fun m =>
  match m.lists[l]? with
  | some s =>
    let r := f s
    (r.1, { m with lists := m.lists.set l r.2 })
  | none => (.error .modelGap, m)

/-- A new dict object (Scaffolding of the model: no code of /repo.) -/
def newDict (o : Obj κ ν) : Run κ ν σ Nat := fun m => (.ok m.dicts.length, { m with dicts := m.dicts ++ [o] })

/-- A new sorted list (Scaffolding of the model: no code of /repo.) -/
def newList (s : σ) : Run κ ν σ Nat := fun m => (.ok m.lists.length, { m with lists := m.lists ++ [s] })

/-- A call of one of the cached methods `_list_add`, ..., `bisect_left`, ... of the SortedDict `self` (sorteddict.py:145-168) -/
def bound (self : Nat) (f : Py σ β) : Run κ ν σ β := do
  onList (← attrs self).methods f

/-- A call of a method of `self._list` (sorteddict.py:140-168, the references to `_list` and its methods.) -/
def viaList (self : Nat) (f : Py σ β) : Run κ ν σ β := do
  onList (← attrs self).list f

variable (eqv : κ → κ → Bool) (L : ListAPI σ κ)

/-- `key in d`, for any dict object (Inherited from `dict`, sorteddict.py:27.) -/
def contains (a : Nat) (k : κ) : Run κ ν σ Bool := do
  return PyDict.has eqv (← items a) k

/-- `d[key]`, for any dict object (Inherited from `dict`, sorteddict.py:27.) -/
def getitem (a : Nat) (k : κ) : Run κ ν σ ν := do
  Py.lift (PyDict.getitem eqv (← items a) k)

/-- `d.get(key)`, inherited from dict; `none` is Python's `None` (Inherited from `dict`, sorteddict.py:27.) -/
def get (a : Nat) (k : κ) : Run κ ν σ (Option ν) := do
  return PyDict.lookup eqv (← items a) k

/-- `len(d)`, for any dict object (Inherited from `dict`, sorteddict.py:27.) -/
def length (a : Nat) : Run κ ν σ Nat := do
  return (← items a).length

/-- `dict.__delitem__(d, key)` (Python's `dict`, the base class, sorteddict.py:27.) -/
def dictDelitem (a : Nat) (k : κ) : Run κ ν σ Unit := do
  if PyDict.has eqv (← items a) k then onDict a fun d => PyDict.erase eqv d k
  else Py.raise .keyError

/-- `dict.pop(d, key)` (Python's `dict`, the base class, sorteddict.py:27.) -/
def dictPop (a : Nat) (k : κ) : Run κ ν σ ν := do
  let v ← Py.lift (PyDict.getitem eqv (← items a) k)
  onDict a fun d => PyDict.erase eqv d k
  pure v

/-- `clear` (sorteddict.py:201-208) -/
def clear (self : Nat) : Run κ ν σ Unit := do
  onDict self fun _ => []
  bound self L.clear

/-- `__delitem__` (sorteddict.py:210-231) -/
def delitem (self : Nat) (k : κ) : Run κ ν σ Unit := do
  dictDelitem eqv self k
  bound self (L.remove k)

/-- A method of the sorted list that only reads it (sorteddict.py:140-168, the references to `_list` and its methods.) -/
def readList (f : σ → β) : Py σ β := fun s => (.ok (f s), s)

/-- `__iter__` of a SortedDict (sorteddict.py:233-242) or, for a plain dict, insertion order; as the list of keys yielded -/
def iter (a : Nat) : Run κ ν σ (List κ) := fun m =>
  match m.dicts[a]? with
  | some { items := d, attrs := none } => (.ok (PyDict.keys d), m)
  | some { items := _, attrs := some _ } => bound a (readList L.iter) m
  | none => (.error .modelGap, m)

/-- `__reversed__` (sorteddict.py:244-253), as the list of keys yielded -/
def reversed (self : Nat) : Run κ ν σ (List κ) := bound self (readList L.reversed)

/-- `__setitem__` (sorteddict.py:255-275) -/
def setitem (self : Nat) (k : κ) (v : ν) : Run κ ν σ Unit := do
  if ← contains eqv self k then pure () else bound self (L.add k)
  onDict self fun d => PyDict.set eqv d k v

/-- Iteration over `d.items()` (sorteddict.py:331-339; `ItemsView.__iter__` of collections.abc:
`for key in self._mapping: yield (key, self._mapping[key])`), as the list of items yielded -/
def itemsOf (a : Nat) : Run κ ν σ (List (κ × ν)) := do
  Py.mapEach (fun k => do
    let v ← getitem eqv a k
    pure (k, v)) (← iter L a)

/-- Iteration over `d.values()` (sorteddict.py:341-351; `ValuesView.__iter__` of collections.abc:
`for key in self._mapping: yield self._mapping[key]`), as the list of values yielded -/
def valuesOf (a : Nat) : Run κ ν σ (List ν) := do
  Py.mapEach (getitem eqv a) (← iter L a)

/-- The argument of `update` or of the constructor: a dict object, an iterable that yields the items of the given dict
objects one after the other (`d.items()`, or `chain(d.items(), e.items())`), or any other pairs
(Scaffolding of the model: no code of /repo.) -/
inductive Arg (κ ν : Type) where
  | obj (a : Nat)
  | itemsOf (as : List Nat)
  | pairs (items : List (κ × ν)) (fail : Option PyErr)

/-- `for key in e: d[key] = e[key]` with the `__setitem__` of the built-in dict (`dict_merge` of CPython; the same for
`for key, value in e.items(): d[key] = value`) (Python's `dict`, the base class, sorteddict.py:27.) -/
def merge (a : Nat) (from_ : Nat) : Run κ ν σ Unit := do
  Py.forEach (fun k => do
    let v ← getitem eqv from_ k
    onDict a fun d => PyDict.set eqv d k v) (← iter L from_)

/-- `dict.update(d, arg)` (Python's `dict`, the base class, sorteddict.py:27.) -/
def dictUpdate (a : Nat) : Arg κ ν → Run κ ν σ Unit
  | .obj b => merge eqv L a b
  | .itemsOf bs => Py.forEach (merge eqv L a) bs
  | .pairs items fail => do
    onDict a fun d => PyDict.update eqv d items
    match fail with
    | none => pure ()
    | some e => Py.raise e

/-- `pairs` in `update` (sorteddict.py:505-508): the dict given, or the new dict `dict(arg)` -/
def pairsOf : Arg κ ν → Run κ ν σ Nat
  | .obj b => pure b
  | arg => do
    let b ← newDict { items := [], attrs := none }
    dictUpdate eqv L b arg
    pure b

/-- `update` (sorteddict.py:487-516), also `sd |= other` (291-293) -/
def update (self : Nat) (arg : Arg κ ν) : Run κ ν σ Unit := do
  if (← items self).length = 0 then
    dictUpdate eqv L self arg
    bound self (L.update (PyDict.keys (← items self)))
  else
    let pairs ← pairsOf eqv L arg
    if 10 * (← items pairs).length > (← items self).length then
      dictUpdate eqv L self (.obj pairs)
      bound self L.clear
      bound self (L.update (PyDict.keys (← items self)))
    else
      Py.forEach (fun k => do
        let v ← getitem eqv pairs k
        setitem eqv L self k v) (← iter L pairs)

/-- `SortedDict(key, arg)`: `dict.__new__` and `__init__` (sorteddict.py:97-170); the key function is in `L`. -/
def init (arg : Arg κ ν) : Run κ ν σ Nat := do
  let _list ← newList (← Py.lift (L.new none))
  let self ← newDict { items := [], attrs := some { list := _list, methods := _list } }
  update eqv L self arg
  pure self

/-- `__or__` (sorteddict.py:279-283) with the mapping at `other` -/
def or (self other : Nat) : Run κ ν σ Nat := init eqv L (.itemsOf [self, other])

/-- `__ror__` (sorteddict.py:285-289) with the mapping at `other` -/
def ror (self other : Nat) : Run κ ν σ Nat := init eqv L (.itemsOf [other, self])

/-- `copy` (sorteddict.py:295-305) -/
def copy (self : Nat) : Run κ ν σ Nat := init eqv L (.itemsOf [self])

/-- `pop` (sorteddict.py:360-390); `default = none` if the argument is not given -/
def pop (self : Nat) (k : κ) (default : Option ν) : Run κ ν σ ν := do
  if ← contains eqv self k then
    bound self (L.remove k)
    dictPop eqv self k
  else
    match default with
    | none => Py.raise .keyError
    | some v => pure v

/-- `popitem` (sorteddict.py:392-425) -/
def popitem (self : Nat) (i : Int) : Run κ ν σ (κ × ν) := do
  if (← items self).length = 0 then Py.raise .keyError
  else
    let key ← bound self (L.pop i)
    let value ← dictPop eqv self key
    pure (key, value)

/-- `peekitem` (sorteddict.py:427-455) -/
def peekitem (self : Nat) (i : Int) : Run κ ν σ (κ × ν) := do
  let key ← viaList self (L.getInt i)
  let value ← getitem eqv self key
  pure (key, value)

/-- `setdefault` (sorteddict.py:457-485) -/
def setdefault (self : Nat) (k : κ) (default : ν) : Run κ ν σ ν := do
  if ← contains eqv self k then getitem eqv self k
  else
    onDict self fun d => PyDict.set eqv d k default
    bound self (L.add k)
    pure default

/-- The dict in the tuple that `__reduce__` returns (sorteddict.py:520-528): `dict.copy(self)`, a new plain dict -/
def reduceArgs (self : Nat) : Run κ ν σ Nat := do
  newDict { items := ← items self, attrs := none }

/-- Pickling and unpickling, or `copy.deepcopy`: the dict in the tuple of `__reduce__` is copied again, and the class is called
with the copy (sorteddict.py:520-528). -/
def pickle (self : Nat) : Run κ ν σ Nat := do
  let a ← reduceArgs self
  let b ← newDict { items := ← items a, attrs := none }
  init eqv L (.obj b)

/-! ### Views: `mapping` is the SortedDict to which the attribute `_mapping` refers -/

/-- `SortedKeysView.__getitem__` with an integer (sorteddict.py:611-638) -/
def keysAt (mapping : Nat) (i : Int) : Run κ ν σ κ := viaList mapping (L.getInt i)

/-- `SortedKeysView.__getitem__` with a slice (sorteddict.py:611-638) -/
def keysSlice (mapping : Nat) (sl : PySlice) : Run κ ν σ (List κ) := viaList mapping (L.getSlice sl)

/-- `SortedItemsView.__getitem__` with an integer (sorteddict.py:658-693) -/
def itemsAt (mapping : Nat) (i : Int) : Run κ ν σ (κ × ν) := do
  let key ← viaList mapping (L.getInt i)
  let value ← getitem eqv mapping key
  pure (key, value)

/-- `SortedItemsView.__getitem__` with a slice (sorteddict.py:685-690) -/
def itemsSlice (mapping : Nat) (sl : PySlice) : Run κ ν σ (List (κ × ν)) := do
  let keys ← viaList mapping (L.getSlice sl)
  Py.mapEach (fun k => do
    let v ← getitem eqv mapping k
    pure (k, v)) keys

/-- `SortedValuesView.__getitem__` with an integer (sorteddict.py:736-744) -/
def valuesAt (mapping : Nat) (i : Int) : Run κ ν σ ν := do
  let key ← viaList mapping (L.getInt i)
  getitem eqv mapping key

/-- `SortedValuesView.__getitem__` with a slice (sorteddict.py:736-741) -/
def valuesSlice (mapping : Nat) (sl : PySlice) : Run κ ν σ (List ν) := do
  let keys ← viaList mapping (L.getSlice sl)
  Py.mapEach (getitem eqv mapping) keys

/-- `del view[i]` (`_view_delitem`, sorteddict.py:583-593) -/
def viewDelInt (mapping : Nat) (i : Int) : Run κ ν σ Unit := do
  let key ← viaList mapping (L.pop i)
  dictDelitem eqv mapping key

/-- `del view[a:b:c]` (`_view_delitem`, sorteddict.py:583-590) -/
def viewDelSlice (mapping : Nat) (sl : PySlice) : Run κ ν σ Unit := do
  let keys ← viaList mapping (L.getSlice sl)
  viaList mapping (L.delSlice sl)
  Py.forEach (dictDelitem eqv mapping) keys

/-- A call on a view of the given kind (sorteddict.py:596-746); `__len__` is that of `MappingView`, `__iter__` that of
`KeysView`, `ItemsView`, `ValuesView` (collections.abc). -/
def viewCall (kind : ViewKind) (mapping : Nat) : ViewCall → Run κ ν σ (DOut κ ν)
  | .len => SD.out (fun (n : Nat) => .int n) (length mapping)
  | .iter =>
    match kind with
    | .keys => SD.out .keys (iter L mapping)
    | .items => SD.out .items (itemsOf eqv L mapping)
    | .values => SD.out .vals (valuesOf eqv L mapping)
  | .at i =>
    match kind with
    | .keys => SD.out .key (keysAt L mapping i)
    | .items => SD.out (fun p => .item p.1 p.2) (itemsAt eqv L mapping i)
    | .values => SD.out .val (valuesAt eqv L mapping i)
  | .slice sl =>
    match kind with
    | .keys => SD.out .keys (keysSlice L mapping sl)
    | .items => SD.out .items (itemsSlice eqv L mapping sl)
    | .values => SD.out .vals (valuesSlice eqv L mapping sl)
  | .delInt i => SD.out (fun _ => .none) (viewDelInt eqv L mapping i)
  | .delSlice sl => SD.out (fun _ => .none) (viewDelSlice eqv L mapping sl)

/-! ### Calls -/

/-- A literal dict: `{k: v, ...}` (Python's `dict`, the base class, sorteddict.py:27.) -/
def literal (ps : List (κ × ν)) : Run κ ν σ Nat := newDict { items := PyDict.ofPairs eqv ps, attrs := none }

/-- The argument of a call that the client does not keep.  (Scaffolding of the model: no code of /repo.) -/
def argument : DictArg κ ν → Run κ ν σ (Arg κ ν)
  | .dict ps => do return .obj (← literal eqv ps)
  | .pairs ps fail => pure (.pairs ps fail)

/-- One call.  Views and new dicts are dropped after they have been read once.
(Dispatch of the model: each call goes to the definition of its method, which cites its lines.) -/
def call (self : Nat) : SDOp κ ν → Run κ ν σ (DOut κ ν)
  | .setitem k v => SD.out (fun _ => .none) (setitem eqv L self k v)
  | .delitem k => SD.out (fun _ => .none) (delitem eqv L self k)
  | .clear => SD.out (fun _ => .none) (clear L self)
  | .pop k default => SD.out .val (pop eqv L self k default)
  | .popitem i => SD.out (fun p => .item p.1 p.2) (popitem eqv L self i)
  | .peekitem i => SD.out (fun p => .item p.1 p.2) (peekitem eqv L self i)
  | .setdefault k v => SD.out .val (setdefault eqv L self k v)
  | .update arg => SD.out (fun _ => .none) (do update eqv L self (← argument eqv arg))
  | .getitem k => SD.out .val (getitem eqv self k)
  | .get k => SD.out (fun o => o.elim .none .val) (get eqv self k)
  | .contains k => SD.out .bool (contains eqv self k)
  | .len => SD.out (fun (n : Nat) => .int n) (length self)
  | .iter => SD.out .keys (iter L self)
  | .reversed => SD.out .keys (reversed L self)
  | .items => viewCall eqv L .items self .iter
  | .values => viewCall eqv L .values self .iter
  | .keysAt i => viewCall eqv L .keys self (.at i)
  | .keysSlice sl => viewCall eqv L .keys self (.slice sl)
  | .itemsAt i => viewCall eqv L .items self (.at i)
  | .itemsSlice sl => viewCall eqv L .items self (.slice sl)
  | .valuesAt i => viewCall eqv L .values self (.at i)
  | .valuesSlice sl => viewCall eqv L .values self (.slice sl)
  | .viewDelInt i => viewCall eqv L .keys self (.delInt i)
  | .viewDelSlice sl => viewCall eqv L .keys self (.delSlice sl)
  | .bisectLeft k => SD.out (fun (n : Nat) => .int n) (bound self (L.bisectLeft k))
  | .bisectRight k => SD.out (fun (n : Nat) => .int n) (bound self (L.bisectRight k))
  | .index k a b => SD.out .int (bound self (L.index k a b))
  | .irange lo hi a b r => SD.out .keys (bound self (L.irange lo hi a b r))
  | .islice a b r => SD.out .keys (bound self (L.islice a b r))
  | .reset load => SD.out (fun _ => .none) (bound self (L.reset load))
  | .copy => SD.out .items (do itemsOf eqv L (← copy eqv L self))
  | .or other => SD.out .items (do itemsOf eqv L (← or eqv L self (← literal eqv other)))
  | .ror other => SD.out .items (do itemsOf eqv L (← ror eqv L self (← literal eqv other)))

/-- All objects, the client's dicts, the sorted dicts, and the client's views with the SortedDict that their `_mapping` is.  `ilocs`
are the attributes `_iloc` that are set: the SortedDict and the view that is its attribute (the client has all these views, since
`iloc` returns the view that it stores).  (Scaffolding of the model: no code of /repo.) -/
structure World (κ ν σ : Type) where
  mem : Mem κ ν σ
  dicts : List Nat
  objs : List Nat
  views : List (ViewKind × Nat)
  ilocs : List (Nat × Nat)

namespace World

/-- Nothing yet.  (Scaffolding of the model: no code of /repo.) -/
def empty : World κ ν σ := { mem := { dicts := [], lists := [] }, dicts := [], objs := [], views := [], ilocs := [] }

/-- The argument that the client passes.  (Scaffolding of the model: no code of /repo.) -/
def arg (w : World κ ν σ) : DictRef κ ν → Option (Arg κ ν)
  | .dict i => w.dicts[i]?.map .obj
  | .sorted j => w.objs[j]?.map .obj
  | .itemsOf j => w.objs[j]?.map fun a => .itemsOf [a]
  | .pairs items fail => some (.pairs items fail)

/-- An argument that is a mapping.  (Scaffolding of the model: no code of /repo.) -/
def mapping (w : World κ ν σ) : DictRef κ ν → Option Nat
  | .dict i => w.dicts[i]?
  | .sorted j => w.objs[j]?
  | _ => none

/-- A method call.  (Scaffolding of the model: no code of /repo.) -/
def run (f : β → DictOut κ ν) (r : Run κ ν σ β) : Py (World κ ν σ) (DictOut κ ν) := fun w =>
  ((r w.mem).1.map f, { w with mem := (r w.mem).2 })

/-- A method call that returns a sorted dict, which the client keeps.  (Scaffolding of the model: no code of /repo.) -/
def make (r : Run κ ν σ Nat) : Py (World κ ν σ) (DictOut κ ν) := fun w =>
  match r w.mem with
  | (.ok a, m) => (.ok (.newSorted w.objs.length), { w with mem := m, objs := w.objs ++ [a] })
  | (.error e, m) => (.error e, { w with mem := m })

/-- A method call that returns a plain dict, which the client keeps.  (Scaffolding of the model: no code of /repo.) -/
def makeDict (r : Run κ ν σ Nat) : Py (World κ ν σ) (DictOut κ ν) := fun w =>
  match r w.mem with
  | (.ok a, m) => (.ok (.newDict w.dicts.length), { w with mem := m, dicts := w.dicts ++ [a] })
  | (.error e, m) => (.error e, { w with mem := m })

/-- iloc (sorteddict.py:181-199), for the SortedDict at `self`: the attribute `_iloc`; if there is none, a warning (193-197) and
a new view, which becomes the attribute (198).  Simplified: `warnings.warn` returns; it raises only where a warning filter
turns warnings into exceptions. -/
def iloc (self : Nat) : Py (World κ ν σ) (DictOut κ ν) := fun w =>
  match w.ilocs.lookup self with
  | some n => (.ok (.oldView n), w)
  | none => (.ok (.deprecated w.views.length),
      { w with views := w.views ++ [(.keys, self)], ilocs := (self, w.views.length) :: w.ilocs })

/-- One event.  (Dispatch of the model: each call goes to the definition of its method, which cites its lines.) -/
def step : DictEvent κ ν → Py (World κ ν σ) (DictOut κ ν)
  | .newDict ps => makeDict (literal eqv ps)
  | .mutate i ps => fun w =>
    match w.dicts[i]? with
    | some a => run (fun _ => .none) (onDict a fun _ => PyDict.ofPairs eqv ps) w
    | none => (.ok .noSuch, w)
  | .construct a => fun w =>
    match w.arg a with
    | some arg => make (init eqv L arg) w
    | none => (.ok .noSuch, w)
  | .call j op => fun w =>
    match w.objs[j]? with
    | some a => run .value (call eqv L a op) w
    | none => (.ok .noSuch, w)
  | .update j a => fun w =>
    match w.objs[j]?, w.arg a with
    | some self, some arg => run (fun _ => .none) (update eqv L self arg) w
    | _, _ => (.ok .noSuch, w)
  | .or j a => fun w =>
    match w.objs[j]?, w.mapping a with
    | some self, some other => make (or eqv L self other) w
    | _, _ => (.ok .noSuch, w)
  | .ror j a => fun w =>
    match w.objs[j]?, w.mapping a with
    | some self, some other => make (ror eqv L self other) w
    | _, _ => (.ok .noSuch, w)
  | .copy j => fun w =>
    match w.objs[j]? with
    | some self => make (copy eqv L self) w
    | none => (.ok .noSuch, w)
  | .pickle j => fun w =>
    match w.objs[j]? with
    | some self => make (pickle eqv L self) w
    | none => (.ok .noSuch, w)
  | .reduceArgs j => fun w =>
    match w.objs[j]? with
    | some self => makeDict (reduceArgs self) w
    | none => (.ok .noSuch, w)
  | .view j kind => fun w =>
    match w.objs[j]? with
    | some self => (.ok (.newView w.views.length), { w with views := w.views ++ [(kind, self)] })
    | none => (.ok .noSuch, w)
  | .iloc j => fun w =>
    match w.objs[j]? with
    | some self => iloc self w
    | none => (.ok .noSuch, w)
  | .viewCall n op => fun w =>
    match w.views[n]? with
    | some (kind, mapping) => run .value (viewCall eqv L kind mapping op) w
    | none => (.ok .noSuch, w)

end World

/-- What the client sees of a sorted dict: the keys that iteration yields, and the items in insertion order
(`dict.copy(sd)`, as in `__reduce__`, sorteddict.py:527). -/
structure Seen (κ ν : Type) where
  keys : List κ
  items : List (κ × ν)
deriving DecidableEq

namespace World

/-- The items of the client's dicts.  (Scaffolding of the model: no code of /repo.) -/
def seenDicts (w : World κ ν σ) : List (List (κ × ν)) := w.dicts.map fun a => ((items a w.mem).1.toOption).getD []

/-- The sorted dicts.  (Scaffolding of the model: no code of /repo.) -/
def seenSorted (w : World κ ν σ) : List (Seen κ ν) := w.objs.map fun a =>
  { keys := ((iter L a w.mem).1.toOption).getD [], items := ((items a w.mem).1.toOption).getD [] }

end World
end DictHeap
end Verif
