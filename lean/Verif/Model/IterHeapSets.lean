import Verif.Model.IterHeap
/-!
# Iterators of sets and dicts by reference

As Model/IterHeap.lean, for SortedSet and SortedDict: their `_list` is a sorted list whose sublists are list objects in a
memory, and an iterator holds the list objects that it goes through.  Sets and dicts are those of Model/SortedSet.lean and
Model/SortedDict.lean, with the methods of Model/Heap.lean for `_list`.
-/

namespace Verif
namespace Heap
variable {α κ : Type}

/-- `SortedList()`, in a memory of its own.  (sortedlist.py:89-116.) -/
def Ctx.fresh : Ctx α κ := { mem := { vals := [], keys := [] }, self := Obj.empty }

/-- `self.__class__(iterable)` (sortedlist.py:92-116, 1620-1653).  Simplification: the new object is in a memory of its own;
it is read once and dropped. -/
def HeapAPI.new (H : HeapAPI α κ) : Option (List α) → Except PyErr (Ctx α κ)
  | none => .ok Ctx.fresh
  | some xs =>
    match H.M.update (.values xs) Ctx.fresh with
    | (.ok (), c) => .ok c
    | (.error e, _) => .error e

/-- The methods of a sorted list on list objects.  Queries run on the values, as in `HeapAPI.call` (Model/World.lean).
(Dispatch of the model: each call goes to the definition of its method, which cites its lines.) -/
def HeapAPI.list (H : HeapAPI α κ) : ListAPI (Ctx α κ) α where
  new := H.new
  iter c := H.value.iter c.view
  reversed c := H.value.reversed c.view
  len c := H.value.len c.view
  add := H.add
  update xs := H.M.update (.values xs)
  clear := H.M.clear
  contains v := reading (H.value.contains v)
  discard := H.discard
  remove := H.remove
  getInt i := reading (H.value.getInt i)
  getSlice sl := do read (← Core.getSlice H.M.ilog2 sl)
  delInt := Core.delInt H.M
  delSlice := Core.delSlice H.M
  pop := Core.pop H.M
  bisectLeft v := reading (H.value.bisectLeft v)
  bisectRight v := reading (H.value.bisectRight v)
  count v := reading (H.value.count v)
  index v a b := reading (H.value.index v a b)
  irange lo hi a b r := reading (H.value.irange lo hi a b r)
  islice a b r := reading (H.value.islice a b r)
  compare op other c := H.value.compare op other c.view
  iadd xs := Core.iadd H.M (.values xs)
  imul := Core.imul H.M
  reset := Core.reset H.M
  copy c := H.new (some (H.value.iter c.view))
  concat xs c := H.new (some (H.value.iter c.view ++ xs))
  mul n c := H.new (some (repeatList (H.value.iter c.view) n))
  reduceArgs c := H.value.reduceArgs c.view
  unsupported u := reading (H.value.unsupported u)
  keyCall m := ∃ m', H.value.keyCall m' ∧ m = reading m'

end Heap

/-- The type of the keys that a list of the class keeps beside its values (a SortedList keeps none).
(Scaffolding of the model: no code of /repo.) -/
def ListClass.Key {α : Type} : ListClass α → Type
  | .plain _ => α
  | .keyed (κ := κ) _ => κ

/-- The methods of the class on list objects.
(Dispatch of the model: each call goes to the definition of its method, which cites its lines.) -/
def ListClass.heapAPI {α : Type} : (c : ListClass α) → Heap.HeapAPI α c.Key
  | .plain E => Heap.SL.heapAPI E
  | .keyed K => Heap.SKL.heapAPI K

/-- A list of the class whose sublists are list objects.  (Scaffolding of the model: no code of /repo.) -/
abbrev ListClass.Ref {α : Type} (c : ListClass α) : Type := Heap.Ctx α c.Key

/-- The methods of `_list`.  (Dispatch of the model: each call goes to the definition of its method, which cites its lines.) -/
def ListClass.heap {α : Type} (c : ListClass α) : ListAPI c.Ref α := c.heapAPI.list

/-- The calls that return an iterator, on a list of the class.  (sortedlist.py:847-992, 994-1073, 2008-2128.) -/
def ListClass.openRef {α : Type} : (c : ListClass α) → IterKind α → Heap.Run α c.Key Heap.HCursor
  | .plain E => fun k => Heap.openIter (Verif.SL.openIter E k)
  | .keyed K => fun k => Heap.openIter (Verif.SKL.openIter K k)

namespace Heap

/-- A container that holds a sorted list, and the calls on it.  `σ`: the container; `α`: the values in the sublists; `β`: what
iterators yield; `K`, `C`: the calls that do and do not return iterators; `R`: the results of the latter.
(Scaffolding of the model: no code of /repo.) -/
structure BoxSys (σ α κ β K C R : Type) where
  /-- the sorted list and the memory -/
  list : σ → Ctx α κ
  opens : K → Py σ HCursor
  /-- what the iterator makes of the value it reads -/
  view : K → α → σ → Except PyErr β
  call : C → Py σ R

/-- The container and the iterators created so far.  (Scaffolding of the model: no code of /repo.) -/
abbrev BoxState (σ K : Type) := σ × List (K × HCursor)

/-- One event.  If looking up the value raises, the iterator is a generator (`ValuesView.__iter__`, `ItemsView.__iter__`), and
a generator that has raised is finished.  (Scaffolding of the model: no code of /repo.) -/
def BoxSys.step {σ α κ β K C R : Type} (A : BoxSys σ α κ β K C R) : Event K C → Py (BoxState σ K) (EvOut β R)
  | .opens k => fun (s, its) =>
    match A.opens k s with
    | (.ok c, s') => (.ok .opened, s', its ++ [(k, c)])
    | (.error e, s') => (.error e, s', its)
  | .next j => fun (s, its) =>
    match its[j]? with
    | none => (.ok .noIterator, s, its)
    | some (k, c) =>
      match c.next (A.list s).self.lists (A.list s).cell with
      | (.error e, c') => (.error e, s, its.set j (k, c'))
      | (.ok none, c') => (.ok .stop, s, its.set j (k, c'))
      | (.ok (some v), c') =>
        match A.view k v s with
        | .ok b => (.ok (.value b), s, its.set j (k, c'))
        | .error e => (.error e, s, its.set j (k, []))
  | .call op => fun (s, its) =>
    match A.call op s with
    | (.ok r, s') => (.ok (.result r), s', its)
    | (.error e, s') => (.error e, s', its)

/-- After the events.  (Scaffolding of the model: no code of /repo.) -/
def BoxSys.after {σ α κ β K C R : Type} (A : BoxSys σ α κ β K C R) (s : σ) (evs : List (Event K C)) : BoxState σ K :=
  (runHist A.step evs (s, [])).2

end Heap

/-- A SortedSet and its iterators, which are those of `_list` (`__iter__`, `__reversed__`: sortedset.py:298-318; `islice`,
`irange`: 146-147). -/
def SS.liveSys {α τ : Type} (S : SetOps τ α) (c : ListClass α) :
    Heap.BoxSys (SS τ c.Ref) α c.Key α (IterKind α) (SSOp α) (Out α) where
  list := SS.list
  opens := fun k => SS.onList (c.openRef k)
  view := fun _ v _ => .ok v
  call := SS.step S c.heap

/-- `SortedSet()`, `SortedSet(key=...)` (sortedset.py:97-157) -/
def SS.liveStart {α τ : Type} (S : SetOps τ α) (c : ListClass α) : SS τ c.Ref := { set := S.empty, list := Heap.Ctx.fresh }

/-- A SortedDict and its iterators: those of keys are those of `_list` (`__iter__`, `__reversed__`: sorteddict.py:233-253;
`islice`, `irange`: 160-161), those of values and items look up each key when it is reached
(`ValuesView.__iter__`, `ItemsView.__iter__` of collections.abc: `for key in self._mapping: yield self._mapping[key]`,
`yield (key, self._mapping[key])`).  The latter call `iter(sd)` at the first request, which makes no difference: the iterator
starts at the first sublist, whichever that is then, and no method replaces the list object `_lists`. -/
def SD.liveSys {κ ν : Type} (eqv : κ → κ → Bool) (c : ListClass κ) :
    Heap.BoxSys (SD κ ν c.Ref) κ c.Key (DOut κ ν) (DIterKind κ) (SDOp κ ν) (DOut κ ν) where
  list := SD.list
  opens := fun k => SD.onList (c.openRef (match k with
    | .keys k => k
    | .values | .items => .iter))
  view := fun k key s =>
    match k with
    | .keys _ => .ok (.key key)
    | .values => do
      let v ← PyDict.getitem eqv s.dict key
      .ok (.val v)
    | .items => do
      let v ← PyDict.getitem eqv s.dict key
      .ok (.item key v)
  call := SD.step eqv c.heap

/-- `SortedDict()`, `SortedDict(key)` (sorteddict.py:97-170) -/
def SD.liveStart {κ ν : Type} (c : ListClass κ) : SD κ ν c.Ref := { dict := [], list := Heap.Ctx.fresh }

end Verif
