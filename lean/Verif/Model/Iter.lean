import Verif.IterSpec
import Verif.Model.SortedSet
import Verif.Model.SortedDict
/-!
# Iterators, one value at a time

`iter(sl)`, `reversed(sl)`, `sl.islice(..)` and `sl.irange(..)` return iterators that read the sublists of the live
object whenever a value is asked for.  An iterator is modelled by what it has still to do; `Cursor.next` reads the next
value from the sublists as they are at that time.

Simplification: an iterator names a sublist by its position in `_lists`, whereas in Python it holds the sublist object.
The two agree as long as no call moves, splits, merges or replaces sublists; after such a call nothing is claimed here
about the iterators created before it.  `Model/IterHeap.lean` has the iterators that hold list objects.
-/

namespace Verif

/-- A part of an iterator: what it has still to do.
(The iterators of `chain`, `map`, `repeat` and lists that sortedlist.py:847-867, 931-992 put together; in C.) -/
inductive Part where
  /-- `map(_lists[pos].__getitem__, indices)` -/
  | items (pos : Nat) (indices : List Nat)
  /-- `iter(_lists[pos])`, standing at `idx` -/
  | sub (pos idx : Nat)
  /-- `reversed(_lists[pos])`, with `count` values to go -/
  | subRev (pos count : Nat)
  /-- `chain.from_iterable(map(_lists.__getitem__, positions))`, with `map(reversed, ..)` around the sublists if `rev` -/
  | subs (positions : List Nat) (rev : Bool)
  /-- `chain.from_iterable(_lists)`, standing at the sublist `pos` -/
  | lists (pos : Nat)
  /-- `chain.from_iterable(map(reversed, reversed(_lists)))`, with `count` sublists to go -/
  | listsRev (count : Nat)

/-- An iterator: a chain of parts.
(The iterators of `chain`, `map`, `repeat` and lists that sortedlist.py:847-867, 931-992 put together; in C.) -/
abbrev Cursor := List Part

namespace Cursor
variable {α κ : Type}

/-- Bounds the number of parts that are opened or dropped before the next value.
(The iterators of `chain`, `map`, `repeat` and lists that sortedlist.py:847-867, 931-992 put together; in C.) -/
def weight (n : Nat) : Cursor → Nat
  | [] => 0
  | .items .. :: c | .sub .. :: c | .subRev .. :: c => 1 + weight n c
  | .subs ps _ :: c => 2 * ps.length + 1 + weight n c
  | .lists p :: c => 2 * (n - p) + 1 + weight n c
  | .listsRev k :: c => 2 * k + 1 + weight n c

/-- `next(it)` on the sublists `ls`: the next value, `none` for StopIteration, and the iterator afterwards.  (If a
sublist is too short for a `__getitem__`, IndexError; the iterator afterwards is then not modelled.)
(The iterators of `chain`, `map`, `repeat` and lists that sortedlist.py:847-867, 931-992 put together; in C.) -/
def next (ls : List (List α)) : Cursor → Except PyErr (Option α × Cursor)
  | [] => .ok (none, [])
  | .items _ [] :: c => next ls c
  | .items p (i :: is) :: c =>
    match getItem ls p with
    | .error e => .error e
    | .ok l =>
      match getItem l i with
      | .error e => .error e
      | .ok v => .ok (some v, .items p is :: c)
  | .sub p i :: c =>
    match ls[p]?.bind (·[i]?) with
    | some v => .ok (some v, .sub p (i + 1) :: c)
    | none => next ls c
  | .subRev _ 0 :: c => next ls c
  | .subRev p (k + 1) :: c =>
    match ls[p]?.bind (·[k]?) with
    | some v => .ok (some v, .subRev p k :: c)
    | none => next ls c
  | .subs [] _ :: c => next ls c
  | .subs (p :: ps) rev :: c =>
    match getItem ls p with
    | .error e => .error e
    | .ok l => next ls ((if rev then .subRev p l.length else .sub p 0) :: .subs ps rev :: c)
  | .lists p :: c => if p < ls.length then next ls (.sub p 0 :: .lists (p + 1) :: c) else next ls c
  | .listsRev 0 :: c => next ls c
  | .listsRev (k + 1) :: c =>
    match ls[k]? with
    | some l => next ls (.subRev k l.length :: .listsRev k :: c)
    | none => next ls c
termination_by c => weight ls.length c
decreasing_by
  all_goals simp only [weight, List.length_cons]
  all_goals try omega
  all_goals split <;> simp only [weight] <;> omega

/-- `__iter__` (sortedlist.py:847-856) -/
def iter : Cursor := [.lists 0]

/-- `__reversed__` (sortedlist.py:858-867) -/
def reversed (s : St α κ) : Cursor := [.listsRev s.lists.length]

/-- `_islice` (sortedlist.py:931-992) -/
def islicePos (s : St α κ) (minPos minIdx maxPos maxIdx : Nat) (reverse : Bool) : Except PyErr Cursor :=
  if minPos > maxPos then .ok []
  else if minPos = maxPos then do
    let _ ← getItem s.lists minPos
    let indices := Core.natRange minIdx maxIdx
    .ok [.items minPos (if reverse then indices.reverse else indices)]
  else if minPos + 1 = maxPos then do
    let minList ← getItem s.lists minPos
    let _ ← getItem s.lists maxPos
    let minIndices := Core.natRange minIdx minList.length
    let maxIndices := Core.natRange 0 maxIdx
    if reverse then .ok [.items maxPos maxIndices.reverse, .items minPos minIndices.reverse]
    else .ok [.items minPos minIndices, .items maxPos maxIndices]
  else do
    let minList ← getItem s.lists minPos
    let _ ← getItem s.lists maxPos
    let minIndices := Core.natRange minIdx minList.length
    let sublistIndices := Core.natRange (minPos + 1) maxPos
    let maxIndices := Core.natRange 0 maxIdx
    if reverse then
      .ok [.items maxPos maxIndices.reverse, .subs sublistIndices.reverse true, .items minPos minIndices.reverse]
    else .ok [.items minPos minIndices, .subs sublistIndices false, .items maxPos maxIndices]

end Cursor

/-! ## Creating iterators -/

/-- `__iter__`, `__reversed__`, `islice`, `irange` of a SortedList (sortedlist.py:847-867, 886-929, 994-1073) -/
def SL.openIter {α : Type} (E : Env α) : IterKind α → Py (St α α) Cursor
  | .iter => pure .iter
  | .reversed => fun s => (.ok (.reversed s), s)
  | .islice a b r => Core.isliceWith Cursor.islicePos [] E.ilog2 a b r
  | .irange lo hi a b r => SL.irangeWith Cursor.islicePos [] E lo hi a b r

/-- The same methods of a SortedKeyList (sortedlist.py:847-867, 886-929, 2008-2042) -/
def SKL.openIter {α κ : Type} (K : KEnv α κ) : IterKind α → Py (St α κ) Cursor
  | .iter => pure .iter
  | .reversed => fun s => (.ok (.reversed s), s)
  | .islice a b r => Core.isliceWith Cursor.islicePos [] K.ilog2 a b r
  | .irange lo hi a b r => SKL.irangeWith Cursor.islicePos [] K lo hi a b r

/-- With `irange_key` (sortedlist.py:2044-2128) -/
def SKL.kopenIter {α κ : Type} (K : KEnv α κ) : KIterKind α κ → Py (St α κ) Cursor
  | .kind k => SKL.openIter K k
  | .irangeKey lo hi a b r => SKL.irange_keyWith Cursor.islicePos [] K lo hi a b r

/-- The attribute `_lists` of a list of the class.  (sortedlist.py:110.) -/
def ListClass.lists {α : Type} : (c : ListClass α) → c.State → List (List α)
  | .plain _ => St.lists
  | .keyed _ => St.lists

/-- The calls that return an iterator, on a list of the class.  (sortedlist.py:847-992, 994-1073, 2008-2128.) -/
def ListClass.openIter {α : Type} : (c : ListClass α) → IterKind α → Py c.State Cursor
  | .plain E => SL.openIter E
  | .keyed K => SKL.openIter K

/-! ## Schedules -/

/-- A container with iterators.  `σ`: the object; `α`: the values in the sublists; `β`: what iterators yield; `K`, `C`: the
calls that do and do not return iterators; `R`: the results of the latter.  (Scaffolding of the model: no code of /repo.) -/
structure IterSys (σ α β K C R : Type) where
  /-- the sublists that the iterators read -/
  lists : σ → List (List α)
  opens : K → Py σ Cursor
  /-- what the iterator makes of the value it reads -/
  view : K → α → σ → Except PyErr β
  call : C → Py σ R

/-- The object and the iterators created so far.  (Scaffolding of the model: no code of /repo.) -/
abbrev IterState (σ K : Type) := σ × List (K × Cursor)

/-- One event.  (Scaffolding of the model: no code of /repo.) -/
def IterSys.step {σ α β K C R : Type} (A : IterSys σ α β K C R) : Event K C → Py (IterState σ K) (EvOut β R)
  | .opens k => fun (s, its) =>
    match A.opens k s with
    | (.ok c, s') => (.ok .opened, s', its ++ [(k, c)])
    | (.error e, s') => (.error e, s', its)
  | .next j => fun (s, its) =>
    match its[j]? with
    | none => (.ok .noIterator, s, its)
    | some (k, c) =>
      match c.next (A.lists s) with
      | .error e => (.error e, s, its)
      | .ok (none, c') => (.ok .stop, s, its.set j (k, c'))
      | .ok (some v, c') =>
        match A.view k v s with
        | .ok b => (.ok (.value b), s, its.set j (k, c'))
        | .error e => (.error e, s, its.set j (k, c'))
  | .call op => fun (s, its) =>
    match A.call op s with
    | (.ok r, s') => (.ok (.result r), s', its)
    | (.error e, s') => (.error e, s', its)

/-- A SortedList and its iterators.  (Scaffolding of the model: no code of /repo.) -/
def SL.iterSys {α : Type} (E : Env α) : IterSys (St α α) α α (IterKind α) (Op α) (Out α) where
  lists := St.lists
  opens := SL.openIter E
  view := fun _ v _ => .ok v
  call := (SL.api E).step

/-- A SortedKeyList and its iterators.  (Scaffolding of the model: no code of /repo.) -/
def SKL.iterSys {α κ : Type} (K : KEnv α κ) : IterSys (St α κ) α α (KIterKind α κ) (KOp α κ) (Out α) where
  lists := St.lists
  opens := SKL.kopenIter K
  view := fun _ v _ => .ok v
  call := SKL.kstep K

/-- A SortedSet and its iterators, which are those of `_list` (`__iter__`, `__reversed__`: sortedset.py:298-318; `islice`,
`irange`: 146-147). -/
def SS.iterSys {α τ : Type} (S : SetOps τ α) (c : ListClass α) :
    IterSys (SS τ c.State) α α (IterKind α) (SSOp α) (Out α) where
  lists := fun s => c.lists s.list
  opens := fun k => SS.onList (c.openIter k)
  view := fun _ v _ => .ok v
  call := SS.step S c.api

/-- A SortedDict and its iterators: those of keys are those of `_list` (`__iter__`, `__reversed__`: sorteddict.py:233-253;
`islice`, `irange`: 160-161), those of values and items look up each key when it is reached
(`ValuesView.__iter__`, `ItemsView.__iter__` of collections.abc: `for key in self._mapping: yield self._mapping[key]`,
`yield (key, self._mapping[key])`). -/
def SD.iterSys {κ ν : Type} (eqv : κ → κ → Bool) (c : ListClass κ) :
    IterSys (SD κ ν c.State) κ (DOut κ ν) (DIterKind κ) (SDOp κ ν) (DOut κ ν) where
  lists := fun s => c.lists s.list
  opens := fun k => SD.onList (c.openIter (match k with
    | .keys k => k
    | .values | .items => .iter))
  view := fun k key s =>
    match k with
    | .keys _ => .ok (.key key)
    | .values => do
      let v ← PyDict.getitem eqv s.dict key
      .ok (.val v)
    | .items => do
      let v ← PyDict.getitem eqv s.dict key
      .ok (.item key v)
  call := SD.step eqv c.api

end Verif
