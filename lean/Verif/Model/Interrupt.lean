import Verif.Model.API
/-!
# Calls that are interrupted

An asynchronous exception (KeyboardInterrupt, a signal handler that raises, MemoryError) can end a call between any two of
its statements.  The programs of this file are those of `Model/Core.lean`, `Model/SortedList.lean` and
`Model/SortedKeyList.lean`, line for line, run with a log: each statement that writes to the object logs the object as it then is.
An interrupted call leaves one of the logged objects behind, or the object it started with (`points`).

Where the other models write several attributes or several entries in one step, the programs of this file write them one by one:
the five statements of `clear`, the entries of the positional index, `_index` before `_offset`, and the sublists
that a generator hands to `list.extend` in `update`.  What one call of a built-in function written in C does to one list
(`insert`, `append`, `extend` by a list, `del l[i:]`, `reduce(iadd, ...)`, `insort`, `sort`) stays one step.  Interruptions that strike between
two reads leave the same object as one right after the previous write.  Constructors (`copy`, `+`, `*`) work on an
object nobody else has, so a call of one logs nothing.

All line numbers refer to /repo/src/sortedcontainers/sortedlist.py.
`Proofs/Interrupt.lean` shows that, uninterrupted, these programs do what the others do.
-/

namespace Verif

/-- A computation that logs the objects it passes through.  (Scaffolding of the model: no code of /repo.) -/
def IPy (σ β : Type) : Type := Py (σ × List σ) β

/-- As a monad.  (Scaffolding of the model: no code of /repo.) -/
instance {σ : Type} : Monad (IPy σ) := inferInstanceAs (Monad (Py (σ × List σ)))

namespace IPy
variable {σ β γ : Type}

/-- A computation that writes nothing.  (Scaffolding of the model: no code of /repo.) -/
def still (m : Py σ β) : IPy σ β := fun s => ((m s.1).1, (m s.1).2, s.2)

/-- Read the object.  (Scaffolding of the model: no code of /repo.) -/
def get : IPy σ σ := still Py.get
/-- A computation that does not touch the object.  (Scaffolding of the model: no code of /repo.) -/
def lift (x : Except PyErr β) : IPy σ β := still (Py.lift x)
/-- An exception.  (Scaffolding of the model: no code of /repo.) -/
def raise (e : PyErr) : IPy σ β := still (Py.raise e)

/-- A statement that writes to the object.  (Scaffolding of the model: no code of /repo.) -/
def write (f : σ → σ) : IPy σ Unit := fun s => (.ok (), f s.1, s.2 ++ [f s.1])

/-- `for x in xs: f(x)` (Python's own, called by the code of /repo.) -/
def forEach (f : β → IPy σ Unit) (xs : List β) : IPy σ Unit := Py.forEach (σ := σ × List σ) f xs

/-- `[f(x) for x in xs]` (Python's own, called by the code of /repo.) -/
def mapEach (f : β → IPy σ γ) (xs : List β) : IPy σ (List γ) := Py.mapEach (σ := σ × List σ) f xs

/-- The objects that the call can leave behind if it is interrupted: the one it starts with, and the one after each of its
writes.  (Scaffolding of the model: no code of /repo.) -/
def points (m : IPy σ β) (s : σ) : List σ := s :: (m (s, [])).2.2

/-- The call, if it is not interrupted.  (Scaffolding of the model: no code of /repo.) -/
def run (m : IPy σ β) : Py σ β := fun s => ((m (s, [])).1, (m (s, [])).2.1)

end IPy

/-- See `Methods`.  (sortedlist.py:1664-2007: what SortedKeyList overrides.) -/
structure IMethods (α κ : Type) where
  clear : IPy (St α κ) Unit
  update : List α → IPy (St α κ) Unit
  delete : Nat → Nat → IPy (St α κ) Unit
  ilog2 : Nat → Nat

namespace Interrupt
open Core (pairSums growTree locLoop posLoop iter islicePos)
variable {α κ : Type}

/-- `_build_index` (sortedlist.py:626-692); see `Core.buildIndex`. -/
def buildIndex (ilog2 : Nat → Nat) : IPy (St α κ) Unit := do
  let s ← IPy.get
  let row0 := s.lists.map List.length
  if row0.length = 1 then
    IPy.write fun s => { s with index := row0 }
    IPy.write fun s => { s with offset := 0 }
  else
    let row1 := pairSums row0
    let row1 := if row0.length % 2 = 1 then row1 ++ row0.getLast?.toList else row1
    if row1.length = 1 then
      IPy.write fun s => { s with index := row1 ++ row0 }
      IPy.write fun s => { s with offset := 1 }
    else
      let size := 2 ^ (ilog2 (row1.length - 1) + 1)
      let row1 := row1 ++ List.replicate (size - row1.length) 0
      let tree := growTree [row0, row1] row1
      IPy.write fun s => { s with index := s.index ++ tree.reverse.flatten }
      IPy.write fun s => { s with offset := size * 2 - 1 }

/-- The loops over the path to the root of `_expand` and `_delete` (sortedlist.py:255-259, 429-433, 1753-1757, 1980-1984);
`f` is the in-place update of one entry. -/
def bumpPath (f : Nat → Except PyErr Nat) (child : Nat) : IPy (St α κ) Unit := do
  let s ← IPy.get
  let x ← IPy.lift (getItem s.index child)
  let y ← IPy.lift (f x)
  IPy.write fun s => { s with index := s.index.set child y }
  if h : child = 0 then pure () else bumpPath f ((child - 1) / 2)
termination_by child
decreasing_by omega

/-- `if _index: child = ...` (sortedlist.py:254-259, 428-433, 1752-1757, 1979-1984) -/
def touchIndex (f : Nat → Except PyErr Nat) (pos : Nat) : IPy (St α κ) Unit := do
  let s ← IPy.get
  if s.index = [] then pure () else bumpPath f (s.offset + pos)

/-- `if not _index: self._build_index()` (sortedlist.py:509-510, 606-607) -/
def ensureIndex (ilog2 : Nat → Nat) : IPy (St α κ) Unit := do
  let s ← IPy.get
  if s.index = [] then buildIndex ilog2 else pure ()

/-- `_loc` (sortedlist.py:454-531) -/
def loc (ilog2 : Nat → Nat) (pos idx : Nat) : IPy (St α κ) Nat := do
  if pos = 0 then pure idx
  else
    ensureIndex ilog2
    let s ← IPy.get
    let total ← IPy.lift (locLoop s.index (pos + s.offset) 0)
    pure (total + idx)

/-- `_pos` (sortedlist.py:601-624) -/
def posNonneg (ilog2 : Nat → Nat) (idx : Nat) : IPy (St α κ) (Nat × Nat) := do
  let s ← IPy.get
  let first ← IPy.lift (getItem s.lists 0)
  if idx < first.length then pure (0, idx)
  else
    ensureIndex ilog2
    let s ← IPy.get
    let (pos, idx) := posLoop s.index 0 1 idx
    if pos < s.offset then IPy.raise .modelGap
    else pure (pos - s.offset, idx)

/-- `_pos` (sortedlist.py:533-624) -/
def pos (ilog2 : Nat → Nat) (idx : Int) : IPy (St α κ) (Nat × Nat) := do
  let s ← IPy.get
  if idx < 0 then
    let last ← IPy.lift (lastItem s.lists)
    if -idx ≤ last.length then pure (s.lists.length - 1, ((last.length : Int) + idx).toNat)
    else
      let idx := idx + s.len
      if idx < 0 then IPy.raise .indexError
      else posNonneg ilog2 idx.toNat
  else if idx ≥ s.len then IPy.raise .indexError
  else posNonneg ilog2 idx.toNat

/-- `__getitem__` (sortedlist.py:813-831) -/
def getInt (ilog2 : Nat → Nat) (index : Int) : IPy (St α κ) α := do
  let s ← IPy.get
  if s.len ≠ 0 then
    if index = 0 then
      let l ← IPy.lift (getItem s.lists 0)
      IPy.lift (getItem l 0)
    else if index = -1 then
      let l ← IPy.lift (lastItem s.lists)
      IPy.lift (lastItem l)
    else
      let first ← IPy.lift (getItem s.lists 0)
      if 0 ≤ index ∧ index < first.length then IPy.lift (getItem first index.toNat)
      else
        let last ← IPy.lift (lastItem s.lists)
        if -(last.length : Int) < index ∧ index < 0 then
          IPy.lift (getItem last ((last.length : Int) + index).toNat)
        else
          let (pos, idx) ← pos ilog2 index
          let l ← IPy.lift (getItem s.lists pos)
          IPy.lift (getItem l idx)
  else IPy.raise .indexError

/-- `__getitem__` (sortedlist.py:776-800) -/
def getSliceFwd (ilog2 : Nat → Nat) (start stop : Int) : IPy (St α κ) (List α) := do
  let s ← IPy.get
  if start = 0 ∧ stop = s.len then pure (iter s)
  else
    let (startPos, startIdx) ← pos ilog2 start
    let startList ← IPy.lift (getItem s.lists startPos)
    let stopIdx := startIdx + (stop - start).toNat
    if stopIdx ≤ startList.length then pure (subList startList startIdx stopIdx)
    else
      let (stopPos, stopIdx) ←
        if stop = s.len then do
          let l ← IPy.lift (getItem s.lists (s.lists.length - 1))
          pure (s.lists.length - 1, l.length)
        else pos ilog2 stop
      let pre := startList.drop startIdx
      let middle := subList s.lists (startPos + 1) stopPos
      let lastList ← IPy.lift (getItem s.lists stopPos)
      pure (pre ++ middle.flatten ++ lastList.take stopIdx)

/-- `self._getitem(slice(start, stop))` (sortedlist.py:769-800, 811-812) -/
def getSliceStep1 (ilog2 : Nat → Nat) (start stop : Option Int) : IPy (St α κ) (List α) := do
  let s ← IPy.get
  let (start, stop, step) ← IPy.lift (PySlice.indices { start := start, stop := stop } s.len)
  if step = 1 ∧ start < stop then getSliceFwd ilog2 start stop
  else IPy.mapEach (getInt ilog2) (pyRange start stop step)

/-- `__getitem__` (sortedlist.py:769-812) -/
def getSlice (ilog2 : Nat → Nat) (sl : PySlice) : IPy (St α κ) (List α) := do
  let s ← IPy.get
  let (start, stop, step) ← IPy.lift (sl.indices s.len)
  if step = 1 ∧ start < stop then getSliceFwd ilog2 start stop
  else if step = -1 ∧ start > stop then
    let result ← getSliceStep1 ilog2 (some (stop + 1)) (some (start + 1))
    pure result.reverse
  else IPy.mapEach (getInt ilog2) (pyRange start stop step)

/-- `islice` (sortedlist.py:886-929) -/
def isliceWith {β : Type} (ret : St α κ → Nat → Nat → Nat → Nat → Bool → Except PyErr β) (empty : β) (ilog2 : Nat → Nat)
    (start stop : Option Int) (reverse : Bool) : IPy (St α κ) β := do
  let s ← IPy.get
  if s.len = 0 then pure empty
  else
    let (start, stop, _) ← IPy.lift (PySlice.indices { start := start, stop := stop } s.len)
    if start ≥ stop then pure empty
    else
      let (minPos, minIdx) ← pos ilog2 start
      let (maxPos, maxIdx) ←
        if stop = s.len then do
          let l ← IPy.lift (lastItem s.lists)
          pure (s.lists.length - 1, l.length)
        else pos ilog2 stop
      IPy.lift (ret s minPos minIdx maxPos maxIdx reverse)

/-- `islice` (sortedlist.py:886-929) -/
def islice (ilog2 : Nat → Nat) (start stop : Option Int) (reverse : Bool) : IPy (St α κ) (List α) :=
  isliceWith islicePos [] ilog2 start stop reverse

/-- `_reset` (sortedlist.py:156-177) -/
def reset (M : IMethods α κ) (load : Nat) : IPy (St α κ) Unit := do
  let s ← IPy.get
  let values := iter s
  M.clear
  IPy.write fun s => { s with load := load }
  M.update values

/-- `__delitem__` (sortedlist.py:741-743) -/
def delInt (M : IMethods α κ) (index : Int) : IPy (St α κ) Unit := do
  let (p, i) ← pos M.ilog2 index
  M.delete p i

/-- `__delitem__` (sortedlist.py:715-740) -/
def delSlice (M : IMethods α κ) (sl : PySlice) : IPy (St α κ) Unit := do
  let s ← IPy.get
  let (start, stop, step) ← IPy.lift (sl.indices s.len)
  if step = 1 ∧ start < stop ∧ start = 0 ∧ stop = s.len then M.clear
  else if step = 1 ∧ start < stop ∧ (s.len : Int) ≤ 8 * (stop - start) then
    let values ← getSliceStep1 M.ilog2 none (some start)
    let values ←
      if stop < s.len then do
        let tail ← getSliceStep1 M.ilog2 (some stop) none
        pure (values ++ tail)
      else pure values
    M.clear
    M.update values
  else
    let indices := pyRange start stop step
    let indices := if step > 0 then indices.reverse else indices
    IPy.forEach (delInt M) indices

/-- `pop` (sortedlist.py:1231-1288) -/
def pop (M : IMethods α κ) (index : Int) : IPy (St α κ) α := do
  let s ← IPy.get
  if s.len = 0 then IPy.raise .indexError
  else if index = 0 then
    let l ← IPy.lift (getItem s.lists 0)
    let val ← IPy.lift (getItem l 0)
    M.delete 0 0
    pure val
  else if index = -1 then
    let pos := s.lists.length - 1
    let l ← IPy.lift (getItem s.lists pos)
    let loc := l.length - 1
    let val ← IPy.lift (getItem l loc)
    M.delete pos loc
    pure val
  else
    let first ← IPy.lift (getItem s.lists 0)
    if 0 ≤ index ∧ index < first.length then
      let val ← IPy.lift (getItem first index.toNat)
      M.delete 0 index.toNat
      pure val
    else
      let last ← IPy.lift (lastItem s.lists)
      if -(last.length : Int) < index ∧ index < 0 then
        let pos := s.lists.length - 1
        let loc := ((last.length : Int) + index).toNat
        let l ← IPy.lift (getItem s.lists pos)
        let val ← IPy.lift (getItem l loc)
        M.delete pos loc
        pure val
      else
        let (p, i) ← pos M.ilog2 index
        let l ← IPy.lift (getItem s.lists p)
        let val ← IPy.lift (getItem l i)
        M.delete p i
        pure val

/-- `__imul__` (sortedlist.py:1431-1450) -/
def imul (M : IMethods α κ) (num : Int) : IPy (St α κ) Unit := do
  let s ← IPy.get
  let values := repeatList (iter s) num
  M.clear
  M.update values

/-- `__iadd__` (sortedlist.py:1390-1409) -/
def iadd (M : IMethods α κ) (other : List α) : IPy (St α κ) Unit := M.update other

namespace SL

/-- `clear` (sortedlist.py:179-189) -/
def clear : IPy (St α α) Unit := do
  IPy.write fun s => { s with len := 0 }
  IPy.write fun s => { s with lists := [] }
  IPy.write fun s => { s with maxes := [] }
  IPy.write fun s => { s with index := [] }
  IPy.write fun s => { s with offset := 0 }

/-- `_expand` (sortedlist.py:228-259) -/
def expand (pos : Nat) : IPy (St α α) Unit := do
  let s ← IPy.get
  let listsPos ← IPy.lift (getItem s.lists pos)
  if listsPos.length > s.load * 2 then
    let half := listsPos.drop s.load
    let listsPos := listsPos.take s.load
    IPy.write fun s => { s with lists := s.lists.set pos listsPos }
    let m ← IPy.lift (lastItem listsPos)
    let maxes ← IPy.lift (setItem s.maxes pos m)
    IPy.write fun s => { s with maxes := maxes }
    IPy.write fun s => { s with lists := insertAt s.lists (pos + 1) half }
    let m ← IPy.lift (lastItem half)
    IPy.write fun s => { s with maxes := insertAt s.maxes (pos + 1) m }
    IPy.write fun s => { s with index := [] }
  else
    touchIndex Core.incr pos

/-- `add` (sortedlist.py:193-226) -/
def add (E : Env α) (value : α) : IPy (St α α) Unit := do
  let s ← IPy.get
  if s.maxes ≠ [] then
    let pos ← IPy.lift (bisectRight E.lt s.maxes value)
    if pos = s.maxes.length then
      let pos := pos - 1
      let l ← IPy.lift (getItem s.lists pos)
      IPy.write fun s => { s with lists := s.lists.set pos (l ++ [value]) }
      IPy.write fun s => { s with maxes := s.maxes.set pos value }
      expand pos
    else
      let l ← IPy.lift (getItem s.lists pos)
      let l ← IPy.lift (insort E.lt l value)
      IPy.write fun s => { s with lists := s.lists.set pos l }
      expand pos
  else
    IPy.write fun s => { s with lists := s.lists ++ [[value]] }
    IPy.write fun s => { s with maxes := s.maxes ++ [value] }
  IPy.write fun s => { s with len := s.len + 1 }

/-- The tail of `update` (sortedlist.py:290-296): two generators hand over the sublists and their maxima one by one. -/
def fill (values : List α) : IPy (St α α) Unit := do
  let s ← IPy.get
  let subs ← IPy.lift (Core.chunks s.load values)
  IPy.forEach (fun l => IPy.write fun s => { s with lists := s.lists ++ [l] }) subs
  let s ← IPy.get
  IPy.forEach (fun l => do
    let m ← IPy.lift (lastItem l)
    IPy.write fun s => { s with maxes := s.maxes ++ [m] }) s.lists
  IPy.write fun s => { s with len := values.length }
  IPy.write fun s => { s with index := [] }

/-- `update` (sortedlist.py:261-296) -/
def update (E : Env α) (iterable : List α) : IPy (St α α) Unit := do
  let values ← IPy.lift (E.sorted iterable)
  let s ← IPy.get
  if s.maxes ≠ [] then
    if values.length * 4 ≥ s.len then
      IPy.write fun s => { s with lists := s.lists ++ [values] }
      let s ← IPy.get
      let values ← IPy.lift (E.sorted (Core.iter s))
      clear
      fill values
    else
      IPy.forEach (add E) values
  else
    fill values

/-- `_delete` (sortedlist.py:400-452) -/
def delete (pos idx : Nat) : IPy (St α α) Unit := do
  let s ← IPy.get
  let l ← IPy.lift (getItem s.lists pos)
  let l ← IPy.lift (delItem l idx)
  IPy.write fun s => { s with lists := s.lists.set pos l }
  let len ← IPy.lift (Core.decr s.len)
  IPy.write fun s => { s with len := len }
  if l.length > s.load / 2 then
    let m ← IPy.lift (lastItem l)
    let maxes ← IPy.lift (setItem s.maxes pos m)
    IPy.write fun s => { s with maxes := maxes }
    touchIndex Core.decr pos
  else if s.lists.length > 1 then
    let pos := if pos = 0 then pos + 1 else pos
    let prev := pos - 1
    let s ← IPy.get
    let a ← IPy.lift (getItem s.lists prev)
    let b ← IPy.lift (getItem s.lists pos)
    IPy.write fun s => { s with lists := s.lists.set prev (a ++ b) }
    let m ← IPy.lift (lastItem (a ++ b))
    let maxes ← IPy.lift (setItem s.maxes prev m)
    IPy.write fun s => { s with maxes := maxes }
    let s ← IPy.get
    let lists ← IPy.lift (delItem s.lists pos)
    IPy.write fun s => { s with lists := lists }
    let maxes ← IPy.lift (delItem s.maxes pos)
    IPy.write fun s => { s with maxes := maxes }
    IPy.write fun s => { s with index := [] }
    expand prev
  else if l.length ≠ 0 then
    let m ← IPy.lift (lastItem l)
    let maxes ← IPy.lift (setItem s.maxes pos m)
    IPy.write fun s => { s with maxes := maxes }
  else
    let s ← IPy.get
    let lists ← IPy.lift (delItem s.lists pos)
    IPy.write fun s => { s with lists := lists }
    let maxes ← IPy.lift (delItem s.maxes pos)
    IPy.write fun s => { s with maxes := maxes }
    IPy.write fun s => { s with index := [] }

/-- `discard` (sortedlist.py:330-360) -/
def discard (E : Env α) (value : α) : IPy (St α α) Unit := do
  let s ← IPy.get
  if s.maxes = [] then pure ()
  else
    let pos ← IPy.lift (bisectLeft E.lt s.maxes value)
    if pos = s.maxes.length then pure ()
    else
      let l ← IPy.lift (getItem s.lists pos)
      let idx ← IPy.lift (bisectLeft E.lt l value)
      let x ← IPy.lift (getItem l idx)
      if ← IPy.lift (E.cmp .eq x value) then delete pos idx
      else pure ()

/-- `remove` (sortedlist.py:362-398) -/
def remove (E : Env α) (value : α) : IPy (St α α) Unit := do
  let s ← IPy.get
  if s.maxes = [] then IPy.raise .valueError
  else
    let pos ← IPy.lift (bisectLeft E.lt s.maxes value)
    if pos = s.maxes.length then IPy.raise .valueError
    else
      let l ← IPy.lift (getItem s.lists pos)
      let idx ← IPy.lift (bisectLeft E.lt l value)
      let x ← IPy.lift (getItem l idx)
      if ← IPy.lift (E.cmp .eq x value) then delete pos idx
      else IPy.raise .valueError

/-- The virtual methods of a SortedList.  (sortedlist.py:1664-2007: what SortedKeyList overrides.) -/
def methods (E : Env α) : IMethods α α :=
  { clear := clear, update := update E, delete := delete, ilog2 := E.ilog2 }

/-- `bisect_left` (sortedlist.py:1085-1114) -/
def bisect_left (E : Env α) (value : α) : IPy (St α α) Nat := do
  let s ← IPy.get
  if s.maxes = [] then pure 0
  else
    let pos ← IPy.lift (bisectLeft E.lt s.maxes value)
    if pos = s.maxes.length then pure s.len
    else
      let l ← IPy.lift (getItem s.lists pos)
      let idx ← IPy.lift (bisectLeft E.lt l value)
      loc E.ilog2 pos idx

/-- `bisect_right` (sortedlist.py:1116-1148) -/
def bisect_right (E : Env α) (value : α) : IPy (St α α) Nat := do
  let s ← IPy.get
  if s.maxes = [] then pure 0
  else
    let pos ← IPy.lift (bisectRight E.lt s.maxes value)
    if pos = s.maxes.length then pure s.len
    else
      let l ← IPy.lift (getItem s.lists pos)
      let idx ← IPy.lift (bisectRight E.lt l value)
      loc E.ilog2 pos idx

/-- `count` (sortedlist.py:1150-1187) -/
def count (E : Env α) (value : α) : IPy (St α α) Int := do
  let s ← IPy.get
  if s.maxes = [] then pure 0
  else
    let posLeft ← IPy.lift (bisectLeft E.lt s.maxes value)
    if posLeft = s.maxes.length then pure 0
    else
      let l ← IPy.lift (getItem s.lists posLeft)
      let idxLeft ← IPy.lift (bisectLeft E.lt l value)
      let posRight ← IPy.lift (bisectRight E.lt s.maxes value)
      if posRight = s.maxes.length then
        let left ← loc E.ilog2 posLeft idxLeft
        pure ((s.len : Int) - left)
      else
        let l ← IPy.lift (getItem s.lists posRight)
        let idxRight ← IPy.lift (bisectRight E.lt l value)
        if posLeft = posRight then pure ((idxRight : Int) - idxLeft)
        else
          let right ← loc E.ilog2 posRight idxRight
          let left ← loc E.ilog2 posLeft idxLeft
          pure ((right : Int) - left)

/-- `index` (sortedlist.py:1290-1364) -/
def index (E : Env α) (value : α) (start stop : Option Int) : IPy (St α α) Int := do
  let s ← IPy.get
  if s.len = 0 then IPy.raise .valueError
  else
    let (start, stop) := Verif.SL.indexBounds s.len start stop
    if stop ≤ start then IPy.raise .valueError
    else
      let posLeft ← IPy.lift (bisectLeft E.lt s.maxes value)
      if posLeft = s.maxes.length then IPy.raise .valueError
      else
        let l ← IPy.lift (getItem s.lists posLeft)
        let idxLeft ← IPy.lift (bisectLeft E.lt l value)
        let x ← IPy.lift (getItem l idxLeft)
        if ← IPy.lift (E.cmp .ne x value) then IPy.raise .valueError
        else
          let stop := stop - 1
          let left ← loc E.ilog2 posLeft idxLeft
          if start ≤ left then
            if (left : Int) ≤ stop then pure (left : Int)
            else IPy.raise .valueError
          else
            let right ← bisect_right E value
            if start ≤ (right : Int) - 1 then pure start
            else IPy.raise .valueError

/-- One call on a SortedList.  The calls that `IPy.still` takes from the model write nothing to the list.
(Dispatch of the model: each call goes to the definition of its method, which cites its lines.) -/
def step (E : Env α) : Op α → IPy (St α α) (Out α)
  | .add v => Spec.out (fun _ => .none) (add E v)
  | .update xs => Spec.out (fun _ => .none) (update E xs)
  | .clear => Spec.out (fun _ => .none) clear
  | .discard v => Spec.out (fun _ => .none) (discard E v)
  | .remove v => Spec.out (fun _ => .none) (remove E v)
  | .getInt i => Spec.out .val (getInt E.ilog2 i)
  | .getSlice sl => Spec.out .vals (getSlice E.ilog2 sl)
  | .delInt i => Spec.out (fun _ => .none) (delInt (methods E) i)
  | .delSlice sl => Spec.out (fun _ => .none) (delSlice (methods E) sl)
  | .pop i => Spec.out .val (pop (methods E) i)
  | .bisectLeft v => Spec.out (fun (n : Nat) => .int n) (bisect_left E v)
  | .bisectRight v => Spec.out (fun (n : Nat) => .int n) (bisect_right E v)
  | .count v => Spec.out .int (count E v)
  | .index v start stop => Spec.out .int (index E v start stop)
  | .islice start stop reverse => Spec.out .vals (islice E.ilog2 start stop reverse)
  | .iadd xs => Spec.out (fun _ => .none) (iadd (methods E) xs)
  | .imul n => Spec.out (fun _ => .none) (imul (methods E) n)
  | .reset load => Spec.out (fun _ => .none) (reset (methods E) load)
  | op => IPy.still ((Verif.SL.api E).step op)

end SL

namespace SKL

/-- `clear` (sortedlist.py:1664-1676) -/
def clear : IPy (St α κ) Unit := do
  IPy.write fun s => { s with len := 0 }
  IPy.write fun s => { s with lists := [] }
  IPy.write fun s => { s with keys := [] }
  IPy.write fun s => { s with maxes := [] }
  IPy.write fun s => { s with index := [] }

/-- `_expand` (sortedlist.py:1721-1757) -/
def expand (pos : Nat) : IPy (St α κ) Unit := do
  let s ← IPy.get
  let keysPos ← IPy.lift (getItem s.keys pos)
  if keysPos.length > s.load * 2 then
    let listsPos ← IPy.lift (getItem s.lists pos)
    let half := listsPos.drop s.load
    let halfKeys := keysPos.drop s.load
    let listsPos := listsPos.take s.load
    let keysPos := keysPos.take s.load
    IPy.write fun s => { s with lists := s.lists.set pos listsPos }
    IPy.write fun s => { s with keys := s.keys.set pos keysPos }
    let m ← IPy.lift (lastItem keysPos)
    let maxes ← IPy.lift (setItem s.maxes pos m)
    IPy.write fun s => { s with maxes := maxes }
    IPy.write fun s => { s with lists := insertAt s.lists (pos + 1) half }
    IPy.write fun s => { s with keys := insertAt s.keys (pos + 1) halfKeys }
    let m ← IPy.lift (lastItem halfKeys)
    IPy.write fun s => { s with maxes := insertAt s.maxes (pos + 1) m }
    IPy.write fun s => { s with index := [] }
  else
    touchIndex Core.incr pos

/-- `add` (sortedlist.py:1678-1719) -/
def add (K : KEnv α κ) (value : α) : IPy (St α κ) Unit := do
  let s ← IPy.get
  let key ← IPy.lift (K.key value)
  if s.maxes ≠ [] then
    let pos ← IPy.lift (bisectRight K.lt s.maxes key)
    if pos = s.maxes.length then
      let pos := pos - 1
      let l ← IPy.lift (getItem s.lists pos)
      IPy.write fun s => { s with lists := s.lists.set pos (l ++ [value]) }
      let ks ← IPy.lift (getItem s.keys pos)
      IPy.write fun s => { s with keys := s.keys.set pos (ks ++ [key]) }
      IPy.write fun s => { s with maxes := s.maxes.set pos key }
      expand pos
    else
      let ks ← IPy.lift (getItem s.keys pos)
      let idx ← IPy.lift (bisectRight K.lt ks key)
      let l ← IPy.lift (getItem s.lists pos)
      IPy.write fun s => { s with lists := s.lists.set pos (insertAt l idx value) }
      IPy.write fun s => { s with keys := s.keys.set pos (insertAt ks idx key) }
      expand pos
  else
    IPy.write fun s => { s with lists := s.lists ++ [[value]] }
    IPy.write fun s => { s with keys := s.keys ++ [[key]] }
    IPy.write fun s => { s with maxes := s.maxes ++ [key] }
  IPy.write fun s => { s with len := s.len + 1 }

/-- The tail of `update` (sortedlist.py:1790-1797): three generators hand over the sublists, the lists of keys and the maxima
one by one. -/
def fill (K : KEnv α κ) (values : List α) : IPy (St α κ) Unit := do
  let s ← IPy.get
  let subs ← IPy.lift (Core.chunks s.load values)
  IPy.forEach (fun l => IPy.write fun s => { s with lists := s.lists ++ [l] }) subs
  let s ← IPy.get
  IPy.forEach (fun l => do
    let ks ← IPy.lift (mapE K.key l)
    IPy.write fun s => { s with keys := s.keys ++ [ks] }) s.lists
  let s ← IPy.get
  IPy.forEach (fun ks => do
    let m ← IPy.lift (lastItem ks)
    IPy.write fun s => { s with maxes := s.maxes ++ [m] }) s.keys
  IPy.write fun s => { s with len := values.length }
  IPy.write fun s => { s with index := [] }

/-- `update` (sortedlist.py:1759-1799) -/
def update (K : KEnv α κ) (iterable : List α) : IPy (St α κ) Unit := do
  let values ← IPy.lift (K.sortedByKey iterable)
  let s ← IPy.get
  if s.maxes ≠ [] then
    if values.length * 4 ≥ s.len then
      IPy.write fun s => { s with lists := s.lists ++ [values] }
      let s ← IPy.get
      let values ← IPy.lift (K.sortedByKey (Core.iter s))
      clear
      fill K values
    else
      IPy.forEach (add K) values
  else
    fill K values

/-- `_delete` (sortedlist.py:1949-2006) -/
def delete (pos idx : Nat) : IPy (St α κ) Unit := do
  let s ← IPy.get
  let keysPos ← IPy.lift (getItem s.keys pos)
  let listsPos ← IPy.lift (getItem s.lists pos)
  let keysPos ← IPy.lift (delItem keysPos idx)
  IPy.write fun s => { s with keys := s.keys.set pos keysPos }
  let listsPos ← IPy.lift (delItem listsPos idx)
  IPy.write fun s => { s with lists := s.lists.set pos listsPos }
  let len ← IPy.lift (Core.decr s.len)
  IPy.write fun s => { s with len := len }
  if keysPos.length > s.load / 2 then
    let m ← IPy.lift (lastItem keysPos)
    let maxes ← IPy.lift (setItem s.maxes pos m)
    IPy.write fun s => { s with maxes := maxes }
    touchIndex Core.decr pos
  else if s.keys.length > 1 then
    let pos := if pos = 0 then pos + 1 else pos
    let prev := pos - 1
    let s ← IPy.get
    let ka ← IPy.lift (getItem s.keys prev)
    let kb ← IPy.lift (getItem s.keys pos)
    IPy.write fun s => { s with keys := s.keys.set prev (ka ++ kb) }
    let a ← IPy.lift (getItem s.lists prev)
    let b ← IPy.lift (getItem s.lists pos)
    IPy.write fun s => { s with lists := s.lists.set prev (a ++ b) }
    let m ← IPy.lift (lastItem (ka ++ kb))
    let maxes ← IPy.lift (setItem s.maxes prev m)
    IPy.write fun s => { s with maxes := maxes }
    let s ← IPy.get
    let lists ← IPy.lift (delItem s.lists pos)
    IPy.write fun s => { s with lists := lists }
    let keys ← IPy.lift (delItem s.keys pos)
    IPy.write fun s => { s with keys := keys }
    let maxes ← IPy.lift (delItem s.maxes pos)
    IPy.write fun s => { s with maxes := maxes }
    IPy.write fun s => { s with index := [] }
    expand prev
  else if keysPos.length ≠ 0 then
    let m ← IPy.lift (lastItem keysPos)
    let maxes ← IPy.lift (setItem s.maxes pos m)
    IPy.write fun s => { s with maxes := maxes }
  else
    let s ← IPy.get
    let lists ← IPy.lift (delItem s.lists pos)
    IPy.write fun s => { s with lists := lists }
    let keys ← IPy.lift (delItem s.keys pos)
    IPy.write fun s => { s with keys := keys }
    let maxes ← IPy.lift (delItem s.maxes pos)
    IPy.write fun s => { s with maxes := maxes }
    IPy.write fun s => { s with index := [] }

/-- `discard` (sortedlist.py:1849-1895) -/
def discard (K : KEnv α κ) (value : α) : IPy (St α κ) Unit := do
  match ← IPy.still (Verif.SKL.find K value) with
  | none => pure ()
  | some (pos, idx) => delete pos idx

/-- `remove` (sortedlist.py:1897-1947) -/
def remove (K : KEnv α κ) (value : α) : IPy (St α κ) Unit := do
  match ← IPy.still (Verif.SKL.find K value) with
  | none => IPy.raise .valueError
  | some (pos, idx) => delete pos idx

/-- The virtual methods of a SortedKeyList.  (sortedlist.py:1664-2007: what SortedKeyList overrides.) -/
def methods (K : KEnv α κ) : IMethods α κ :=
  { clear := clear, update := update K, delete := delete, ilog2 := K.ilog2 }

/-- `bisect_key_left` (sortedlist.py:2174-2207) -/
def bisect_key_left (K : KEnv α κ) (key : κ) : IPy (St α κ) Nat := do
  let s ← IPy.get
  if s.maxes = [] then pure 0
  else
    let pos ← IPy.lift (bisectLeft K.lt s.maxes key)
    if pos = s.maxes.length then pure s.len
    else
      let ks ← IPy.lift (getItem s.keys pos)
      let idx ← IPy.lift (bisectLeft K.lt ks key)
      loc K.ilog2 pos idx

/-- `bisect_key_right` (sortedlist.py:2209-2243) -/
def bisect_key_right (K : KEnv α κ) (key : κ) : IPy (St α κ) Nat := do
  let s ← IPy.get
  if s.maxes = [] then pure 0
  else
    let pos ← IPy.lift (bisectRight K.lt s.maxes key)
    if pos = s.maxes.length then pure s.len
    else
      let ks ← IPy.lift (getItem s.keys pos)
      let idx ← IPy.lift (bisectRight K.lt ks key)
      loc K.ilog2 pos idx

/-- `bisect_left` (sortedlist.py:2130-2149) -/
def bisect_left (K : KEnv α κ) (value : α) : IPy (St α κ) Nat := do
  let key ← IPy.lift (K.key value)
  bisect_key_left K key

/-- `bisect_right` (sortedlist.py:2151-2172) -/
def bisect_right (K : KEnv α κ) (value : α) : IPy (St α κ) Nat := do
  let key ← IPy.lift (K.key value)
  bisect_key_right K key

/-- `index` (sortedlist.py:2367-2384) -/
def indexLoop (K : KEnv α κ) (lists : List (List α)) (keys : List (List κ)) (value : α) (key : κ)
    (start stop : Int) (pos idx lenSublist : Nat) : IPy (St α κ) Int :=
  match _h : getItem keys pos with
  | .error e => IPy.raise e
  | .ok ks =>
    match _h' : getItem ks idx with
    | .error e => IPy.raise e
    | .ok k =>
      match K.kcmp .ne k key with
      | .error e => IPy.raise e
      | .ok true => IPy.raise .valueError
      | .ok false =>
        match getItem lists pos with
        | .error e => IPy.raise e
        | .ok l =>
          match getItem l idx with
          | .error e => IPy.raise e
          | .ok x =>
            match K.vcmp .eq x value with
            | .error e => IPy.raise e
            | .ok b => do
              -- lines 2370-2375: `some r` stands for `return r`, `none` for falling through
              let r : Option Int ←
                if b then do
                  let loc ← loc K.ilog2 pos idx
                  if start ≤ (loc : Int) ∧ (loc : Int) ≤ stop then pure (some (loc : Int))
                  else if (loc : Int) > stop then IPy.raise .valueError
                  else pure none
                else pure none
              match r with
              | some r => pure r
              | none =>
                if idx + 1 = lenSublist then
                  if pos + 1 = keys.length then IPy.raise .valueError
                  else
                    match getItem keys (pos + 1) with
                    | .error e => IPy.raise e
                    | .ok ks' => indexLoop K lists keys value key start stop (pos + 1) 0 ks'.length
                else indexLoop K lists keys value key start stop pos (idx + 1) lenSublist
termination_by (keys.length - pos, (keys[pos]?.getD []).length - idx)
decreasing_by
  all_goals
    rw [getItem_ok_iff] at _h _h'
    have h1 := (List.getElem?_eq_some_iff.1 _h).1
    have h2 := (List.getElem?_eq_some_iff.1 _h').1
    first
    | (apply Prod.Lex.left; omega)
    | (apply Prod.Lex.right; simp only [_h, Option.getD_some]; omega)

/-- `index` (sortedlist.py:2302-2384) -/
def index (K : KEnv α κ) (value : α) (start stop : Option Int) : IPy (St α κ) Int := do
  let s ← IPy.get
  if s.len = 0 then IPy.raise .valueError
  else
    let (start, stop) := Verif.SL.indexBounds s.len start stop
    if stop ≤ start then IPy.raise .valueError
    else
      let key ← IPy.lift (K.key value)
      let pos ← IPy.lift (bisectLeft K.lt s.maxes key)
      if pos = s.maxes.length then IPy.raise .valueError
      else
        let ks ← IPy.lift (getItem s.keys pos)
        let idx ← IPy.lift (bisectLeft K.lt ks key)
        indexLoop K s.lists s.keys value key start (stop - 1) pos idx ks.length

/-- One call on a SortedKeyList, see `SL.step`.
(Dispatch of the model: each call goes to the definition of its method, which cites its lines.) -/
def step (K : KEnv α κ) : Op α → IPy (St α κ) (Out α)
  | .add v => Spec.out (fun _ => .none) (add K v)
  | .update xs => Spec.out (fun _ => .none) (update K xs)
  | .clear => Spec.out (fun _ => .none) clear
  | .discard v => Spec.out (fun _ => .none) (discard K v)
  | .remove v => Spec.out (fun _ => .none) (remove K v)
  | .getInt i => Spec.out .val (getInt K.ilog2 i)
  | .getSlice sl => Spec.out .vals (getSlice K.ilog2 sl)
  | .delInt i => Spec.out (fun _ => .none) (delInt (methods K) i)
  | .delSlice sl => Spec.out (fun _ => .none) (delSlice (methods K) sl)
  | .pop i => Spec.out .val (pop (methods K) i)
  | .bisectLeft v => Spec.out (fun (n : Nat) => .int n) (bisect_left K v)
  | .bisectRight v => Spec.out (fun (n : Nat) => .int n) (bisect_right K v)
  | .index v start stop => Spec.out .int (index K v start stop)
  | .islice start stop reverse => Spec.out .vals (islice K.ilog2 start stop reverse)
  | .iadd xs => Spec.out (fun _ => .none) (iadd (methods K) xs)
  | .imul n => Spec.out (fun _ => .none) (imul (methods K) n)
  | .reset load => Spec.out (fun _ => .none) (reset (methods K) load)
  | op => IPy.still ((Verif.SKL.api K).step op)

/-- One call on a SortedKeyList, searches by key included.
(Dispatch of the model: each call goes to the definition of its method, which cites its lines.) -/
def kstep (K : KEnv α κ) : KOp α κ → IPy (St α κ) (Out α)
  | .op o => step K o
  | .bisectKeyLeft k => Spec.out (fun (n : Nat) => .int n) (bisect_key_left K k)
  | .bisectKeyRight k => Spec.out (fun (n : Nat) => .int n) (bisect_key_right K k)
  | op => IPy.still (Verif.SKL.kstep K op)

end SKL
end Interrupt
end Verif
