import Verif.Op
/-!
# Object state and the methods shared by SortedList and SortedKeyList

All line numbers refer to /repo/src/sortedcontainers/sortedlist.py.
-/

namespace Verif

/-- The attributes of a SortedList / SortedKeyList object (sortedlist.py:107-113, 1644-1651).
`α` is the type of values, `κ` the type of the entries of `_maxes` (values for SortedList,
keys for SortedKeyList).  A SortedList has no attribute `_keys`; its `keys` stays `[]`. -/
structure St (α κ : Type) where
  /-- `_len` -/
  len : Nat
  /-- `_load` -/
  load : Nat
  /-- `_lists` -/
  lists : List (List α)
  /-- `_keys` (SortedKeyList only) -/
  keys : List (List κ)
  /-- `_maxes` -/
  maxes : List κ
  /-- `_index` -/
  index : List Nat
  /-- `_offset` -/
  offset : Nat
deriving DecidableEq, Repr

/-- `DEFAULT_LOAD_FACTOR` (sortedlist.py:87) -/
def defaultLoadFactor : Nat := 1000

/-- The object at the start of `__init__` (sortedlist.py:107-113, 1644-1651). -/
def St.empty {α κ : Type} : St α κ :=
  { len := 0, load := defaultLoadFactor, lists := [], keys := [], maxes := [], index := [], offset := 0 }

/-- The methods that shared code calls on `self` and that SortedKeyList overrides, and
`ilog2 n`, standing for the floating-point expression `int(log(n, 2))` of line 681. -/
structure Methods (α κ : Type) where
  clear : Py (St α κ) Unit
  update : List α → Py (St α κ) Unit
  delete : Nat → Nat → Py (St α κ) Unit
  ilog2 : Nat → Nat

namespace Core
variable {α κ : Type}

/-! ## The positional index -/

/-- `list(starmap(add, zip(head, tail)))` with `head = iter(row)`, `tail = iter(head)`
(sortedlist.py:669-671, 686-688): sums of consecutive pairs, a last odd element is dropped. -/
def pairSums : List Nat → List Nat
  | a :: b :: rest => (a + b) :: pairSums rest
  | _ => []

theorem pairSums_length : ∀ (r : List Nat), (pairSums r).length = r.length / 2
  | [] => rfl
  | [_] => by simp [pairSums]
  | a :: b :: rest => by simp [pairSums, pairSums_length rest]; omega

/-- The loop `while len(tree[-1]) > 1: ... tree.append(row)` (sortedlist.py:685-689);
`last` is `tree[-1]`. -/
def growTree (tree : List (List Nat)) (last : List Nat) : List (List Nat) :=
  if _h : 1 < last.length then
    growTree (tree ++ [pairSums last]) (pairSums last)
  else tree
termination_by last.length
decreasing_by rw [pairSums_length]; omega

/-- `_build_index` (sortedlist.py:626-692).  `ilog2` stands for `int(log(·, 2))` of line 681.
`repeat(0, size - len(row1))` is empty for a non-positive count, as is `List.replicate` with
truncated subtraction. -/
def buildIndex (ilog2 : Nat → Nat) : Py (St α κ) Unit := do
  let s ← Py.get
  let row0 := s.lists.map List.length
  if row0.length = 1 then
    Py.modify fun s => { s with index := row0, offset := 0 }
  else
    let row1 := pairSums row0
    let row1 := if row0.length % 2 = 1 then row1 ++ row0.getLast?.toList else row1
    if row1.length = 1 then
      Py.modify fun s => { s with index := row1 ++ row0, offset := 1 }
    else
      let size := 2 ^ (ilog2 (row1.length - 1) + 1)
      let row1 := row1 ++ List.replicate (size - row1.length) 0
      let tree := growTree [row0, row1] row1
      Py.modify fun s => { s with index := s.index ++ tree.reverse.flatten, offset := size * 2 - 1 }

/-- `if not _index: self._build_index()` (sortedlist.py:509-510, 606-607) -/
def ensureIndex (ilog2 : Nat → Nat) : Py (St α κ) Unit := do
  let s ← Py.get
  if s.index = [] then buildIndex ilog2 else pure ()

/-- The loop of `_loc` (sortedlist.py:520-529). -/
def locLoop (index : List Nat) (pos total : Nat) : Except PyErr Nat :=
  if h : pos = 0 then .ok total
  else if pos % 2 = 0 then
    match getItem index (pos - 1) with
    | .error e => .error e
    | .ok x => locLoop index ((pos - 1) / 2) (total + x)
  else locLoop index ((pos - 1) / 2) total
termination_by pos
decreasing_by all_goals omega

/-- `_loc` (sortedlist.py:454-531) -/
def loc (ilog2 : Nat → Nat) (pos idx : Nat) : Py (St α κ) Nat := do
  if pos = 0 then pure idx
  else
    ensureIndex ilog2
    let s ← Py.get
    let total ← Py.lift (locLoop s.index (pos + s.offset) 0)
    pure (total + idx)

/-- The loop of `_pos` (sortedlist.py:613-622); `idx -= index_child` is exact because it
happens only if `idx >= index_child`. -/
def posLoop (index : List Nat) (pos child idx : Nat) : Nat × Nat :=
  if h : child < index.length then
    if idx < index[child] then posLoop index child (child * 2 + 1) idx
    else posLoop index (child + 1) ((child + 1) * 2 + 1) (idx - index[child])
  else (pos, idx)
termination_by index.length - child
decreasing_by all_goals omega

/-- `_pos` from line 601 on, for an index `0 <= idx < _len` (sortedlist.py:601-624).
`pos - self._offset` is a Python integer; were it negative the model raises `modelGap`. -/
def posNonneg (ilog2 : Nat → Nat) (idx : Nat) : Py (St α κ) (Nat × Nat) := do
  let s ← Py.get
  let first ← Py.lift (getItem s.lists 0)
  if idx < first.length then pure (0, idx)
  else
    ensureIndex ilog2
    let s ← Py.get
    let (pos, idx) := posLoop s.index 0 1 idx
    if pos < s.offset then Py.raise .modelGap
    else pure (pos - s.offset, idx)

/-- `_pos` (sortedlist.py:533-624) -/
def pos (ilog2 : Nat → Nat) (idx : Int) : Py (St α κ) (Nat × Nat) := do
  let s ← Py.get
  if idx < 0 then
    let last ← Py.lift (lastItem s.lists)
    if -idx ≤ last.length then pure (s.lists.length - 1, ((last.length : Int) + idx).toNat)
    else
      let idx := idx + s.len
      if idx < 0 then Py.raise .indexError
      else posNonneg ilog2 idx.toNat
  else if idx ≥ s.len then Py.raise .indexError
  else posNonneg ilog2 idx.toNat

/-- The loops `child = self._offset + pos; while child: _index[child] += 1; child = (child-1) >> 1;
_index[0] += 1` of `_expand` and, with `-= 1`, of `_delete`
(sortedlist.py:255-259, 429-433, 1753-1757, 1980-1984).  `f` is the in-place update of one entry. -/
def bumpPath (f : Nat → Except PyErr Nat) (index : List Nat) (child : Nat) : Except PyErr (List Nat) :=
  match getItem index child with
  | .error e => .error e
  | .ok x =>
    match f x with
    | .error e => .error e
    | .ok y =>
      if h : child = 0 then .ok (index.set child y)
      else bumpPath f (index.set child y) ((child - 1) / 2)
termination_by child
decreasing_by all_goals omega

/-- `x += 1` (Python's own, called by the code of /repo.) -/
def incr (x : Nat) : Except PyErr Nat := .ok (x + 1)

/-- `x -= 1`; a negative entry cannot be represented (`modelGap`).  (Python's own, called by the code of /repo.) -/
def decr (x : Nat) : Except PyErr Nat :=
  match x with
  | 0 => .error .modelGap
  | n + 1 => .ok n

/-- `if _index: child = ...` (sortedlist.py:254-259, 428-433, 1752-1757, 1979-1984): update the
path from the leaf of sublist `pos` to the root, if the index is present.
The model writes all entries at once; Python writes them one by one, which differs only
if an entry is missing (IndexError), and then only in which entries were already written. -/
def touchIndex (f : Nat → Except PyErr Nat) (pos : Nat) : Py (St α κ) Unit := do
  let s ← Py.get
  if s.index = [] then pure ()
  else
    let index ← Py.lift (bumpPath f s.index (s.offset + pos))
    Py.modify fun s => { s with index := index }

/-! ## Reading -/

/-- `__iter__` (sortedlist.py:847-856): `chain.from_iterable(self._lists)`, as the list of values
it yields if the object is not changed meanwhile.  Also `reduce(iadd, self._lists, [])`
(lines 174, 777, 1384, 1426, 1447, 1501, ...). -/
def iter (s : St α κ) : List α := s.lists.flatten

/-- `__reversed__` (sortedlist.py:858-867): `chain.from_iterable(map(reversed, reversed(self._lists)))` -/
def reversed (s : St α κ) : List α := (s.lists.reverse.map List.reverse).flatten

/-- `__len__` (sortedlist.py:1075-1083) -/
def length (s : St α κ) : Nat := s.len

/-- `__getitem__` with an integer (sortedlist.py:813-831) -/
def getInt (ilog2 : Nat → Nat) (index : Int) : Py (St α κ) α := do
  let s ← Py.get
  if s.len ≠ 0 then
    if index = 0 then
      let l ← Py.lift (getItem s.lists 0)
      Py.lift (getItem l 0)
    else if index = -1 then
      let l ← Py.lift (lastItem s.lists)
      Py.lift (lastItem l)
    else
      let first ← Py.lift (getItem s.lists 0)
      if 0 ≤ index ∧ index < first.length then Py.lift (getItem first index.toNat)
      else
        let last ← Py.lift (lastItem s.lists)
        if -(last.length : Int) < index ∧ index < 0 then
          Py.lift (getItem last ((last.length : Int) + index).toNat)
        else
          let (pos, idx) ← pos ilog2 index
          let l ← Py.lift (getItem s.lists pos)
          Py.lift (getItem l idx)
  else Py.raise .indexError

/-- `__getitem__` with a slice, the branch `step == 1 and start < stop`
(sortedlist.py:776-800); here `0 <= start < stop <= _len`. -/
def getSliceFwd (ilog2 : Nat → Nat) (start stop : Int) : Py (St α κ) (List α) := do
  let s ← Py.get
  if start = 0 ∧ stop = s.len then pure (iter s)
  else
    let (startPos, startIdx) ← pos ilog2 start
    let startList ← Py.lift (getItem s.lists startPos)
    let stopIdx := startIdx + (stop - start).toNat
    if stopIdx ≤ startList.length then pure (subList startList startIdx stopIdx)
    else
      let (stopPos, stopIdx) ←
        if stop = s.len then do
          let l ← Py.lift (getItem s.lists (s.lists.length - 1))
          pure (s.lists.length - 1, l.length)
        else pos ilog2 stop
      let pre := startList.drop startIdx
      let middle := subList s.lists (startPos + 1) stopPos
      let lastList ← Py.lift (getItem s.lists stopPos)
      pure (pre ++ middle.flatten ++ lastList.take stopIdx)

/-- `self._getitem(slice(start, stop))` (sortedlist.py:769-800, 811-812): `__getitem__` with a slice without
step.  Its step is 1, so the branch `step == -1` of lines 802-805 is never taken. -/
def getSliceStep1 (ilog2 : Nat → Nat) (start stop : Option Int) : Py (St α κ) (List α) := do
  let s ← Py.get
  let (start, stop, step) ← Py.lift (PySlice.indices { start := start, stop := stop } s.len)
  if step = 1 ∧ start < stop then getSliceFwd ilog2 start stop
  else Py.mapEach (getInt ilog2) (pyRange start stop step)

/-- `__getitem__` with a slice (sortedlist.py:769-812).  The recursive call of line 803 passes a slice
without step, see `getSliceStep1`. -/
def getSlice (ilog2 : Nat → Nat) (sl : PySlice) : Py (St α κ) (List α) := do
  let s ← Py.get
  let (start, stop, step) ← Py.lift (sl.indices s.len)
  if step = 1 ∧ start < stop then getSliceFwd ilog2 start stop
  else if step = -1 ∧ start > stop then
    let result ← getSliceStep1 ilog2 (some (stop + 1)) (some (start + 1))
    pure result.reverse
  else Py.mapEach (getInt ilog2) (pyRange start stop step)

/-- `list(range(a, b))` for `0 <= a`, `0 <= b` (Python's own, called by the code of /repo.) -/
def natRange (a b : Nat) : List Nat := List.range' a (b - a)

/-- `_islice` (sortedlist.py:931-992), as the list of values the iterator yields. -/
def islicePos (s : St α κ) (minPos minIdx maxPos maxIdx : Nat) (reverse : Bool) :
    Except PyErr (List α) :=
  if minPos > maxPos then .ok []
  else if minPos = maxPos then do
    let sub ← getItem s.lists minPos
    let indices := natRange minIdx maxIdx
    getItems sub (if reverse then indices.reverse else indices)
  else if minPos + 1 = maxPos then do
    let minList ← getItem s.lists minPos
    let maxList ← getItem s.lists maxPos
    let minIndices := natRange minIdx minList.length
    let maxIndices := natRange 0 maxIdx
    if reverse then do
      let xs ← getItems maxList maxIndices.reverse
      let ys ← getItems minList minIndices.reverse
      .ok (xs ++ ys)
    else do
      let xs ← getItems minList minIndices
      let ys ← getItems maxList maxIndices
      .ok (xs ++ ys)
  else do
    let minList ← getItem s.lists minPos
    let maxList ← getItem s.lists maxPos
    let minIndices := natRange minIdx minList.length
    let sublistIndices := natRange (minPos + 1) maxPos
    let maxIndices := natRange 0 maxIdx
    if reverse then do
      let xs ← getItems maxList maxIndices.reverse
      let subs ← getItems s.lists sublistIndices.reverse
      let ys ← getItems minList minIndices.reverse
      .ok (xs ++ (subs.map List.reverse).flatten ++ ys)
    else do
      let xs ← getItems minList minIndices
      let subs ← getItems s.lists sublistIndices
      let ys ← getItems maxList maxIndices
      .ok (xs ++ subs.flatten ++ ys)

/-- The body of `islice` (sortedlist.py:886-929), with `ret` for the call of `_islice` that it ends with and `empty` for
`iter(())`: the values of the iterator can be taken all at once (`islice`) or one by one (Model/Iter.lean). -/
def isliceWith {β : Type} (ret : St α κ → Nat → Nat → Nat → Nat → Bool → Except PyErr β) (empty : β) (ilog2 : Nat → Nat)
    (start stop : Option Int) (reverse : Bool) : Py (St α κ) β := do
  let s ← Py.get
  if s.len = 0 then pure empty
  else
    let (start, stop, _) ← Py.lift (PySlice.indices { start := start, stop := stop } s.len)
    if start ≥ stop then pure empty
    else
      let (minPos, minIdx) ← pos ilog2 start
      let (maxPos, maxIdx) ←
        if stop = s.len then do
          let l ← Py.lift (lastItem s.lists)
          pure (s.lists.length - 1, l.length)
        else pos ilog2 stop
      Py.lift (ret s minPos minIdx maxPos maxIdx reverse)

/-- `islice` (sortedlist.py:886-929), as the list of values the iterator yields -/
def islice (ilog2 : Nat → Nat) (start stop : Option Int) (reverse : Bool) : Py (St α κ) (List α) :=
  isliceWith islicePos [] ilog2 start stop reverse

/-- The loop `for alpha, beta in zip(self, other)` of the comparison methods
(sortedlist.py:1469-1473). -/
def cmpLoop (cmp : CmpOp → α → α → Except PyErr Bool) (op : CmpOp) (selfLen otherLen : Nat) :
    List α → List α → Except PyErr Bool
  | a :: as, b :: bs => do
    if ← cmp .ne a b then cmp op a b
    else cmpLoop cmp op selfLen otherLen as bs
  | _, _ => .ok (op.onNat selfLen otherLen)

/-- `__eq__`, `__ne__`, `__lt__`, `__gt__`, `__le__`, `__ge__` with a sequence argument, given as the list of its
values (sortedlist.py:1452-1498).  (For an argument that is not a sequence the methods return NotImplemented.) -/
def compare (cmp : CmpOp → α → α → Except PyErr Bool) (op : CmpOp) (other : List α) (s : St α κ) :
    Except PyErr Bool :=
  if s.len ≠ other.length ∧ op = .eq then .ok false
  else if s.len ≠ other.length ∧ op = .ne then .ok true
  else cmpLoop cmp op s.len other.length (iter s) other

/-! ## Mutating methods that SortedKeyList inherits -/

/-- `_reset` (sortedlist.py:156-177) -/
def reset (M : Methods α κ) (load : Nat) : Py (St α κ) Unit := do
  let s ← Py.get
  let values := iter s
  M.clear
  Py.modify fun s => { s with load := load }
  M.update values

/-- `__delitem__` with an integer (sortedlist.py:741-743) -/
def delInt (M : Methods α κ) (index : Int) : Py (St α κ) Unit := do
  let (p, i) ← pos M.ilog2 index
  M.delete p i

/-- `__delitem__` with a slice (sortedlist.py:715-740) -/
def delSlice (M : Methods α κ) (sl : PySlice) : Py (St α κ) Unit := do
  let s ← Py.get
  let (start, stop, step) ← Py.lift (sl.indices s.len)
  if step = 1 ∧ start < stop ∧ start = 0 ∧ stop = s.len then M.clear
  else if step = 1 ∧ start < stop ∧ (s.len : Int) ≤ 8 * (stop - start) then
    let values ← getSliceStep1 M.ilog2 none (some start)
    let values ←
      if stop < s.len then do
        let tail ← getSliceStep1 M.ilog2 (some stop) none
        pure (values ++ tail)
      else pure values
    M.clear
    M.update values
  else
    let indices := pyRange start stop step
    let indices := if step > 0 then indices.reverse else indices
    Py.forEach (delInt M) indices

/-- `pop` (sortedlist.py:1231-1288) -/
def pop (M : Methods α κ) (index : Int) : Py (St α κ) α := do
  let s ← Py.get
  if s.len = 0 then Py.raise .indexError
  else if index = 0 then
    let l ← Py.lift (getItem s.lists 0)
    let val ← Py.lift (getItem l 0)
    M.delete 0 0
    pure val
  else if index = -1 then
    let pos := s.lists.length - 1
    let l ← Py.lift (getItem s.lists pos)
    let loc := l.length - 1
    let val ← Py.lift (getItem l loc)
    M.delete pos loc
    pure val
  else
    let first ← Py.lift (getItem s.lists 0)
    if 0 ≤ index ∧ index < first.length then
      let val ← Py.lift (getItem first index.toNat)
      M.delete 0 index.toNat
      pure val
    else
      let last ← Py.lift (lastItem s.lists)
      if -(last.length : Int) < index ∧ index < 0 then
        let pos := s.lists.length - 1
        let loc := ((last.length : Int) + index).toNat
        let l ← Py.lift (getItem s.lists pos)
        let val ← Py.lift (getItem l loc)
        M.delete pos loc
        pure val
      else
        let (p, i) ← pos M.ilog2 index
        let l ← Py.lift (getItem s.lists p)
        let val ← Py.lift (getItem l i)
        M.delete p i
        pure val

/-- `__iadd__` (sortedlist.py:1390-1409) -/
def iadd (M : Methods α κ) (other : List α) : Py (St α κ) Unit := M.update other

/-- `__imul__` (sortedlist.py:1431-1450) -/
def imul (M : Methods α κ) (num : Int) : Py (St α κ) Unit := do
  let s ← Py.get
  let values := repeatList (iter s) num
  M.clear
  M.update values

/-- `__setitem__`, `reverse`, `append`, `extend`, `insert`
(sortedlist.py:835-845, 869-884, 1201-1229): always raise NotImplementedError. -/
def unsupported (_ : Unsupported α) : Py (St α κ) Unit := Py.raise .notImplementedError

/-- `values[pos : pos + load] for pos in range(0, len(values), load)` (sortedlist.py:291-293, 1791-1793);
`range` raises ValueError for a zero step. -/
def chunks (load : Nat) (values : List α) : Except PyErr (List (List α)) :=
  if load = 0 then .error .valueError
  else .ok ((List.range ((values.length + load - 1) / load)).map fun i =>
    subList values (i * load) (i * load + load))

end Core
end Verif
