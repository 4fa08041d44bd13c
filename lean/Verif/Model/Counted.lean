import Verif.Model.SortedKeyList
/-!
# The searches and single-element updates, with a meter

The programs of this file are those of `Model/Core.lean`, `Model/SortedList.lean` and `Model/SortedKeyList.lean`,
line for line, run with a meter that counts the calls of comparison operators and of the key function, the visits
to nodes of the positional index, the nodes created by building that index, and the work done on list objects: entries of
sublists and of the top-level lists that are written, moved or dropped, and the splits and merges of sublists.  Of `sorted` it counts
the values it is given.
`Proofs/Counted.lean` shows that the meter does not change what the programs do, and bounds its readings.

The programs do not see the comparison operators and the key function of `Env` and `KEnv`; what they are given
(`CEnv`, `CKEnv`) are actions, and the theorems are about `E.metered` and `K.metered`, whose actions advance the meter by
one at each call.  So no comparison goes uncounted.  The index is counted by hand: `visiting` stands at the head of each
iteration of the loops over it, and `buildIndex` counts the entries it creates.  So is the work on list objects, at
each statement that changes the length of a list: `l.insert(i, x)` writes or moves `len(l) - i + 1` entries, `del l[i]` drops or
moves `len(l) - i`, `l.append(x)` writes one, a slice or `l.extend(m)` writes as many as it copies, `del l[i:]` drops `len(l) - i`.

All line numbers refer to /repo/src/sortedcontainers/sortedlist.py.
-/

namespace Verif

/-- The meter: comparisons of values or keys, calls of the key function, visits to index nodes, index nodes created; entries of
sublists (of values and of cached keys) written, moved or dropped; the same for the top-level lists `_lists`, `_maxes`
and `_keys`; splits and merges of sublists; values given to the built-in `sorted`.
(Scaffolding of the model: no code of /repo.) -/
structure Calls where
  cmp : Nat := 0
  key : Nat := 0
  node : Nat := 0
  built : Nat := 0
  moved : Nat := 0
  shifted : Nat := 0
  reshaped : Nat := 0
  sorted : Nat := 0
deriving DecidableEq, Repr

/-- A metered computation.  (Scaffolding of the model: no code of /repo.) -/
def CPy (σ β : Type) : Type := Py (σ × Calls) β

/-- As a monad.  (Scaffolding of the model: no code of /repo.) -/
instance {σ : Type} : Monad (CPy σ) := inferInstanceAs (Monad (Py (σ × Calls)))

/-- A computation that does not advance the meter.  (Scaffolding of the model: no code of /repo.) -/
def CPy.free {σ β : Type} (m : Py σ β) : CPy σ β := fun s => ((m s.1).1, (m s.1).2, s.2)

namespace Counted
variable {σ α κ β : Type}

/-- Call a comparison operator.  (Scaffolding of the model: no code of /repo.) -/
def comparing (x : Except PyErr β) : CPy σ β := fun s => (x, s.1, { s.2 with cmp := s.2.cmp + 1 })

/-- Call the key function.  (Scaffolding of the model: no code of /repo.) -/
def keying (x : Except PyErr β) : CPy σ β := fun s => (x, s.1, { s.2 with key := s.2.key + 1 })

/-- Give `n` values to `sorted`, which calls the key function for each of them if `keys`; its comparisons are not counted.
(Scaffolding of the model: no code of /repo.) -/
def sorting (n : Nat) (keys : Bool) (x : Except PyErr β) : CPy σ β := fun s =>
  (x, s.1, { s.2 with sorted := s.2.sorted + n, key := s.2.key + keys.toNat * n })

/-- Visit a node of the positional index.  (Scaffolding of the model: no code of /repo.) -/
def visiting : CPy σ Unit := fun s => (.ok (), s.1, { s.2 with node := s.2.node + 1 })

/-- Write, move or drop `n` entries of sublists.  (Scaffolding of the model: no code of /repo.) -/
def moving (n : Nat) : CPy σ Unit := fun s => (.ok (), s.1, { s.2 with moved := s.2.moved + n })

/-- Write, move or drop `n` entries of top-level lists.  (Scaffolding of the model: no code of /repo.) -/
def shifting (n : Nat) : CPy σ Unit := fun s => (.ok (), s.1, { s.2 with shifted := s.2.shifted + n })

/-- Split a sublist in two, or merge two sublists.  (Scaffolding of the model: no code of /repo.) -/
def reshaping : CPy σ Unit := fun s => (.ok (), s.1, { s.2 with reshaped := s.2.reshaped + 1 })

end Counted

/-- What a metered SortedList takes from outside: actions that compare values, `sorted`, and `int(math.log(·, 2))`.
(Scaffolding of the model: no code of /repo.) -/
structure CEnv (α : Type) where
  cmp : CmpOp → α → α → CPy (St α α) Bool
  sorted : List α → CPy (St α α) (List α)
  ilog2 : Nat → Nat

/-- `a < b` (The operator `<`, which `bisect` and the methods call.) -/
abbrev CEnv.lt {α : Type} (E : CEnv α) : α → α → CPy (St α α) Bool := E.cmp .lt

/-- The comparison operators of `E`, counted.  (Scaffolding of the model: no code of /repo.) -/
def Env.metered {α : Type} (E : Env α) : CEnv α where
  cmp op a b := Counted.comparing (E.cmp op a b)
  sorted xs := Counted.sorting xs.length false (E.sorted xs)
  ilog2 := E.ilog2

/-- What a metered SortedKeyList takes from outside.  (Scaffolding of the model: no code of /repo.) -/
structure CKEnv (α κ : Type) where
  key : α → CPy (St α κ) κ
  kcmp : CmpOp → κ → κ → CPy (St α κ) Bool
  vcmp : CmpOp → α → α → CPy (St α κ) Bool
  sortedByKey : List α → CPy (St α κ) (List α)
  ilog2 : Nat → Nat

/-- `a < b` on keys (The operator `<`, which `bisect` and the methods call.) -/
abbrev CKEnv.lt {α κ : Type} (K : CKEnv α κ) : κ → κ → CPy (St α κ) Bool := K.kcmp .lt

/-- The key function and the comparison operators of `K`, counted.  (Scaffolding of the model: no code of /repo.) -/
def KEnv.metered {α κ : Type} (K : KEnv α κ) : CKEnv α κ where
  key a := Counted.keying (K.key a)
  kcmp op a b := Counted.comparing (K.kcmp op a b)
  vcmp op a b := Counted.comparing (K.vcmp op a b)
  sortedByKey xs := Counted.sorting xs.length true (K.sortedByKey xs)
  ilog2 := K.ilog2

namespace Counted
variable {σ α κ β : Type}

/-! ## `bisect` (Lib/bisect.py of CPython) -/

/-- The loop of `bisect.bisect_right`.  (In C; imported in sortedlist.py:20.) -/
def bisectRightLoop (lt : α → α → CPy σ Bool) (a : List α) (x : α) (lo hi : Nat) : CPy σ Nat :=
  if _h : lo < hi then do
    let m ← CPy.free (Py.lift (getItem a ((lo + hi) / 2)))
    if ← lt x m then bisectRightLoop lt a x lo ((lo + hi) / 2)
    else bisectRightLoop lt a x ((lo + hi) / 2 + 1) hi
  else pure lo
termination_by hi - lo
decreasing_by all_goals omega

/-- `bisect_right(a, x)` (In C; imported in sortedlist.py:20.) -/
def bisectRight (lt : α → α → CPy σ Bool) (a : List α) (x : α) : CPy σ Nat :=
  bisectRightLoop lt a x 0 a.length

/-- The loop of `bisect.bisect_left`.  (In C; imported in sortedlist.py:20.) -/
def bisectLeftLoop (lt : α → α → CPy σ Bool) (a : List α) (x : α) (lo hi : Nat) : CPy σ Nat :=
  if _h : lo < hi then do
    let m ← CPy.free (Py.lift (getItem a ((lo + hi) / 2)))
    if ← lt m x then bisectLeftLoop lt a x ((lo + hi) / 2 + 1) hi
    else bisectLeftLoop lt a x lo ((lo + hi) / 2)
  else pure lo
termination_by hi - lo
decreasing_by all_goals omega

/-- `bisect_left(a, x)` (In C; imported in sortedlist.py:20.) -/
def bisectLeft (lt : α → α → CPy σ Bool) (a : List α) (x : α) : CPy σ Nat :=
  bisectLeftLoop lt a x 0 a.length

/-- `bisect.insort(a, x)` (In C; imported in sortedlist.py:20.) -/
def insort (lt : α → α → CPy σ Bool) (a : List α) (x : α) : CPy σ (List α) := do
  let i ← bisectRight lt a x
  moving (a.length - i + 1)
  pure (insertAt a i x)

/-! ## The positional index -/

/-- `_build_index` (sortedlist.py:626-692); the meter goes up by the number of entries of the new index. -/
def buildIndex (ilog2 : Nat → Nat) : CPy (St α κ) Unit := fun s =>
  let r := Core.buildIndex ilog2 s.1
  (r.1, r.2, { s.2 with built := s.2.built + r.2.index.length })

/-- `if not _index: self._build_index()` (sortedlist.py:509-510, 606-607) -/
def ensureIndex (ilog2 : Nat → Nat) : CPy (St α κ) Unit := do
  let s ← CPy.free Py.get
  if s.index = [] then buildIndex ilog2 else pure ()

/-- The loop of `_loc` (sortedlist.py:520-529). -/
def locLoop (index : List Nat) (pos total : Nat) : CPy σ Nat :=
  if h : pos = 0 then pure total
  else do
    visiting
    if pos % 2 = 0 then
      let x ← CPy.free (Py.lift (getItem index (pos - 1)))
      locLoop index ((pos - 1) / 2) (total + x)
    else locLoop index ((pos - 1) / 2) total
termination_by pos
decreasing_by all_goals omega

/-- `_loc` (sortedlist.py:454-531) -/
def loc (ilog2 : Nat → Nat) (pos idx : Nat) : CPy (St α κ) Nat := do
  if pos = 0 then pure idx
  else
    ensureIndex ilog2
    let s ← CPy.free Py.get
    let total ← locLoop s.index (pos + s.offset) 0
    pure (total + idx)

/-- The loop of `_pos` (sortedlist.py:613-622). -/
def posLoop (index : List Nat) (pos child idx : Nat) : CPy σ (Nat × Nat) :=
  if h : child < index.length then do
    visiting
    if idx < index[child] then posLoop index child (child * 2 + 1) idx
    else posLoop index (child + 1) ((child + 1) * 2 + 1) (idx - index[child])
  else pure (pos, idx)
termination_by index.length - child
decreasing_by all_goals omega

/-- `_pos` from line 601 on, for an index `0 <= idx < _len` (sortedlist.py:601-624). -/
def posNonneg (ilog2 : Nat → Nat) (idx : Nat) : CPy (St α κ) (Nat × Nat) := do
  let s ← CPy.free Py.get
  let first ← CPy.free (Py.lift (getItem s.lists 0))
  if idx < first.length then pure (0, idx)
  else
    ensureIndex ilog2
    let s ← CPy.free Py.get
    let (pos, idx) ← posLoop s.index 0 1 idx
    if pos < s.offset then CPy.free (Py.raise .modelGap)
    else pure (pos - s.offset, idx)

/-- `_pos` (sortedlist.py:533-624) -/
def pos (ilog2 : Nat → Nat) (idx : Int) : CPy (St α κ) (Nat × Nat) := do
  let s ← CPy.free Py.get
  if idx < 0 then
    let last ← CPy.free (Py.lift (lastItem s.lists))
    if -idx ≤ last.length then pure (s.lists.length - 1, ((last.length : Int) + idx).toNat)
    else
      let idx := idx + s.len
      if idx < 0 then CPy.free (Py.raise .indexError)
      else posNonneg ilog2 idx.toNat
  else if idx ≥ s.len then CPy.free (Py.raise .indexError)
  else posNonneg ilog2 idx.toNat

/-- The loops that update the path from a leaf to the root
(sortedlist.py:255-259, 429-433, 1753-1757, 1980-1984). -/
def bumpPath (f : Nat → Except PyErr Nat) (index : List Nat) (child : Nat) : CPy σ (List Nat) := do
  visiting
  let x ← CPy.free (Py.lift (getItem index child))
  let y ← CPy.free (Py.lift (f x))
  if h : child = 0 then pure (index.set child y)
  else bumpPath f (index.set child y) ((child - 1) / 2)
termination_by child
decreasing_by all_goals omega

/-- `if _index: child = ...` (sortedlist.py:254-259, 428-433, 1752-1757, 1979-1984) -/
def touchIndex (f : Nat → Except PyErr Nat) (pos : Nat) : CPy (St α κ) Unit := do
  let s ← CPy.free Py.get
  if s.index = [] then pure ()
  else
    let index ← bumpPath f s.index (s.offset + pos)
    CPy.free (Py.modify fun s => { s with index := index })

/-! ## Methods shared by both classes -/

/-- `__getitem__` with an integer (sortedlist.py:813-831) -/
def getInt (ilog2 : Nat → Nat) (index : Int) : CPy (St α κ) α := do
  let s ← CPy.free Py.get
  if s.len ≠ 0 then
    if index = 0 then
      let l ← CPy.free (Py.lift (getItem s.lists 0))
      CPy.free (Py.lift (getItem l 0))
    else if index = -1 then
      let l ← CPy.free (Py.lift (lastItem s.lists))
      CPy.free (Py.lift (lastItem l))
    else
      let first ← CPy.free (Py.lift (getItem s.lists 0))
      if 0 ≤ index ∧ index < first.length then CPy.free (Py.lift (getItem first index.toNat))
      else
        let last ← CPy.free (Py.lift (lastItem s.lists))
        if -(last.length : Int) < index ∧ index < 0 then
          CPy.free (Py.lift (getItem last ((last.length : Int) + index).toNat))
        else
          let (pos, idx) ← pos ilog2 index
          let l ← CPy.free (Py.lift (getItem s.lists pos))
          CPy.free (Py.lift (getItem l idx))
  else CPy.free (Py.raise .indexError)

/-- `__delitem__` with an integer (sortedlist.py:741-743); `delete` is the metered `_delete`. -/
def delInt (delete : Nat → Nat → CPy (St α κ) Unit) (ilog2 : Nat → Nat) (index : Int) : CPy (St α κ) Unit := do
  let (p, i) ← pos ilog2 index
  delete p i

/-- `pop` (sortedlist.py:1231-1288) -/
def pop (delete : Nat → Nat → CPy (St α κ) Unit) (ilog2 : Nat → Nat) (index : Int) : CPy (St α κ) α := do
  let s ← CPy.free Py.get
  if s.len = 0 then CPy.free (Py.raise .indexError)
  else if index = 0 then
    let l ← CPy.free (Py.lift (getItem s.lists 0))
    let val ← CPy.free (Py.lift (getItem l 0))
    delete 0 0
    pure val
  else if index = -1 then
    let pos := s.lists.length - 1
    let l ← CPy.free (Py.lift (getItem s.lists pos))
    let loc := l.length - 1
    let val ← CPy.free (Py.lift (getItem l loc))
    delete pos loc
    pure val
  else
    let first ← CPy.free (Py.lift (getItem s.lists 0))
    if 0 ≤ index ∧ index < first.length then
      let val ← CPy.free (Py.lift (getItem first index.toNat))
      delete 0 index.toNat
      pure val
    else
      let last ← CPy.free (Py.lift (lastItem s.lists))
      if -(last.length : Int) < index ∧ index < 0 then
        let pos := s.lists.length - 1
        let loc := ((last.length : Int) + index).toNat
        let l ← CPy.free (Py.lift (getItem s.lists pos))
        let val ← CPy.free (Py.lift (getItem l loc))
        delete pos loc
        pure val
      else
        let (p, i) ← pos ilog2 index
        let l ← CPy.free (Py.lift (getItem s.lists p))
        let val ← CPy.free (Py.lift (getItem l i))
        delete p i
        pure val

end Counted

/-! ## SortedList -/

namespace Counted.SL
variable {α : Type}
open Verif.SL (indexBounds)

/-- `_expand` (sortedlist.py:228-259); `_load << 1` is `2 * load`. -/
def expand (pos : Nat) : CPy (St α α) Unit := do
  let s ← CPy.free Py.get
  let listsPos ← CPy.free (Py.lift (getItem s.lists pos))
  if listsPos.length > s.load * 2 then
    let half := listsPos.drop s.load
    let listsPos := listsPos.take s.load
    moving (2 * half.length)
    shifting (2 * (s.lists.length - pos))
    reshaping
    CPy.free (Py.modify fun s => { s with lists := s.lists.set pos listsPos })
    let m ← CPy.free (Py.lift (lastItem listsPos))
    let maxes ← CPy.free (Py.lift (setItem s.maxes pos m))
    CPy.free (Py.modify fun s => { s with maxes := maxes })
    CPy.free (Py.modify fun s => { s with lists := insertAt s.lists (pos + 1) half })
    let m ← CPy.free (Py.lift (lastItem half))
    CPy.free (Py.modify fun s => { s with maxes := insertAt s.maxes (pos + 1) m })
    CPy.free (Py.modify fun s => { s with index := [] })
  else
    touchIndex Core.incr pos

/-- `add` (sortedlist.py:193-226) -/
def add (E : CEnv α) (value : α) : CPy (St α α) Unit := do
  let s ← CPy.free Py.get
  if s.maxes ≠ [] then
    let pos ← bisectRight E.lt s.maxes value
    if pos = s.maxes.length then
      let pos := pos - 1
      let l ← CPy.free (Py.lift (getItem s.lists pos))
      moving 1
      CPy.free (Py.modify fun s => { s with lists := s.lists.set pos (l ++ [value]) })
      CPy.free (Py.modify fun s => { s with maxes := s.maxes.set pos value })
      expand pos
    else
      let l ← CPy.free (Py.lift (getItem s.lists pos))
      let l ← insort E.lt l value
      CPy.free (Py.modify fun s => { s with lists := s.lists.set pos l })
      expand pos
  else
    moving 1
    shifting 2
    CPy.free (Py.modify fun s => { s with lists := s.lists ++ [[value]] })
    CPy.free (Py.modify fun s => { s with maxes := s.maxes ++ [value] })
  CPy.free (Py.modify fun s => { s with len := s.len + 1 })

/-- `__contains__` (sortedlist.py:300-328) -/
def contains (E : CEnv α) (value : α) : CPy (St α α) Bool := do
  let s ← CPy.free Py.get
  if s.maxes = [] then pure false
  else
    let pos ← bisectLeft E.lt s.maxes value
    if pos = s.maxes.length then pure false
    else
      let l ← CPy.free (Py.lift (getItem s.lists pos))
      let idx ← bisectLeft E.lt l value
      let x ← CPy.free (Py.lift (getItem l idx))
      E.cmp .eq x value

/-- `_delete` (sortedlist.py:400-452); `_load >> 1` is `load / 2`.  A negative `_len` cannot be represented (`modelGap`). -/
def delete (pos idx : Nat) : CPy (St α α) Unit := do
  let s ← CPy.free Py.get
  let l ← CPy.free (Py.lift (getItem s.lists pos))
  moving (l.length - idx)
  let l ← CPy.free (Py.lift (delItem l idx))
  CPy.free (Py.modify fun s => { s with lists := s.lists.set pos l })
  let len ← CPy.free (Py.lift (Core.decr s.len))
  CPy.free (Py.modify fun s => { s with len := len })
  if l.length > s.load / 2 then
    let m ← CPy.free (Py.lift (lastItem l))
    let maxes ← CPy.free (Py.lift (setItem s.maxes pos m))
    CPy.free (Py.modify fun s => { s with maxes := maxes })
    touchIndex Core.decr pos
  else if s.lists.length > 1 then
    let pos := if pos = 0 then pos + 1 else pos
    let prev := pos - 1
    let s ← CPy.free Py.get
    let a ← CPy.free (Py.lift (getItem s.lists prev))
    let b ← CPy.free (Py.lift (getItem s.lists pos))
    moving (2 * b.length)
    shifting (2 * (s.lists.length - pos))
    reshaping
    CPy.free (Py.modify fun s => { s with lists := s.lists.set prev (a ++ b) })
    let m ← CPy.free (Py.lift (lastItem (a ++ b)))
    let maxes ← CPy.free (Py.lift (setItem s.maxes prev m))
    CPy.free (Py.modify fun s => { s with maxes := maxes })
    let s ← CPy.free Py.get
    let lists ← CPy.free (Py.lift (delItem s.lists pos))
    CPy.free (Py.modify fun s => { s with lists := lists })
    let maxes ← CPy.free (Py.lift (delItem s.maxes pos))
    CPy.free (Py.modify fun s => { s with maxes := maxes })
    CPy.free (Py.modify fun s => { s with index := [] })
    expand prev
  else if l.length ≠ 0 then
    let m ← CPy.free (Py.lift (lastItem l))
    let maxes ← CPy.free (Py.lift (setItem s.maxes pos m))
    CPy.free (Py.modify fun s => { s with maxes := maxes })
  else
    let s ← CPy.free Py.get
    shifting (2 * (s.lists.length - pos))
    let lists ← CPy.free (Py.lift (delItem s.lists pos))
    CPy.free (Py.modify fun s => { s with lists := lists })
    let maxes ← CPy.free (Py.lift (delItem s.maxes pos))
    CPy.free (Py.modify fun s => { s with maxes := maxes })
    CPy.free (Py.modify fun s => { s with index := [] })

/-- `discard` (sortedlist.py:330-360) -/
def discard (E : CEnv α) (value : α) : CPy (St α α) Unit := do
  let s ← CPy.free Py.get
  if s.maxes = [] then pure ()
  else
    let pos ← bisectLeft E.lt s.maxes value
    if pos = s.maxes.length then pure ()
    else
      let l ← CPy.free (Py.lift (getItem s.lists pos))
      let idx ← bisectLeft E.lt l value
      let x ← CPy.free (Py.lift (getItem l idx))
      if ← E.cmp .eq x value then delete pos idx
      else pure ()

/-- `remove` (sortedlist.py:362-398) -/
def remove (E : CEnv α) (value : α) : CPy (St α α) Unit := do
  let s ← CPy.free Py.get
  if s.maxes = [] then CPy.free (Py.raise .valueError)
  else
    let pos ← bisectLeft E.lt s.maxes value
    if pos = s.maxes.length then CPy.free (Py.raise .valueError)
    else
      let l ← CPy.free (Py.lift (getItem s.lists pos))
      let idx ← bisectLeft E.lt l value
      let x ← CPy.free (Py.lift (getItem l idx))
      if ← E.cmp .eq x value then delete pos idx
      else CPy.free (Py.raise .valueError)

/-- `irange` (sortedlist.py:994-1073), as the list of values the iterator yields; `incMin`, `incMax` are the
components of `inclusive`. -/
def irange (E : CEnv α) (minimum maximum : Option α) (incMin incMax reverse : Bool) :
    CPy (St α α) (List α) := do
  let s ← CPy.free Py.get
  if s.maxes = [] then pure []
  else
    -- lines 1030-1047; `none` stands for `return iter(())`
    let lo : Option (Nat × Nat) ←
      match minimum with
      | none => pure (some (0, 0))
      | some m => do
        let minPos ← (if incMin then bisectLeft E.lt s.maxes m else bisectRight E.lt s.maxes m)
        if minPos = s.maxes.length then pure none
        else
          let l ← CPy.free (Py.lift (getItem s.lists minPos))
          let minIdx ← (if incMin then bisectLeft E.lt l m else bisectRight E.lt l m)
          pure (some (minPos, minIdx))
    match lo with
    | none => pure []
    | some (minPos, minIdx) =>
      -- lines 1052-1071
      let (maxPos, maxIdx) ←
        match maximum with
        | none => do
          let l ← CPy.free (Py.lift (getItem s.lists (s.maxes.length - 1)))
          pure (s.maxes.length - 1, l.length)
        | some m => do
          let maxPos ← (if incMax then bisectRight E.lt s.maxes m else bisectLeft E.lt s.maxes m)
          if maxPos = s.maxes.length then
            let l ← CPy.free (Py.lift (getItem s.lists (maxPos - 1)))
            pure (maxPos - 1, l.length)
          else
            let l ← CPy.free (Py.lift (getItem s.lists maxPos))
            let maxIdx ← (if incMax then bisectRight E.lt l m else bisectLeft E.lt l m)
            pure (maxPos, maxIdx)
      CPy.free (Py.lift (Core.islicePos s minPos minIdx maxPos maxIdx reverse))

/-- `bisect_left` (sortedlist.py:1085-1114) -/
def bisect_left (E : CEnv α) (value : α) : CPy (St α α) Nat := do
  let s ← CPy.free Py.get
  if s.maxes = [] then pure 0
  else
    let pos ← bisectLeft E.lt s.maxes value
    if pos = s.maxes.length then pure s.len
    else
      let l ← CPy.free (Py.lift (getItem s.lists pos))
      let idx ← bisectLeft E.lt l value
      Counted.loc E.ilog2 pos idx

/-- `bisect_right` / `bisect` (sortedlist.py:1116-1148) -/
def bisect_right (E : CEnv α) (value : α) : CPy (St α α) Nat := do
  let s ← CPy.free Py.get
  if s.maxes = [] then pure 0
  else
    let pos ← bisectRight E.lt s.maxes value
    if pos = s.maxes.length then pure s.len
    else
      let l ← CPy.free (Py.lift (getItem s.lists pos))
      let idx ← bisectRight E.lt l value
      Counted.loc E.ilog2 pos idx

/-- `count` (sortedlist.py:1150-1187), a Python integer. -/
def count (E : CEnv α) (value : α) : CPy (St α α) Int := do
  let s ← CPy.free Py.get
  if s.maxes = [] then pure 0
  else
    let posLeft ← bisectLeft E.lt s.maxes value
    if posLeft = s.maxes.length then pure 0
    else
      let l ← CPy.free (Py.lift (getItem s.lists posLeft))
      let idxLeft ← bisectLeft E.lt l value
      let posRight ← bisectRight E.lt s.maxes value
      if posRight = s.maxes.length then
        let left ← Counted.loc E.ilog2 posLeft idxLeft
        pure ((s.len : Int) - left)
      else
        let l ← CPy.free (Py.lift (getItem s.lists posRight))
        let idxRight ← bisectRight E.lt l value
        if posLeft = posRight then pure ((idxRight : Int) - idxLeft)
        else
          let right ← Counted.loc E.ilog2 posRight idxRight
          let left ← Counted.loc E.ilog2 posLeft idxLeft
          pure ((right : Int) - left)

/-- `index` (sortedlist.py:1290-1364), a Python integer. -/
def index (E : CEnv α) (value : α) (start stop : Option Int) : CPy (St α α) Int := do
  let s ← CPy.free Py.get
  if s.len = 0 then CPy.free (Py.raise .valueError)
  else
    let (start, stop) := indexBounds s.len start stop
    if stop ≤ start then CPy.free (Py.raise .valueError)
    else
      let posLeft ← bisectLeft E.lt s.maxes value
      if posLeft = s.maxes.length then CPy.free (Py.raise .valueError)
      else
        let l ← CPy.free (Py.lift (getItem s.lists posLeft))
        let idxLeft ← bisectLeft E.lt l value
        let x ← CPy.free (Py.lift (getItem l idxLeft))
        if ← E.cmp .ne x value then CPy.free (Py.raise .valueError)
        else
          let stop := stop - 1
          let left ← Counted.loc E.ilog2 posLeft idxLeft
          if start ≤ left then
            if (left : Int) ≤ stop then pure (left : Int)
            else CPy.free (Py.raise .valueError)
          else
            let right ← bisect_right E value
            if start ≤ (right : Int) - 1 then pure start
            else CPy.free (Py.raise .valueError)

end Counted.SL

/-! ## SortedKeyList -/

namespace Counted.SKL
variable {α κ : Type}

/-- `_expand` (sortedlist.py:1721-1757) -/
def expand (pos : Nat) : CPy (St α κ) Unit := do
  let s ← CPy.free Py.get
  let keysPos ← CPy.free (Py.lift (getItem s.keys pos))
  if keysPos.length > s.load * 2 then
    let listsPos ← CPy.free (Py.lift (getItem s.lists pos))
    let half := listsPos.drop s.load
    let halfKeys := keysPos.drop s.load
    let listsPos := listsPos.take s.load
    let keysPos := keysPos.take s.load
    moving (2 * half.length + 2 * halfKeys.length)
    shifting (3 * (s.lists.length - pos))
    reshaping
    CPy.free (Py.modify fun s => { s with lists := s.lists.set pos listsPos })
    CPy.free (Py.modify fun s => { s with keys := s.keys.set pos keysPos })
    let m ← CPy.free (Py.lift (lastItem keysPos))
    let maxes ← CPy.free (Py.lift (setItem s.maxes pos m))
    CPy.free (Py.modify fun s => { s with maxes := maxes })
    CPy.free (Py.modify fun s => { s with lists := insertAt s.lists (pos + 1) half })
    CPy.free (Py.modify fun s => { s with keys := insertAt s.keys (pos + 1) halfKeys })
    let m ← CPy.free (Py.lift (lastItem halfKeys))
    CPy.free (Py.modify fun s => { s with maxes := insertAt s.maxes (pos + 1) m })
    CPy.free (Py.modify fun s => { s with index := [] })
  else
    touchIndex Core.incr pos

/-- `add` (sortedlist.py:1678-1719) -/
def add (K : CKEnv α κ) (value : α) : CPy (St α κ) Unit := do
  let s ← CPy.free Py.get
  let key ← K.key value
  if s.maxes ≠ [] then
    let pos ← bisectRight K.lt s.maxes key
    if pos = s.maxes.length then
      let pos := pos - 1
      let l ← CPy.free (Py.lift (getItem s.lists pos))
      moving 2
      CPy.free (Py.modify fun s => { s with lists := s.lists.set pos (l ++ [value]) })
      let ks ← CPy.free (Py.lift (getItem s.keys pos))
      CPy.free (Py.modify fun s => { s with keys := s.keys.set pos (ks ++ [key]) })
      CPy.free (Py.modify fun s => { s with maxes := s.maxes.set pos key })
      expand pos
    else
      let ks ← CPy.free (Py.lift (getItem s.keys pos))
      let idx ← bisectRight K.lt ks key
      let l ← CPy.free (Py.lift (getItem s.lists pos))
      moving ((l.length - idx + 1) + (ks.length - idx + 1))
      CPy.free (Py.modify fun s => { s with lists := s.lists.set pos (insertAt l idx value) })
      CPy.free (Py.modify fun s => { s with keys := s.keys.set pos (insertAt ks idx key) })
      expand pos
  else
    moving 2
    shifting 3
    CPy.free (Py.modify fun s => { s with lists := s.lists ++ [[value]] })
    CPy.free (Py.modify fun s => { s with keys := s.keys ++ [[key]] })
    CPy.free (Py.modify fun s => { s with maxes := s.maxes ++ [key] })
  CPy.free (Py.modify fun s => { s with len := s.len + 1 })

/-- The loop `while True:` that `__contains__`, `discard` and `remove` share
(sortedlist.py:1836-1847, 1883-1895, 1935-1947). -/
def findLoop (K : CKEnv α κ) (lists : List (List α)) (keys : List (List κ)) (value : α) (key : κ)
    (pos idx lenSublist : Nat) : CPy (St α κ) (Option (Nat × Nat)) :=
  match _h : getItem keys pos with
  | .error e => CPy.free (Py.raise e)
  | .ok ks =>
    match _h' : getItem ks idx with
    | .error e => CPy.free (Py.raise e)
    | .ok k => do
      if ← K.kcmp .ne k key then pure none
      else
        let l ← CPy.free (Py.lift (getItem lists pos))
        let x ← CPy.free (Py.lift (getItem l idx))
        if ← K.vcmp .eq x value then pure (some (pos, idx))
        else if idx + 1 = lenSublist then
          if pos + 1 = keys.length then pure none
          else
            let ks' ← CPy.free (Py.lift (getItem keys (pos + 1)))
            findLoop K lists keys value key (pos + 1) 0 ks'.length
        else findLoop K lists keys value key pos (idx + 1) lenSublist
termination_by (keys.length - pos, (keys[pos]?.getD []).length - idx)
decreasing_by
  all_goals
    rw [getItem_ok_iff] at _h _h'
    have h1 := (List.getElem?_eq_some_iff.1 _h).1
    have h2 := (List.getElem?_eq_some_iff.1 _h').1
    first
    | (apply Prod.Lex.left; omega)
    | (apply Prod.Lex.right; simp only [_h, Option.getD_some]; omega)

/-- The common first part of `__contains__`, `discard`, `remove`: locate the run of equal keys and
search it (sortedlist.py:1817-1834, 1866-1881, 1918-1933 and the loop). -/
def find (K : CKEnv α κ) (value : α) : CPy (St α κ) (Option (Nat × Nat)) := do
  let s ← CPy.free Py.get
  if s.maxes = [] then pure none
  else
    let key ← K.key value
    let pos ← bisectLeft K.lt s.maxes key
    if pos = s.maxes.length then pure none
    else
      let ks ← CPy.free (Py.lift (getItem s.keys pos))
      let idx ← bisectLeft K.lt ks key
      findLoop K s.lists s.keys value key pos idx ks.length

/-- `__contains__` (sortedlist.py:1801-1847) -/
def contains (K : CKEnv α κ) (value : α) : CPy (St α κ) Bool := do
  match ← find K value with
  | none => pure false
  | some _ => pure true

/-- `_delete` (sortedlist.py:1949-2006) -/
def delete (pos idx : Nat) : CPy (St α κ) Unit := do
  let s ← CPy.free Py.get
  let keysPos ← CPy.free (Py.lift (getItem s.keys pos))
  let listsPos ← CPy.free (Py.lift (getItem s.lists pos))
  moving ((listsPos.length - idx) + (keysPos.length - idx))
  let keysPos ← CPy.free (Py.lift (delItem keysPos idx))
  CPy.free (Py.modify fun s => { s with keys := s.keys.set pos keysPos })
  let listsPos ← CPy.free (Py.lift (delItem listsPos idx))
  CPy.free (Py.modify fun s => { s with lists := s.lists.set pos listsPos })
  let len ← CPy.free (Py.lift (Core.decr s.len))
  CPy.free (Py.modify fun s => { s with len := len })
  if keysPos.length > s.load / 2 then
    let m ← CPy.free (Py.lift (lastItem keysPos))
    let maxes ← CPy.free (Py.lift (setItem s.maxes pos m))
    CPy.free (Py.modify fun s => { s with maxes := maxes })
    touchIndex Core.decr pos
  else if s.keys.length > 1 then
    let pos := if pos = 0 then pos + 1 else pos
    let prev := pos - 1
    let s ← CPy.free Py.get
    let ka ← CPy.free (Py.lift (getItem s.keys prev))
    let kb ← CPy.free (Py.lift (getItem s.keys pos))
    CPy.free (Py.modify fun s => { s with keys := s.keys.set prev (ka ++ kb) })
    let a ← CPy.free (Py.lift (getItem s.lists prev))
    let b ← CPy.free (Py.lift (getItem s.lists pos))
    moving (2 * b.length + 2 * kb.length)
    shifting (3 * (s.lists.length - pos))
    reshaping
    CPy.free (Py.modify fun s => { s with lists := s.lists.set prev (a ++ b) })
    let m ← CPy.free (Py.lift (lastItem (ka ++ kb)))
    let maxes ← CPy.free (Py.lift (setItem s.maxes prev m))
    CPy.free (Py.modify fun s => { s with maxes := maxes })
    let s ← CPy.free Py.get
    let lists ← CPy.free (Py.lift (delItem s.lists pos))
    CPy.free (Py.modify fun s => { s with lists := lists })
    let keys ← CPy.free (Py.lift (delItem s.keys pos))
    CPy.free (Py.modify fun s => { s with keys := keys })
    let maxes ← CPy.free (Py.lift (delItem s.maxes pos))
    CPy.free (Py.modify fun s => { s with maxes := maxes })
    CPy.free (Py.modify fun s => { s with index := [] })
    expand prev
  else if keysPos.length ≠ 0 then
    let m ← CPy.free (Py.lift (lastItem keysPos))
    let maxes ← CPy.free (Py.lift (setItem s.maxes pos m))
    CPy.free (Py.modify fun s => { s with maxes := maxes })
  else
    let s ← CPy.free Py.get
    shifting (3 * (s.lists.length - pos))
    let lists ← CPy.free (Py.lift (delItem s.lists pos))
    CPy.free (Py.modify fun s => { s with lists := lists })
    let keys ← CPy.free (Py.lift (delItem s.keys pos))
    CPy.free (Py.modify fun s => { s with keys := keys })
    let maxes ← CPy.free (Py.lift (delItem s.maxes pos))
    CPy.free (Py.modify fun s => { s with maxes := maxes })
    CPy.free (Py.modify fun s => { s with index := [] })

/-- `discard` (sortedlist.py:1849-1895) -/
def discard (K : CKEnv α κ) (value : α) : CPy (St α κ) Unit := do
  match ← find K value with
  | none => pure ()
  | some (pos, idx) => delete pos idx

/-- `remove` (sortedlist.py:1897-1947) -/
def remove (K : CKEnv α κ) (value : α) : CPy (St α κ) Unit := do
  match ← find K value with
  | none => CPy.free (Py.raise .valueError)
  | some (pos, idx) => delete pos idx

/-- `irange_key` (sortedlist.py:2044-2128), as the list of values the iterator yields. -/
def irange_key (K : CKEnv α κ) (minKey maxKey : Option κ) (incMin incMax reverse : Bool) :
    CPy (St α κ) (List α) := do
  let s ← CPy.free Py.get
  if s.maxes = [] then pure []
  else
    -- lines 2083-2100; `none` stands for `return iter(())`
    let lo : Option (Nat × Nat) ←
      match minKey with
      | none => pure (some (0, 0))
      | some m => do
        let minPos ← (if incMin then bisectLeft K.lt s.maxes m else bisectRight K.lt s.maxes m)
        if minPos = s.maxes.length then pure none
        else
          let ks ← CPy.free (Py.lift (getItem s.keys minPos))
          let minIdx ← (if incMin then bisectLeft K.lt ks m else bisectRight K.lt ks m)
          pure (some (minPos, minIdx))
    match lo with
    | none => pure []
    | some (minPos, minIdx) =>
      -- lines 2105-2124
      let (maxPos, maxIdx) ←
        match maxKey with
        | none => do
          let ks ← CPy.free (Py.lift (getItem s.keys (s.maxes.length - 1)))
          pure (s.maxes.length - 1, ks.length)
        | some m => do
          let maxPos ← (if incMax then bisectRight K.lt s.maxes m else bisectLeft K.lt s.maxes m)
          if maxPos = s.maxes.length then
            let ks ← CPy.free (Py.lift (getItem s.keys (maxPos - 1)))
            pure (maxPos - 1, ks.length)
          else
            let ks ← CPy.free (Py.lift (getItem s.keys maxPos))
            let maxIdx ← (if incMax then bisectRight K.lt ks m else bisectLeft K.lt ks m)
            pure (maxPos, maxIdx)
      CPy.free (Py.lift (Core.islicePos s minPos minIdx maxPos maxIdx reverse))

/-- `key(x) if x is not None else None` (sortedlist.py:2035-2036).  A key function returning `None`,
which `irange_key` would read as "no bound", is not modelled (`None` is not ordered with other keys). -/
def keyOpt (K : CKEnv α κ) : Option α → CPy (St α κ) (Option κ)
  | none => pure none
  | some x => do
    let k ← K.key x
    pure (some k)

/-- `irange` (sortedlist.py:2008-2042) -/
def irange (K : CKEnv α κ) (minimum maximum : Option α) (incMin incMax reverse : Bool) :
    CPy (St α κ) (List α) := do
  let minKey ← keyOpt K minimum
  let maxKey ← keyOpt K maximum
  irange_key K minKey maxKey incMin incMax reverse

/-- `bisect_key_left` (sortedlist.py:2174-2207) -/
def bisect_key_left (K : CKEnv α κ) (key : κ) : CPy (St α κ) Nat := do
  let s ← CPy.free Py.get
  if s.maxes = [] then pure 0
  else
    let pos ← bisectLeft K.lt s.maxes key
    if pos = s.maxes.length then pure s.len
    else
      let ks ← CPy.free (Py.lift (getItem s.keys pos))
      let idx ← bisectLeft K.lt ks key
      Counted.loc K.ilog2 pos idx

/-- `bisect_key_right` / `bisect_key` (sortedlist.py:2209-2243) -/
def bisect_key_right (K : CKEnv α κ) (key : κ) : CPy (St α κ) Nat := do
  let s ← CPy.free Py.get
  if s.maxes = [] then pure 0
  else
    let pos ← bisectRight K.lt s.maxes key
    if pos = s.maxes.length then pure s.len
    else
      let ks ← CPy.free (Py.lift (getItem s.keys pos))
      let idx ← bisectRight K.lt ks key
      Counted.loc K.ilog2 pos idx

/-- `bisect_left` (sortedlist.py:2130-2149) -/
def bisect_left (K : CKEnv α κ) (value : α) : CPy (St α κ) Nat := do
  let key ← K.key value
  bisect_key_left K key

/-- `bisect_right` / `bisect` (sortedlist.py:2151-2172) -/
def bisect_right (K : CKEnv α κ) (value : α) : CPy (St α κ) Nat := do
  let key ← K.key value
  bisect_key_right K key

/-- The loop of `count` (sortedlist.py:2277-2288). -/
def countLoop (K : CKEnv α κ) (lists : List (List α)) (keys : List (List κ)) (value : α) (key : κ)
    (pos idx lenSublist total : Nat) : CPy (St α κ) Nat :=
  match _h : getItem keys pos with
  | .error e => CPy.free (Py.raise e)
  | .ok ks =>
    match _h' : getItem ks idx with
    | .error e => CPy.free (Py.raise e)
    | .ok k => do
      if ← K.kcmp .ne k key then pure total
      else
        let l ← CPy.free (Py.lift (getItem lists pos))
        let x ← CPy.free (Py.lift (getItem l idx))
        let b ← K.vcmp .eq x value
        let total := if b then total + 1 else total
        if idx + 1 = lenSublist then
          if pos + 1 = keys.length then pure total
          else
            let ks' ← CPy.free (Py.lift (getItem keys (pos + 1)))
            countLoop K lists keys value key (pos + 1) 0 ks'.length total
        else countLoop K lists keys value key pos (idx + 1) lenSublist total
termination_by (keys.length - pos, (keys[pos]?.getD []).length - idx)
decreasing_by
  all_goals
    rw [getItem_ok_iff] at _h _h'
    have h1 := (List.getElem?_eq_some_iff.1 _h).1
    have h2 := (List.getElem?_eq_some_iff.1 _h').1
    first
    | (apply Prod.Lex.left; omega)
    | (apply Prod.Lex.right; simp only [_h, Option.getD_some]; omega)

/-- `count` (sortedlist.py:2245-2288) -/
def count (K : CKEnv α κ) (value : α) : CPy (St α κ) Nat := do
  let s ← CPy.free Py.get
  if s.maxes = [] then pure 0
  else
    let key ← K.key value
    let pos ← bisectLeft K.lt s.maxes key
    if pos = s.maxes.length then pure 0
    else
      let ks ← CPy.free (Py.lift (getItem s.keys pos))
      let idx ← bisectLeft K.lt ks key
      countLoop K s.lists s.keys value key pos idx ks.length 0

/-- The loop of `index` (sortedlist.py:2367-2384); `stop` has already been decremented. -/
def indexLoop (K : CKEnv α κ) (lists : List (List α)) (keys : List (List κ)) (value : α) (key : κ)
    (start stop : Int) (pos idx lenSublist : Nat) : CPy (St α κ) Int :=
  match _h : getItem keys pos with
  | .error e => CPy.free (Py.raise e)
  | .ok ks =>
    match _h' : getItem ks idx with
    | .error e => CPy.free (Py.raise e)
    | .ok k => do
      if ← K.kcmp .ne k key then CPy.free (Py.raise .valueError)
      else
        let l ← CPy.free (Py.lift (getItem lists pos))
        let x ← CPy.free (Py.lift (getItem l idx))
        let b ← K.vcmp .eq x value
        -- lines 2370-2375: `some r` stands for `return r`, `none` for falling through
        let r : Option Int ←
          if b then do
            let loc ← Counted.loc K.ilog2 pos idx
            if start ≤ (loc : Int) ∧ (loc : Int) ≤ stop then pure (some (loc : Int))
            else if (loc : Int) > stop then CPy.free (Py.raise .valueError)
            else pure none
          else pure none
        match r with
        | some r => pure r
        | none =>
          if idx + 1 = lenSublist then
            if pos + 1 = keys.length then CPy.free (Py.raise .valueError)
            else
              let ks' ← CPy.free (Py.lift (getItem keys (pos + 1)))
              indexLoop K lists keys value key start stop (pos + 1) 0 ks'.length
          else indexLoop K lists keys value key start stop pos (idx + 1) lenSublist
termination_by (keys.length - pos, (keys[pos]?.getD []).length - idx)
decreasing_by
  all_goals
    rw [getItem_ok_iff] at _h _h'
    have h1 := (List.getElem?_eq_some_iff.1 _h).1
    have h2 := (List.getElem?_eq_some_iff.1 _h').1
    first
    | (apply Prod.Lex.left; omega)
    | (apply Prod.Lex.right; simp only [_h, Option.getD_some]; omega)

/-- `index` (sortedlist.py:2302-2384), a Python integer. -/
def index (K : CKEnv α κ) (value : α) (start stop : Option Int) : CPy (St α κ) Int := do
  let s ← CPy.free Py.get
  if s.len = 0 then CPy.free (Py.raise .valueError)
  else
    let (start, stop) := SL.indexBounds s.len start stop
    if stop ≤ start then CPy.free (Py.raise .valueError)
    else
      let key ← K.key value
      let pos ← bisectLeft K.lt s.maxes key
      if pos = s.maxes.length then CPy.free (Py.raise .valueError)
      else
        let ks ← CPy.free (Py.lift (getItem s.keys pos))
        let idx ← bisectLeft K.lt ks key
        indexLoop K s.lists s.keys value key start (stop - 1) pos idx ks.length

end Counted.SKL
end Verif
