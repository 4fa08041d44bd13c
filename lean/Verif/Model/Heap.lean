import Verif.Model.API
/-!
# Sublists as objects with identity

The other modules describe an object by the *values* of its sublists.  Python's sublists are mutable objects: `_lists`
holds references to them, local variables and other objects may hold references to the same list, and `iadd`, `extend`,
`sort`, `reverse` and `del` change a list in place for everybody who refers to it.  Here every list of values (and every
list of keys in `_keys`) is an object at an address, and the methods pass addresses around as the code does.

Simplifications: `_lists`, `_keys`, `_maxes` and `_index` themselves are attributes by value; each of these four lists is
created by `__init__`, never rebound, and never handed out except inside iterators (Model/Iter.lean).  Methods that only
read sublists and maintain `_index` are run on the values (`reading`).

All line numbers refer to /repo/src/sortedcontainers/sortedlist.py.
-/

namespace Verif
namespace Heap

/-- The identity of a list object.  (Scaffolding of the model: no code of /repo.) -/
abbrev Addr := Nat

/-- All list objects of the program: those with values and those with keys.  (Scaffolding of the model: no code of /repo.) -/
structure Mem (α κ : Type) where
  vals : List (List α)
  keys : List (List κ)

/-- The attributes of a SortedList / SortedKeyList object (sortedlist.py:107-113, 1644-1651), as `St`, but with the
sublists given by reference. -/
structure Obj (κ : Type) where
  len : Nat
  load : Nat
  lists : List Addr
  keys : List Addr
  maxes : List κ
  index : List Nat
  offset : Nat

/-- The object at the start of `__init__` (sortedlist.py:107-113, 1644-1651). -/
def Obj.empty {κ : Type} : Obj κ :=
  { len := 0, load := defaultLoadFactor, lists := [], keys := [], maxes := [], index := [], offset := 0 }

/-- What a method works on: all list objects, and the attributes of `self`.  (Scaffolding of the model: no code of /repo.) -/
structure Ctx (α κ : Type) where
  mem : Mem α κ
  self : Obj κ

variable {α κ : Type}

namespace Ctx

/-- The values in the list object at `a`.  (Scaffolding of the model: no code of /repo.) -/
def cell (c : Ctx α κ) (a : Addr) : List α := c.mem.vals.getD a []

/-- The keys in the list object at `a`.  (Scaffolding of the model: no code of /repo.) -/
def kcell (c : Ctx α κ) (a : Addr) : List κ := c.mem.keys.getD a []

/-- The list object at `a` gets the contents `l`; everybody who refers to it sees the change.
(Scaffolding of the model: no code of /repo.) -/
def put (c : Ctx α κ) (a : Addr) (l : List α) : Ctx α κ := { c with mem := { c.mem with vals := c.mem.vals.set a l } }

/-- The same for keys.  (Scaffolding of the model: no code of /repo.) -/
def kput (c : Ctx α κ) (a : Addr) (l : List κ) : Ctx α κ := { c with mem := { c.mem with keys := c.mem.keys.set a l } }

/-- A new list object; its address is the number of list objects so far.  (Scaffolding of the model: no code of /repo.) -/
def new (c : Ctx α κ) (l : List α) : Ctx α κ := { c with mem := { c.mem with vals := c.mem.vals ++ [l] } }

/-- The same for keys.  (Scaffolding of the model: no code of /repo.) -/
def knew (c : Ctx α κ) (l : List κ) : Ctx α κ := { c with mem := { c.mem with keys := c.mem.keys ++ [l] } }

/-- The object as the other modules see it: every reference replaced by the contents.
(Scaffolding of the model: no code of /repo.) -/
def view (c : Ctx α κ) : St α κ :=
  { len := c.self.len, load := c.self.load, lists := c.self.lists.map c.cell, keys := c.self.keys.map c.kcell
    maxes := c.self.maxes, index := c.self.index, offset := c.self.offset }

end Ctx

/-! ## Statements -/

/-- A method call on the heap.  (Scaffolding of the model: no code of /repo.) -/
abbrev Run (α κ β : Type) := Py (Ctx α κ) β

/-- Read the attributes of `self`.  (Scaffolding of the model: no code of /repo.) -/
def self : Run α κ (Obj κ) := fun c => (.ok c.self, c)

/-- Assign attributes of `self`.  (Scaffolding of the model: no code of /repo.) -/
def assign (f : Obj κ → Obj κ) : Run α κ Unit := fun c => (.ok (), { c with self := f c.self })

/-- Read a list object.  (Scaffolding of the model: no code of /repo.) -/
def read (a : Addr) : Run α κ (List α) := fun c => (.ok (c.cell a), c)

/-- Change a list object in place.  (Scaffolding of the model: no code of /repo.) -/
def write (a : Addr) (l : List α) : Run α κ Unit := fun c => (.ok (), c.put a l)

/-- Create a list object.  (Scaffolding of the model: no code of /repo.) -/
def alloc (l : List α) : Run α κ Addr := fun c => (.ok c.mem.vals.length, c.new l)

/-- The same for keys.  (Scaffolding of the model: no code of /repo.) -/
def readK (a : Addr) : Run α κ (List κ) := fun c => (.ok (c.kcell a), c)

/-- The same for keys.  (Scaffolding of the model: no code of /repo.) -/
def writeK (a : Addr) (l : List κ) : Run α κ Unit := fun c => (.ok (), c.kput a l)

/-- The same for keys.  (Scaffolding of the model: no code of /repo.) -/
def allocK (l : List κ) : Run α κ Addr := fun c => (.ok c.mem.keys.length, c.knew l)

/-- A method that only reads sublists and may rebuild the positional index: run on the values.
(Scaffolding of the model: no code of /repo.) -/
def reading {β : Type} (m : Py (St α κ) β) : Run α κ β := fun c =>
  let r := m c.view
  (r.1, { c with self := { c.self with index := r.2.index, offset := r.2.offset } })

/-- `a += b`, `a.extend(b)`, `iadd(a, b)` for list objects `a`, `b` (Python's own, called by the code of /repo.) -/
def extend (a b : Addr) : Run α κ Unit := do
  let y ← read b
  let x ← read a
  write a (x ++ y)

/-- `reduce(iadd, as, acc)`: `acc = iadd(acc, a)` for every `a`; `iadd` changes `acc` in place and returns it.
(Python's own, called by the code of /repo.) -/
def reduceIadd (as : List Addr) (acc : Addr) : Run α κ Unit := Py.forEach (extend acc) as

/-- `reduce(iadd, self._lists, [])` (sortedlist.py:174, 281, 777, 1384, 1426, 1447, 1501, 1779, 2406, 2427, 2431) -/
def flatten : Run α κ Addr := do
  let acc ← alloc []
  let o ← self
  reduceIadd o.lists acc
  pure acc

/-- An iterable argument: a list object, or something else (tuple, generator, another container) that yields the given
values.  (Scaffolding of the model: no code of /repo.) -/
inductive Source (α : Type) where
  | list (a : Addr)
  | values (xs : List α)

/-- The values that an iterable yields.  (Python's own, called by the code of /repo.) -/
def consume : Source α → Run α κ (List α)
  | .list a => read a
  | .values xs => pure xs

/-! ## Slices (shared) -/

namespace Core
open Verif.Core (pos getInt)

/-- `__getitem__` with a slice, the branch `step == 1 and start < stop` (sortedlist.py:776-800) -/
def getSliceFwd (ilog2 : Nat → Nat) (start stop : Int) : Run α κ Addr := do
  let o ← self
  if start = 0 ∧ stop = o.len then flatten
  else
    let (startPos, startIdx) ← reading (pos ilog2 start)
    let startList ← Py.lift (getItem o.lists startPos)
    let stopIdx := startIdx + (stop - start).toNat
    let l ← read startList
    if stopIdx ≤ l.length then alloc (subList l startIdx stopIdx)
    else
      let (stopPos, stopIdx) ←
        if stop = o.len then do
          let a ← Py.lift (getItem o.lists (o.lists.length - 1))
          let l ← read a
          pure (o.lists.length - 1, l.length)
        else reading (pos ilog2 stop)
      let pre ← alloc (l.drop startIdx)
      let middle := subList o.lists (startPos + 1) stopPos
      reduceIadd middle pre
      let b ← Py.lift (getItem o.lists stopPos)
      let l ← read b
      let tmp ← alloc (l.take stopIdx)
      extend pre tmp
      pure pre

/-- `self._getitem(slice(start, stop))` (sortedlist.py:769-800, 811-812) -/
def getSliceStep1 (ilog2 : Nat → Nat) (start stop : Option Int) : Run α κ Addr := do
  let o ← self
  let (start, stop, step) ← Py.lift (PySlice.indices { start := start, stop := stop } o.len)
  if step = 1 ∧ start < stop then getSliceFwd ilog2 start stop
  else
    let xs ← Py.mapEach (fun i => reading (getInt ilog2 i)) (pyRange start stop step)
    alloc xs

/-- `__getitem__` with a slice (sortedlist.py:769-812); `result.reverse()` works in place. -/
def getSlice (ilog2 : Nat → Nat) (sl : PySlice) : Run α κ Addr := do
  let o ← self
  let (start, stop, step) ← Py.lift (sl.indices o.len)
  if step = 1 ∧ start < stop then getSliceFwd ilog2 start stop
  else if step = -1 ∧ start > stop then
    let result ← getSliceStep1 ilog2 (some (stop + 1)) (some (start + 1))
    let l ← read result
    write result l.reverse
    pure result
  else
    let xs ← Py.mapEach (fun i => reading (getInt ilog2 i)) (pyRange start stop step)
    alloc xs

/-- The methods that shared code calls on `self` and that SortedKeyList overrides.
(sortedlist.py:1664-2007: what SortedKeyList overrides.) -/
structure Methods (α κ : Type) where
  clear : Run α κ Unit
  update : Source α → Run α κ Unit
  delete : Nat → Nat → Run α κ Unit
  ilog2 : Nat → Nat

variable (M : Methods α κ)

/-- `_reset` (sortedlist.py:156-177) -/
def reset (load : Nat) : Run α κ Unit := do
  let values ← flatten
  M.clear
  assign fun o => { o with load := load }
  M.update (.list values)

/-- `__delitem__` with an integer (sortedlist.py:741-743) -/
def delInt (index : Int) : Run α κ Unit := do
  let (p, i) ← reading (pos M.ilog2 index)
  M.delete p i

/-- `__delitem__` with a slice (sortedlist.py:715-740) -/
def delSlice (sl : PySlice) : Run α κ Unit := do
  let o ← self
  let (start, stop, step) ← Py.lift (sl.indices o.len)
  if step = 1 ∧ start < stop ∧ start = 0 ∧ stop = o.len then M.clear
  else if step = 1 ∧ start < stop ∧ (o.len : Int) ≤ 8 * (stop - start) then
    let values ← getSliceStep1 M.ilog2 none (some start)
    if stop < o.len then do
      let tail ← getSliceStep1 M.ilog2 (some stop) none
      extend values tail
    else pure ()
    M.clear
    M.update (.list values)
  else
    let indices := pyRange start stop step
    let indices := if step > 0 then indices.reverse else indices
    Py.forEach (delInt M) indices

/-- `pop` (sortedlist.py:1231-1288) -/
def pop (index : Int) : Run α κ α := do
  let o ← self
  if o.len = 0 then Py.raise .indexError
  else if index = 0 then
    let a ← Py.lift (getItem o.lists 0)
    let l ← read a
    let val ← Py.lift (getItem l 0)
    M.delete 0 0
    pure val
  else if index = -1 then
    let pos := o.lists.length - 1
    let a ← Py.lift (getItem o.lists pos)
    let l ← read a
    let loc := l.length - 1
    let val ← Py.lift (getItem l loc)
    M.delete pos loc
    pure val
  else
    let a ← Py.lift (getItem o.lists 0)
    let first ← read a
    if 0 ≤ index ∧ index < first.length then
      let val ← Py.lift (getItem first index.toNat)
      M.delete 0 index.toNat
      pure val
    else
      let a ← Py.lift (lastItem o.lists)
      let last ← read a
      if -(last.length : Int) < index ∧ index < 0 then
        let pos := o.lists.length - 1
        let loc := ((last.length : Int) + index).toNat
        let a ← Py.lift (getItem o.lists pos)
        let l ← read a
        let val ← Py.lift (getItem l loc)
        M.delete pos loc
        pure val
      else
        let (p, i) ← reading (pos M.ilog2 index)
        let a ← Py.lift (getItem o.lists p)
        let l ← read a
        let val ← Py.lift (getItem l i)
        M.delete p i
        pure val

/-- `__iadd__` (sortedlist.py:1390-1409) -/
def iadd (other : Source α) : Run α κ Unit := M.update other

/-- `reduce(iadd, self._lists, []) * num` (sortedlist.py:1426, 1447, 2427): `*` makes a new list. -/
def repeated (num : Int) : Run α κ Addr := do
  let values ← flatten
  let l ← read values
  alloc (repeatList l num)

/-- `__imul__` (sortedlist.py:1431-1450) -/
def imul (num : Int) : Run α κ Unit := do
  let values ← repeated num
  M.clear
  M.update (.list values)

/-- The argument that `__add__` and `__radd__` pass to the constructor (sortedlist.py:1384-1385, 2406-2407). -/
def concatArg (other : Source α) : Run α κ Addr := do
  let values ← flatten
  let xs ← consume other
  let l ← read values
  write values (l ++ xs)
  pure values

end Core

/-! ## SortedList -/

namespace SL
open Verif.Core (chunks touchIndex incr decr)

/-- `clear` (sortedlist.py:179-189) -/
def clear : Run α α Unit :=
  assign fun o => { o with len := 0, lists := [], maxes := [], index := [], offset := 0 }

/-- `_expand` (sortedlist.py:228-259) -/
def expand (pos : Nat) : Run α α Unit := do
  let o ← self
  let listsPos ← Py.lift (getItem o.lists pos)
  let l ← read listsPos
  if l.length > o.load * 2 then
    let half ← alloc (l.drop o.load)
    write listsPos (l.take o.load)
    let l ← read listsPos
    let m ← Py.lift (lastItem l)
    let maxes ← Py.lift (setItem o.maxes pos m)
    assign fun o => { o with maxes := maxes }
    assign fun o => { o with lists := insertAt o.lists (pos + 1) half }
    let h ← read half
    let m ← Py.lift (lastItem h)
    assign fun o => { o with maxes := insertAt o.maxes (pos + 1) m }
    assign fun o => { o with index := [] }
  else reading (touchIndex incr pos)

/-- `add` (sortedlist.py:193-226) -/
def add (E : Env α) (value : α) : Run α α Unit := do
  let o ← self
  if o.maxes ≠ [] then
    let pos ← Py.lift (bisectRight E.lt o.maxes value)
    if pos = o.maxes.length then
      let pos := pos - 1
      let a ← Py.lift (getItem o.lists pos)
      let l ← read a
      write a (l ++ [value])
      assign fun o => { o with maxes := o.maxes.set pos value }
      expand pos
    else
      let a ← Py.lift (getItem o.lists pos)
      let l ← read a
      let l ← Py.lift (insort E.lt l value)
      write a l
      expand pos
  else
    let a ← alloc [value]
    assign fun o => { o with lists := o.lists ++ [a] }
    assign fun o => { o with maxes := o.maxes ++ [value] }
  assign fun o => { o with len := o.len + 1 }

/-- The tail of `update` (sortedlist.py:290-296): `values` is cut into new lists. -/
def fill (values : Addr) : Run α α Unit := do
  let o ← self
  let l ← read values
  let subs ← Py.lift (chunks o.load l)
  let as ← Py.mapEach alloc subs
  assign fun o => { o with lists := o.lists ++ as }
  let o ← self
  let ls ← Py.mapEach read o.lists
  let ms ← Py.lift (mapE lastItem ls)
  assign fun o => { o with maxes := o.maxes ++ ms }
  let l ← read values
  assign fun o => { o with len := l.length }
  assign fun o => { o with index := [] }

/-- `update` (sortedlist.py:261-296).  On the bulk path the sorted argument becomes a sublist for a moment (line 280), and
`values.sort()` (line 282) works in place.  The loop `for val in values` takes the values before it adds any. -/
def update (E : Env α) (iterable : Source α) : Run α α Unit := do
  let xs ← consume iterable
  let ys ← Py.lift (E.sorted xs)
  let values ← alloc ys
  let o ← self
  if o.maxes ≠ [] then
    let l ← read values
    if l.length * 4 ≥ o.len then
      assign fun o => { o with lists := o.lists ++ [values] }
      let values ← flatten
      let l ← read values
      let l ← Py.lift (E.sorted l)
      write values l
      clear
      fill values
    else
      let l ← read values
      Py.forEach (add E) l
  else
    fill values

/-- `_delete` (sortedlist.py:400-452) -/
def delete (pos idx : Nat) : Run α α Unit := do
  let o ← self
  let listsPos ← Py.lift (getItem o.lists pos)
  let l ← read listsPos
  let l ← Py.lift (delItem l idx)
  write listsPos l
  let len ← Py.lift (decr o.len)
  assign fun o => { o with len := len }
  let l ← read listsPos
  if l.length > o.load / 2 then
    let m ← Py.lift (lastItem l)
    let maxes ← Py.lift (setItem o.maxes pos m)
    assign fun o => { o with maxes := maxes }
    reading (touchIndex decr pos)
  else if o.lists.length > 1 then
    let pos := if pos = 0 then pos + 1 else pos
    let prev := pos - 1
    let a ← Py.lift (getItem o.lists prev)
    let b ← Py.lift (getItem o.lists pos)
    extend a b
    let l ← read a
    let m ← Py.lift (lastItem l)
    let maxes ← Py.lift (setItem o.maxes prev m)
    assign fun o => { o with maxes := maxes }
    let o ← self
    let lists ← Py.lift (delItem o.lists pos)
    assign fun o => { o with lists := lists }
    let maxes ← Py.lift (delItem o.maxes pos)
    assign fun o => { o with maxes := maxes }
    assign fun o => { o with index := [] }
    expand prev
  else if l.length ≠ 0 then
    let m ← Py.lift (lastItem l)
    let maxes ← Py.lift (setItem o.maxes pos m)
    assign fun o => { o with maxes := maxes }
  else
    let o ← self
    let lists ← Py.lift (delItem o.lists pos)
    assign fun o => { o with lists := lists }
    let maxes ← Py.lift (delItem o.maxes pos)
    assign fun o => { o with maxes := maxes }
    assign fun o => { o with index := [] }

/-- The search of `discard` and `remove` (sortedlist.py:345-360, 380-398): where the value is, if it is there. -/
def locate (E : Env α) (value : α) : Py (St α α) (Option (Nat × Nat)) := do
  let s ← Py.get
  if s.maxes = [] then pure none
  else
    let pos ← Py.lift (bisectLeft E.lt s.maxes value)
    if pos = s.maxes.length then pure none
    else
      let l ← Py.lift (getItem s.lists pos)
      let idx ← Py.lift (bisectLeft E.lt l value)
      let x ← Py.lift (getItem l idx)
      if ← Py.lift (E.cmp .eq x value) then pure (some (pos, idx)) else pure none

/-- `discard` (sortedlist.py:330-360) -/
def discard (E : Env α) (value : α) : Run α α Unit := do
  match ← reading (locate E value) with
  | some (pos, idx) => delete pos idx
  | none => pure ()

/-- `remove` (sortedlist.py:362-398) -/
def remove (E : Env α) (value : α) : Run α α Unit := do
  match ← reading (locate E value) with
  | some (pos, idx) => delete pos idx
  | none => Py.raise .valueError

/-- The virtual methods.  (sortedlist.py:1664-2007: what SortedKeyList overrides.) -/
def methods (E : Env α) : Core.Methods α α :=
  { clear := clear, update := update E, delete := delete, ilog2 := E.ilog2 }

end SL

/-! ## SortedKeyList -/

namespace SKL
open Verif.Core (chunks touchIndex incr decr)

/-- `clear` (sortedlist.py:1664-1676) -/
def clear : Run α κ Unit :=
  assign fun o => { o with len := 0, lists := [], keys := [], maxes := [], index := [] }

/-- `_expand` (sortedlist.py:1721-1757) -/
def expand (pos : Nat) : Run α κ Unit := do
  let o ← self
  let keysPos ← Py.lift (getItem o.keys pos)
  let ks ← readK keysPos
  if ks.length > o.load * 2 then
    let listsPos ← Py.lift (getItem o.lists pos)
    let l ← read listsPos
    let half ← alloc (l.drop o.load)
    let halfKeys ← allocK (ks.drop o.load)
    write listsPos (l.take o.load)
    writeK keysPos (ks.take o.load)
    let ks ← readK keysPos
    let m ← Py.lift (lastItem ks)
    let maxes ← Py.lift (setItem o.maxes pos m)
    assign fun o => { o with maxes := maxes }
    assign fun o => { o with lists := insertAt o.lists (pos + 1) half }
    assign fun o => { o with keys := insertAt o.keys (pos + 1) halfKeys }
    let h ← readK halfKeys
    let m ← Py.lift (lastItem h)
    assign fun o => { o with maxes := insertAt o.maxes (pos + 1) m }
    assign fun o => { o with index := [] }
  else reading (touchIndex incr pos)

/-- `add` (sortedlist.py:1678-1719) -/
def add (K : KEnv α κ) (value : α) : Run α κ Unit := do
  let o ← self
  let key ← Py.lift (K.key value)
  if o.maxes ≠ [] then
    let pos ← Py.lift (bisectRight K.lt o.maxes key)
    if pos = o.maxes.length then
      let pos := pos - 1
      let a ← Py.lift (getItem o.lists pos)
      let l ← read a
      write a (l ++ [value])
      let b ← Py.lift (getItem o.keys pos)
      let ks ← readK b
      writeK b (ks ++ [key])
      assign fun o => { o with maxes := o.maxes.set pos key }
      expand pos
    else
      let b ← Py.lift (getItem o.keys pos)
      let ks ← readK b
      let idx ← Py.lift (bisectRight K.lt ks key)
      let a ← Py.lift (getItem o.lists pos)
      let l ← read a
      write a (insertAt l idx value)
      writeK b (insertAt ks idx key)
      expand pos
  else
    let a ← alloc [value]
    assign fun o => { o with lists := o.lists ++ [a] }
    let b ← allocK [key]
    assign fun o => { o with keys := o.keys ++ [b] }
    assign fun o => { o with maxes := o.maxes ++ [key] }
  assign fun o => { o with len := o.len + 1 }

/-- The tail of `update` (sortedlist.py:1790-1797) -/
def fill (K : KEnv α κ) (values : Addr) : Run α κ Unit := do
  let o ← self
  let l ← read values
  let subs ← Py.lift (chunks o.load l)
  let as ← Py.mapEach alloc subs
  assign fun o => { o with lists := o.lists ++ as }
  let o ← self
  Py.forEach (fun a => do
    let l ← read a
    let ks ← Py.lift (mapE K.key l)
    let b ← allocK ks
    assign fun o => { o with keys := o.keys ++ [b] }) o.lists
  let o ← self
  let ls ← Py.mapEach readK o.keys
  let ms ← Py.lift (mapE lastItem ls)
  assign fun o => { o with maxes := o.maxes ++ ms }
  let l ← read values
  assign fun o => { o with len := l.length }
  assign fun o => { o with index := [] }

/-- `update` (sortedlist.py:1759-1799), see `SL.update`. -/
def update (K : KEnv α κ) (iterable : Source α) : Run α κ Unit := do
  let xs ← consume iterable
  let ys ← Py.lift (K.sortedByKey xs)
  let values ← alloc ys
  let o ← self
  if o.maxes ≠ [] then
    let l ← read values
    if l.length * 4 ≥ o.len then
      assign fun o => { o with lists := o.lists ++ [values] }
      let values ← flatten
      let l ← read values
      let l ← Py.lift (K.sortedByKey l)
      write values l
      clear
      fill K values
    else
      let l ← read values
      Py.forEach (add K) l
  else
    fill K values

/-- `_delete` (sortedlist.py:1949-2006) -/
def delete (pos idx : Nat) : Run α κ Unit := do
  let o ← self
  let keysPos ← Py.lift (getItem o.keys pos)
  let listsPos ← Py.lift (getItem o.lists pos)
  let ks ← readK keysPos
  let ks ← Py.lift (delItem ks idx)
  writeK keysPos ks
  let l ← read listsPos
  let l ← Py.lift (delItem l idx)
  write listsPos l
  let len ← Py.lift (decr o.len)
  assign fun o => { o with len := len }
  let ks ← readK keysPos
  if ks.length > o.load / 2 then
    let m ← Py.lift (lastItem ks)
    let maxes ← Py.lift (setItem o.maxes pos m)
    assign fun o => { o with maxes := maxes }
    reading (touchIndex decr pos)
  else if o.keys.length > 1 then
    let pos := if pos = 0 then pos + 1 else pos
    let prev := pos - 1
    let ka ← Py.lift (getItem o.keys prev)
    let kb ← Py.lift (getItem o.keys pos)
    let y ← readK kb
    let x ← readK ka
    writeK ka (x ++ y)
    let a ← Py.lift (getItem o.lists prev)
    let b ← Py.lift (getItem o.lists pos)
    extend a b
    let ks ← readK ka
    let m ← Py.lift (lastItem ks)
    let maxes ← Py.lift (setItem o.maxes prev m)
    assign fun o => { o with maxes := maxes }
    let o ← self
    let lists ← Py.lift (delItem o.lists pos)
    assign fun o => { o with lists := lists }
    let keys ← Py.lift (delItem o.keys pos)
    assign fun o => { o with keys := keys }
    let maxes ← Py.lift (delItem o.maxes pos)
    assign fun o => { o with maxes := maxes }
    assign fun o => { o with index := [] }
    expand prev
  else if ks.length ≠ 0 then
    let m ← Py.lift (lastItem ks)
    let maxes ← Py.lift (setItem o.maxes pos m)
    assign fun o => { o with maxes := maxes }
  else
    let o ← self
    let lists ← Py.lift (delItem o.lists pos)
    assign fun o => { o with lists := lists }
    let keys ← Py.lift (delItem o.keys pos)
    assign fun o => { o with keys := keys }
    let maxes ← Py.lift (delItem o.maxes pos)
    assign fun o => { o with maxes := maxes }
    assign fun o => { o with index := [] }

/-- `discard` (sortedlist.py:1849-1895) -/
def discard (K : KEnv α κ) (value : α) : Run α κ Unit := do
  match ← reading (Verif.SKL.find K value) with
  | some (pos, idx) => delete pos idx
  | none => pure ()

/-- `remove` (sortedlist.py:1897-1947) -/
def remove (K : KEnv α κ) (value : α) : Run α κ Unit := do
  match ← reading (Verif.SKL.find K value) with
  | some (pos, idx) => delete pos idx
  | none => Py.raise .valueError

/-- The virtual methods.  (sortedlist.py:1664-2007: what SortedKeyList overrides.) -/
def methods (K : KEnv α κ) : Core.Methods α κ :=
  { clear := clear, update := update K, delete := delete, ilog2 := K.ilog2 }

end SKL
end Heap
end Verif
