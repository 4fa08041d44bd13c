import Verif.Model.API
/-!
# Several threads change one list

The methods of the two list classes as programs that can be suspended between any two accesses to the list object or to its sublists.  Each line of Python is cut into its
single accesses: `_lists[pos].append(value)` is the access `_lists[pos]`, which yields a reference to a sublist, and then the call `append` of that sublist, which by then may
stand somewhere else in `_lists`, or nowhere.  `self._len += 1` and `_index[child] += 1` are a read and a write.  `bisect_left`, `bisect_right` and `insort` read one entry at
a time, since the comparisons between are Python code.  A call of a function written in C that calls no Python code (`append`, `insert`, `extend` with a list, `del`,
`reduce(iadd, _lists, [])`, `list(map(len, _lists))`) is one access, as it is in CPython with its global lock.

Sublists are objects with an address, as in `Model/Heap.lean`; `_lists`, `_keys`, `_maxes` and `_index` are never rebound.  Positions, the entries of the index and
`_len` are integers, for races make them negative; a negative position counts from the end, as in Python.

A loop that need not end has the argument `fuel`: it goes round at most that often and then does nothing any more (`spin`).  What holds of the first `n` turns for all `fuel` holds of the
Python loop, for that has gone round at most `n` times by then.

Simplifications: the values of `sorted(iterable)` and of `values.sort()` are computed between two accesses, for no other thread has these lists.  Numbers of the tree
`_index` that are computed from a list of lengths are computed at once.

All line numbers refer to /repo/src/sortedcontainers/sortedlist.py.
-/

namespace Verif

/-- A program: it returns or raises; or it accesses the object (`f` is what becomes of the object) and goes on, knowing what it saw; or it goes round for ever.
(Scaffolding of the model: no code of /repo.) -/
inductive Task (σ β : Type) where
  | ret (x : Except PyErr β)
  | act (f : σ → σ) (k : σ → Task σ β)
  | spin

namespace Task
variable {σ β γ : Type}

/-- `m`, then `f` with its result (Scaffolding of the model: no code of /repo.) -/
def bind : Task σ β → (β → Task σ γ) → Task σ γ
  | ret (.ok b), f => f b
  | ret (.error e), _ => ret (.error e)
  | act g k, f => act g fun s => bind (k s) f
  | spin, _ => spin

/-- As a monad.  (Scaffolding of the model: no code of /repo.) -/
instance : Monad (Task σ) where
  pure b := ret (.ok b)
  bind := bind

/-- A computation that does not touch the object.  (Scaffolding of the model: no code of /repo.) -/
def lift (x : Except PyErr β) : Task σ β := ret x
/-- An exception.  (Scaffolding of the model: no code of /repo.) -/
def raise (e : PyErr) : Task σ β := ret (.error e)

/-- Read something; this may raise.  (Scaffolding of the model: no code of /repo.) -/
def see (f : σ → Except PyErr β) : Task σ β := act id fun s => ret (f s)

/-- Change something; this may raise, and then nothing is changed.  (Scaffolding of the model: no code of /repo.) -/
def change (f : σ → Except PyErr σ) : Task σ Unit :=
  act (fun s => match f s with | .ok s' => s' | .error _ => s) fun s => ret (match f s with | .ok _ => .ok () | .error e => .error e)

/-- Create something: `g` is its address.  (Scaffolding of the model: no code of /repo.) -/
def make (f : σ → σ) (g : σ → β) : Task σ β := act f fun s => ret (.ok (g s))

/-- `for x in xs: f(x)` (Python's own, called by the code of /repo.) -/
def forEach (f : β → Task σ Unit) : List β → Task σ Unit
  | [] => pure ()
  | x :: xs => do
    f x
    forEach f xs

/-- `m`, whose exception is caught and becomes the result (Python's own, called by the code of /repo.) -/
def attempt : Task σ β → Task σ (Except PyErr β)
  | ret x => ret (.ok x)
  | act f k => act f fun s => attempt (k s)
  | spin => spin

/-- The calls `step c` for all `c` in `cs`, one after the other, whether they raise or not; the result is what they returned or raised.
(Scaffolding of the model: no code of /repo.) -/
def calls (step : γ → Task σ β) : List γ → Task σ (List (Except PyErr β))
  | [] => pure []
  | c :: cs => do
    let x ← attempt (step c)
    let xs ← calls step cs
    pure (x :: xs)

/-- The program, if it runs alone; `none` if it does not end.  (Scaffolding of the model: no code of /repo.) -/
def alone : Task σ β → σ → Option (Except PyErr β × σ)
  | ret x, s => some (x, s)
  | act f k, s => alone (k s) (f s)
  | spin, _ => none

end Task

/-- An object that several threads use.  (Scaffolding of the model: no code of /repo.) -/
structure Crowd (σ β : Type) where
  shared : σ
  threads : List (Task σ β)

namespace Crowd
variable {σ β : Type}

/-- Thread `i` has a turn: one access.  (Scaffolding of the model: no code of /repo.) -/
def turn (p : Crowd σ β) (i : Nat) : Crowd σ β :=
  match p.threads[i]? with
  | some (.act f k) => { shared := f p.shared, threads := p.threads.set i (k p.shared) }
  | _ => p

/-- The threads have turns in the order of the schedule.  (Scaffolding of the model: no code of /repo.) -/
def run (p : Crowd σ β) (schedule : List Nat) : Crowd σ β := schedule.foldl turn p

/-- What thread `i` has returned or raised, if it has ended.  (Scaffolding of the model: no code of /repo.) -/
def result (p : Crowd σ β) (i : Nat) : Option (Except PyErr β) :=
  match p.threads[i]? with
  | some (.ret x) => some x
  | _ => none

end Crowd

namespace Race

/-- The attributes of the list (sortedlist.py:107-113, 1644-1651) and all its sublists, those of values and those of keys. -/
structure Shared (α κ : Type) where
  cells : List (List α)
  kcells : List (List κ)
  lists : List Nat
  keys : List Nat
  maxes : List κ
  index : List Int
  offset : Nat
  len : Int
  load : Nat
deriving DecidableEq, Repr

variable {α κ β : Type}

namespace Shared

/-- The values in the sublist at address `a`.  (Scaffolding of the model: no code of /repo.) -/
def cell (s : Shared α κ) (a : Nat) : List α := s.cells.getD a []
/-- The same for keys.  (Scaffolding of the model: no code of /repo.) -/
def kcell (s : Shared α κ) (a : Nat) : List κ := s.kcells.getD a []
/-- The sublist at address `a` gets the values `l`.  (Scaffolding of the model: no code of /repo.) -/
def put (s : Shared α κ) (a : Nat) (l : List α) : Shared α κ := { s with cells := s.cells.set a l }
/-- The same for keys.  (Scaffolding of the model: no code of /repo.) -/
def kput (s : Shared α κ) (a : Nat) (l : List κ) : Shared α κ := { s with kcells := s.kcells.set a l }

/-- All values of the list, as `iter(sl)` yields them.  (Scaffolding of the model: no code of /repo.) -/
def contents (s : Shared α κ) : List α := s.lists.flatMap s.cell

/-- The object as the other modules see it.  (Scaffolding of the model: no code of /repo.) -/
def view (s : Shared α κ) : St α κ :=
  { lists := s.lists.map s.cell, keys := s.keys.map s.kcell, maxes := s.maxes, index := s.index.map Int.toNat, offset := s.offset, len := s.len.toNat, load := s.load }

end Shared

/-- The entry that the index `i` means in a list of length `n`; a negative one counts from the end.
(Python's own, called by the code of /repo.) -/
def place (n : Nat) (i : Int) : Except PyErr Nat :=
  if 0 ≤ i ∧ i < n then .ok i.toNat
  else if i < 0 ∧ 0 ≤ i + n then .ok (i + n).toNat
  else .error .indexError

/-- `l[i]` (Python's own, called by the code of /repo.) -/
def fetch (l : List β) (i : Int) : Except PyErr β := place l.length i >>= getItem l

/-- `l[i] = x` (Python's own, called by the code of /repo.) -/
def store (l : List β) (i : Int) (x : β) : Except PyErr (List β) := (fun j => l.set j x) <$> place l.length i

/-- `del l[i]` (Python's own, called by the code of /repo.) -/
def remove (l : List β) (i : Int) : Except PyErr (List β) := (fun j => l.eraseIdx j) <$> place l.length i

/-- `l.insert(i, x)` (Python's own, called by the code of /repo.) -/
def insert (l : List β) (i : Int) (x : β) : List β := insertAt l (if i < 0 then (i + l.length).toNat else min i.toNat l.length) x

/-! ## Accesses -/

/-- A method as a program on the shared list.  (Scaffolding of the model: no code of /repo.) -/
abbrev Run (α κ β : Type) := Task (Shared α κ) β

/-- Read an attribute, or the length of something, or the like.  (Scaffolding of the model: no code of /repo.) -/
def see (f : Shared α κ → β) : Run α κ β := Task.see fun s => .ok (f s)

/-- Assign an attribute, or change a list in a way that cannot fail.  (Scaffolding of the model: no code of /repo.) -/
def assign (f : Shared α κ → Shared α κ) : Run α κ Unit := Task.change fun s => .ok (f s)

/-- `_lists[pos]`
(A subscript, deletion or increment in the methods below, e.g. sortedlist.py:207-259, 400-452, 1695-1757, 1949-2006.) -/
def sublist (pos : Int) : Run α κ Nat := Task.see fun s => fetch s.lists pos

/-- `_keys[pos]`
(A subscript, deletion or increment in the methods below, e.g. sortedlist.py:207-259, 400-452, 1695-1757, 1949-2006.) -/
def subkeys (pos : Int) : Run α κ Nat := Task.see fun s => fetch s.keys pos

/-- `l[i]` for the sublist `l` at address `a`
(A subscript, deletion or increment in the methods below, e.g. sortedlist.py:207-259, 400-452, 1695-1757, 1949-2006.) -/
def entry (a : Nat) (i : Int) : Run α κ α := Task.see fun s => fetch (s.cell a) i
/-- The same for keys.  (A subscript, deletion or increment in the methods below, e.g. sortedlist.py:207-259, 400-452, 1695-1757, 1949-2006.) -/
def kentry (a : Nat) (i : Int) : Run α κ κ := Task.see fun s => fetch (s.kcell a) i

/-- A new sublist; what it holds may be read from others.  (Scaffolding of the model: no code of /repo.) -/
def alloc (f : Shared α κ → List α) : Run α κ Nat := Task.make (fun s => { s with cells := s.cells ++ [f s] }) fun s => s.cells.length
/-- The same for keys.  (Scaffolding of the model: no code of /repo.) -/
def kalloc (f : Shared α κ → List κ) : Run α κ Nat := Task.make (fun s => { s with kcells := s.kcells ++ [f s] }) fun s => s.kcells.length

/-- The sublist at address `a` is changed in place.  (Scaffolding of the model: no code of /repo.) -/
def alter (a : Nat) (f : List α → List α) : Run α κ Unit := assign fun s => s.put a (f (s.cell a))
/-- The same for keys.  (Scaffolding of the model: no code of /repo.) -/
def kalter (a : Nat) (f : List κ → List κ) : Run α κ Unit := assign fun s => s.kput a (f (s.kcell a))

/-- `_maxes[pos] = m`
(A subscript, deletion or increment in the methods below, e.g. sortedlist.py:207-259, 400-452, 1695-1757, 1949-2006.) -/
def setMax (pos : Int) (m : κ) : Run α κ Unit := Task.change fun s => (fun x => { s with maxes := x }) <$> store s.maxes pos m

/-- `del _lists[pos]`, `del _keys[pos]`, `del _maxes[pos]`
(A subscript, deletion or increment in the methods below, e.g. sortedlist.py:207-259, 400-452, 1695-1757, 1949-2006.) -/
def dropList (pos : Int) : Run α κ Unit := Task.change fun s => (fun x => { s with lists := x }) <$> remove s.lists pos
/-- The same for keys.  (A subscript, deletion or increment in the methods below, e.g. sortedlist.py:207-259, 400-452, 1695-1757, 1949-2006.) -/
def dropKeys (pos : Int) : Run α κ Unit := Task.change fun s => (fun x => { s with keys := x }) <$> remove s.keys pos
/-- `del _maxes[pos]`  (A subscript, deletion or increment in the methods below, e.g. sortedlist.py:207-259, 400-452, 1695-1757, 1949-2006.) -/
def dropMax (pos : Int) : Run α κ Unit := Task.change fun s => (fun x => { s with maxes := x }) <$> remove s.maxes pos

/-- `del _index[:]`
(A subscript, deletion or increment in the methods below, e.g. sortedlist.py:207-259, 400-452, 1695-1757, 1949-2006.) -/
def dropIndex : Run α κ Unit := assign fun s => { s with index := [] }

/-- `self._len += d`
(A subscript, deletion or increment in the methods below, e.g. sortedlist.py:207-259, 400-452, 1695-1757, 1949-2006.) -/
def addLen (d : Int) : Run α κ Unit := do
  let n ← see Shared.len
  assign fun s => { s with len := n + d }

/-- `_index[child] += d`
(A subscript, deletion or increment in the methods below, e.g. sortedlist.py:207-259, 400-452, 1695-1757, 1949-2006.) -/
def bump (d : Int) (child : Int) : Run α κ Unit := do
  let x ← Task.see fun s => fetch s.index child
  Task.change fun s => (fun i => { s with index := i }) <$> store s.index child (x + d)

/-- The loop of `bisect_left` and `bisect_right` (in C); `get` reads one entry.  It goes round at most `hi - lo` times.
(In C; imported in sortedlist.py:20.) -/
def bisectLoop (lt : κ → κ → Except PyErr Bool) (right : Bool) (get : Nat → Run α κ κ) (x : κ) : (rounds lo hi : Nat) → Run α κ Nat
  | 0, lo, _ => pure lo
  | rounds + 1, lo, hi =>
    if lo < hi then do
      let y ← get ((lo + hi) / 2)
      let b ← Task.lift (if right then lt x y else lt y x)
      if b = right then bisectLoop lt right get x rounds lo ((lo + hi) / 2)
      else bisectLoop lt right get x rounds ((lo + hi) / 2 + 1) hi
    else pure lo

/-- `bisect_left(_maxes, x)`, `bisect_right(_maxes, x)` (In C; imported in sortedlist.py:20.) -/
def bisectMaxes (lt : κ → κ → Except PyErr Bool) (right : Bool) (x : κ) : Run α κ Nat := do
  let n ← see fun s => s.maxes.length
  bisectLoop lt right (fun i => Task.see fun s => fetch s.maxes i) x n 0 n

/-! ## Methods of both classes -/

/-- `_build_index` (sortedlist.py:626-692); see `Core.buildIndex`.  `log(-1, 2)` raises ValueError. -/
def buildIndex (ilog2 : Nat → Nat) : Run α κ Unit := do
  let row0 ← see fun s => s.lists.map fun a => (s.cell a).length
  if row0.length = 1 then
    assign fun s => { s with index := row0.map Int.ofNat }
    assign fun s => { s with offset := 0 }
  else
    let row1 := Core.pairSums row0
    let row1 := if row0.length % 2 = 1 then row1 ++ row0.getLast?.toList else row1
    if row1.length = 1 then
      assign fun s => { s with index := (row1 ++ row0).map Int.ofNat }
      assign fun s => { s with offset := 1 }
    else if row1.length = 0 then Task.raise .valueError
    else
      let size := 2 ^ (ilog2 (row1.length - 1) + 1)
      let row1 := row1 ++ List.replicate (size - row1.length) 0
      let tree := Core.growTree [row0, row1] row1
      assign fun s => { s with index := s.index ++ tree.reverse.flatten.map Int.ofNat }
      assign fun s => { s with offset := size * 2 - 1 }

/-- `if not _index: self._build_index()` (sortedlist.py:509-510, 606-607) -/
def ensureIndex (ilog2 : Nat → Nat) : Run α κ Unit := do
  let i ← see Shared.index
  if i = [] then buildIndex ilog2 else pure ()

/-- The loop of `_loc` (sortedlist.py:520-529).  It goes round at most `pos` times. -/
def locLoop : (rounds pos : Nat) → (total : Int) → Run α κ Int
  | 0, _, total => pure total
  | rounds + 1, pos, total =>
    if pos = 0 then pure total
    else if pos % 2 = 0 then do
      let x ← Task.see fun s => fetch s.index (pos - 1 : Nat)
      locLoop rounds ((pos - 1) / 2) (total + x)
    else locLoop rounds ((pos - 1) / 2) total

/-- `_loc` (sortedlist.py:454-531) -/
def loc (ilog2 : Nat → Nat) (pos idx : Nat) : Run α κ Int :=
  if pos = 0 then pure idx
  else do
    ensureIndex ilog2
    let o ← see Shared.offset
    let total ← locLoop (pos + o) (pos + o) 0
    pure (total + idx)

/-- The loop of `_pos` (sortedlist.py:613-622).  `child` grows, so it goes round at most `lenIndex` times. -/
def posLoop (lenIndex : Nat) : (rounds pos child : Nat) → (idx : Int) → Run α κ (Nat × Int)
  | 0, pos, _, idx => pure (pos, idx)
  | rounds + 1, pos, child, idx =>
    if child < lenIndex then do
      let x ← Task.see fun s => fetch s.index child
      if idx < x then posLoop lenIndex rounds child (2 * child + 1) idx
      else posLoop lenIndex rounds (child + 1) (2 * (child + 1) + 1) (idx - x)
    else pure (pos, idx)

/-- `_pos` from line 602 on -/
def posNonneg (ilog2 : Nat → Nat) (idx : Int) : Run α κ (Int × Int) := do
  let a ← sublist 0
  let n ← see fun s => (s.cell a).length
  if idx < n then pure (0, idx)
  else
    ensureIndex ilog2
    let lenIndex ← see fun s => s.index.length
    let r ← posLoop lenIndex lenIndex 0 1 idx
    let o ← see Shared.offset
    pure ((r.1 : Int) - o, r.2)

/-- `_pos` (sortedlist.py:533-624) -/
def pos (ilog2 : Nat → Nat) (idx : Int) : Run α κ (Int × Int) :=
  if idx < 0 then do
    let a ← sublist (-1)
    let lastLen ← see fun s => (s.cell a).length
    if -idx ≤ lastLen then
      let n ← see fun s => s.lists.length
      pure ((n : Int) - 1, lastLen + idx)
    else
      let n ← see Shared.len
      if idx + n < 0 then Task.raise .indexError else posNonneg ilog2 (idx + n)
  else do
    let n ← see Shared.len
    if n ≤ idx then Task.raise .indexError else posNonneg ilog2 idx

/-- `__getitem__` with an integer, from line 824 on -/
def getFar (ilog2 : Nat → Nat) (index : Int) : Run α κ α := do
  let a ← sublist (-1)
  let n ← see fun s => (s.cell a).length
  if -(n : Int) < index ∧ index < 0 then
    let a ← sublist (-1)
    entry a (n + index)
  else
    let r ← pos ilog2 index
    let a ← sublist r.1
    entry a r.2

/-- `__getitem__` with an integer (sortedlist.py:811-830) -/
def getInt (ilog2 : Nat → Nat) (index : Int) : Run α κ α := do
  let n ← see Shared.len
  if n = 0 then Task.raise .indexError
  else if index = 0 then
    let a ← sublist 0
    entry a 0
  else if index = -1 then
    let a ← sublist (-1)
    entry a (-1)
  else if 0 ≤ index then
    let a ← sublist 0
    let m ← see fun s => (s.cell a).length
    if index < m then
      let a ← sublist 0
      entry a index
    else getFar ilog2 index
  else getFar ilog2 index

/-- `__len__` (sortedlist.py:1075-1083); `len()` raises ValueError if it is negative. -/
def length : Run α κ Int := Task.see fun s => if s.len < 0 then .error .valueError else .ok s.len

/-- `list(sl)`: `__iter__` (sortedlist.py:847-856), the iterator consumed by a function written in C -/
def toList : Run α κ (List α) := see Shared.contents

/-- `list(reversed(sl))`: `__reversed__` (sortedlist.py:858-867), the iterator consumed by a function written in C -/
def reversed : Run α κ (List α) := see fun s => s.contents.reverse

/-- `l[i:j]`; `none` is an omitted bound.  (Python's own, called by the code of /repo.) -/
def cut (l : List β) (i j : Option Int) : List β :=
  match PySlice.indices { start := i, stop := j } l.length with
  | .ok (a, b, _) => subList l a.toNat b.toNat
  | .error _ => []

/-- `sl.indices(self._len)`, which raises ValueError if the length is negative (Python's own, called by the code of /repo.) -/
def indices (sl : PySlice) : Run α κ (Int × Int × Int) := Task.see fun s => if s.len < 0 then .error .valueError else sl.indices s.len.toNat

/-- `c and ...`, where only the second operand needs an access (Scaffolding of the model: no code of /repo.) -/
def seeIf (c : Prop) [Decidable c] (f : Shared α κ → Bool) : Run α κ Bool := if c then see f else pure false

/-- `[f(x) for x in xs]` (Python's own, called by the code of /repo.) -/
def mapEach (f : β → Run α κ γ) : List β → Run α κ (List γ)
  | [] => pure []
  | x :: xs => do
    let y ← f x
    let ys ← mapEach f xs
    pure (y :: ys)

/-- Where a slice ends that starts in another sublist (sortedlist.py:789-793); `len` is `self._len`. -/
def sliceEnd (ilog2 : Nat → Nat) (stop len : Int) : Run α κ (Int × Int) :=
  if stop = len then do
    let k ← see fun s => s.lists.length
    let b ← sublist ((k : Int) - 1)
    let m ← see fun s => (s.cell b).length
    pure ((k : Int) - 1, (m : Int))
  else pos ilog2 stop

/-- `__getitem__` with a slice, the branch `step == 1 and start < stop`, from line 779 on -/
def getSliceFar (ilog2 : Nat → Nat) (start stop : Int) : Run α κ (List α) := do
  let r ← pos ilog2 start
  let a ← sublist r.1
  let n ← see fun s => (s.cell a).length
  if r.2 + stop - start ≤ n then see fun s => cut (s.cell a) (some r.2) (some (r.2 + stop - start))
  else
    let len ← see Shared.len
    let e ← sliceEnd ilog2 stop len
    let a ← sublist r.1
    let pre ← see fun s => cut (s.cell a) (some r.2) none
    let middle ← see fun s => cut s.lists (some (r.1 + 1)) (some e.1)
    let mid ← see fun s => middle.flatMap s.cell
    let b ← sublist e.1
    let post ← see fun s => cut (s.cell b) none (some e.2)
    pure (pre ++ mid ++ post)

/-- `__getitem__` with a slice, the branch `step == 1 and start < stop` (sortedlist.py:773-800) -/
def getSliceFwd (ilog2 : Nat → Nat) (start stop : Int) : Run α κ (List α) := do
  let whole ← seeIf (start = 0) fun s => decide (stop = s.len)
  if whole then toList else getSliceFar ilog2 start stop

/-- `self._getitem(slice(start, stop))`; see `Core.getSliceStep1` (sortedlist.py:722-724, 803.) -/
def getSliceStep1 (ilog2 : Nat → Nat) (start stop : Option Int) : Run α κ (List α) := do
  let r ← indices { start := start, stop := stop }
  if r.2.2 = 1 ∧ r.1 < r.2.1 then getSliceFwd ilog2 r.1 r.2.1
  else mapEach (getInt ilog2) (pyRange r.1 r.2.1 r.2.2)

/-- `__getitem__` with a slice (sortedlist.py:769-812) -/
def getSlice (ilog2 : Nat → Nat) (sl : PySlice) : Run α κ (List α) := do
  let r ← indices sl
  if r.2.2 = 1 ∧ r.1 < r.2.1 then getSliceFwd ilog2 r.1 r.2.1
  else if r.2.2 = -1 ∧ r.1 > r.2.1 then
    let l ← getSliceStep1 ilog2 (some (r.2.1 + 1)) (some (r.1 + 1))
    pure l.reverse
  else mapEach (getInt ilog2) (pyRange r.1 r.2.1 r.2.2)

/-- `list(range(a, b))` (Python's own, called by the code of /repo.) -/
def span (a b : Int) : List Int := (List.range (b - a).toNat).map fun (i : Nat) => a + i

/-- `list(map(l.__getitem__, is))` (Python's own, called by the code of /repo.) -/
def fetches (l : List β) (is : List Int) : Except PyErr (List β) := mapE (fetch l) is

/-- `list(self._islice(...))` (sortedlist.py:931-992).  The method looks up the first and the last sublist; the iterator that it returns is consumed by a function written in C. -/
def islicePos (minPos minIdx maxPos maxIdx : Int) (reverse : Bool) : Run α κ (List α) :=
  if minPos > maxPos then pure []
  else if minPos = maxPos then do
    let a ← sublist minPos
    Task.see fun s => fetches (s.cell a) (if reverse then (span minIdx maxIdx).reverse else span minIdx maxIdx)
  else do
    let a ← sublist minPos
    let n ← see fun s => (s.cell a).length
    if reverse then
      let b ← sublist maxPos
      let a ← sublist minPos
      Task.see fun s => do
        let xs ← fetches (s.cell b) (span 0 maxIdx).reverse
        let subs ← fetches s.lists (span (minPos + 1) maxPos).reverse
        let ys ← fetches (s.cell a) (span minIdx n).reverse
        .ok (xs ++ subs.flatMap (fun c => (s.cell c).reverse) ++ ys)
    else
      let a ← sublist minPos
      let b ← sublist maxPos
      Task.see fun s => do
        let xs ← fetches (s.cell a) (span minIdx n)
        let subs ← fetches s.lists (span (minPos + 1) maxPos)
        let ys ← fetches (s.cell b) (span 0 maxIdx)
        .ok (xs ++ subs.flatMap s.cell ++ ys)

/-- Where `islice` ends (sortedlist.py:923-927); `len` is the local `_len`. -/
def isliceEnd (ilog2 : Nat → Nat) (stop len : Int) : Run α κ (Int × Int) :=
  if stop = len then do
    let k ← see fun s => s.lists.length
    let b ← sublist (-1)
    let m ← see fun s => (s.cell b).length
    pure ((k : Int) - 1, (m : Int))
  else pos ilog2 stop

/-- `list(sl.islice(start, stop, reverse))` (sortedlist.py:886-929) -/
def islice (ilog2 : Nat → Nat) (start stop : Option Int) (reverse : Bool) : Run α κ (List α) := do
  let len ← see Shared.len
  if len = 0 then pure []
  else
    let r ← indices { start := start, stop := stop }
    if r.1 ≥ r.2.1 then pure []
    else
      let p ← pos ilog2 r.1
      let q ← isliceEnd ilog2 r.2.1 len
      islicePos p.1 p.2 q.1 q.2 reverse

/-- The values after a slice that is deleted (sortedlist.py:723-724); `len` is `self._len`. -/
def getRest (ilog2 : Nat → Nat) (stop len : Int) : Run α κ (List α) := if stop < len then getSliceStep1 ilog2 (some stop) none else pure []

/-- `__delitem__` with a slice (sortedlist.py:715-740), with the methods of the class -/
def delSliceWith (ilog2 : Nat → Nat) (clear : Run α κ Unit) (update : List α → Run α κ Unit) (delInt : Int → Run α κ Unit) (sl : PySlice) : Run α κ Unit := do
  let r ← indices sl
  let whole ← seeIf (r.2.2 = 1 ∧ r.1 < r.2.1 ∧ r.1 = 0) fun s => decide (r.2.1 = s.len)
  if whole then clear
  else
    let most ← seeIf (r.2.2 = 1 ∧ r.1 < r.2.1) fun s => decide (s.len ≤ 8 * (r.2.1 - r.1))
    if most then
      let values ← getSliceStep1 ilog2 none (some r.1)
      let len ← see Shared.len
      let rest ← getRest ilog2 r.2.1 len
      clear
      update (values ++ rest)
    else
      let indices := pyRange r.1 r.2.1 r.2.2
      Task.forEach delInt (if r.2.2 > 0 then indices.reverse else indices)

/-- The normalised `start` and `stop` of `index` (sortedlist.py:1323-1335, 2336-2348) -/
def indexBounds (len : Int) (start stop : Option Int) : Int × Int :=
  let start := start.getD 0
  let start := if start < 0 then start + len else start
  let start := if start < 0 then 0 else start
  let stop := stop.getD len
  let stop := if stop < 0 then stop + len else stop
  let stop := if stop > len then len else stop
  (start, stop)

/-- The last part of `irange` and `irange_key` (sortedlist.py:1052-1071, 2105-2124): the upper end; `bisectCell` searches the sublist at a position, `size` is its length. -/
def irangeTop (lt : κ → κ → Except PyErr Bool) (bisectCell : Bool → Nat → κ → Run α κ Nat) (size : Int → Run α κ Nat) (maximum : Option κ) (incMax : Bool) : Run α κ (Int × Int) :=
  match maximum with
  | none => do
    let k ← see fun s => s.maxes.length
    let n ← size ((k : Int) - 1)
    pure ((k : Int) - 1, (n : Int))
  | some m => do
    let p ← bisectMaxes lt incMax m
    let k ← see fun s => s.maxes.length
    if p = k then
      let n ← size ((p : Int) - 1)
      pure ((p : Int) - 1, (n : Int))
    else
      let i ← bisectCell incMax p m
      pure ((p : Int), (i : Int))

/-- `list(sl.irange(...))`, `list(sl.irange_key(...))` (sortedlist.py:994-1073, 2044-2128) -/
def irangeWith (lt : κ → κ → Except PyErr Bool) (bisectCell : Bool → Nat → κ → Run α κ Nat) (size : Int → Run α κ Nat) (minimum maximum : Option κ) (incMin incMax reverse : Bool) :
    Run α κ (List α) := do
  let m ← see Shared.maxes
  if m = [] then pure []
  else
    match minimum with
    | none => do
      let q ← irangeTop lt bisectCell size maximum incMax
      islicePos 0 0 q.1 q.2 reverse
    | some m => do
      let p ← bisectMaxes lt (!incMin) m
      let k ← see fun s => s.maxes.length
      if p = k then pure []
      else
        let i ← bisectCell (!incMin) p m
        let q ← irangeTop lt bisectCell size maximum incMax
        islicePos p i q.1 q.2 reverse

/-- `while child > 0: _index[child] += d; child = (child - 1) >> 1` (sortedlist.py:256-258, 430-432, 1754-1756, 1981-1983).  It goes round at most `child` times. -/
def climb (d : Int) : (rounds : Nat) → (child : Int) → Run α κ Unit
  | 0, _ => pure ()
  | rounds + 1, child =>
    if 0 < child then do
      bump d child
      climb d rounds ((child - 1) / 2)
    else pure ()

/-- The loop `while child: _index[child] += 1; child = (child - 1) >> 1` for a negative `child`, which stays negative (sortedlist.py:256-258, 1754-1756): it goes on until an access fails. -/
def sink : (fuel : Nat) → (child : Int) → Run α κ Unit
  | 0, _ => .spin
  | fuel + 1, child => do
    bump 1 child
    sink fuel ((child - 1) / 2)

/-- `while child: ...; _index[0] += 1` (sortedlist.py:256-259, 1754-1757) -/
def bumpUp (fuel : Nat) (child : Int) : Run α κ Unit :=
  if child < 0 then sink fuel child
  else do
    climb 1 child.toNat child
    bump 1 0

/-- `while child > 0: ...; _index[0] -= 1` (sortedlist.py:430-433, 1981-1984) -/
def bumpDown (child : Int) : Run α κ Unit := do
  climb (-1) child.toNat child
  bump (-1) 0

/-- `if _index: child = self._offset + pos; ...` (sortedlist.py:254-259, 1752-1757) -/
def touchUp (fuel : Nat) (pos : Int) : Run α κ Unit := do
  let i ← see Shared.index
  if i = [] then pure ()
  else
    let o ← see Shared.offset
    bumpUp fuel (o + pos)

/-- `if _index: child = self._offset + pos; ...` (sortedlist.py:428-433, 1979-1984) -/
def touchDown (pos : Int) : Run α κ Unit := do
  let i ← see Shared.index
  if i = [] then pure ()
  else
    let o ← see Shared.offset
    bumpDown (o + pos)

/-- `_lists.extend(values[pos : (pos + _load)] for pos in range(0, len(values), _load))` (sortedlist.py:291-293, 1791-1793), one sublist at a time -/
def addLists (chunks : List (List α)) : Run α κ Unit := Task.forEach (fun c => do
  let a ← alloc fun _ => c
  assign fun s => { s with lists := s.lists ++ [a] }) chunks

/-! ## SortedList -/

namespace SL

/-- `bisect_left(l, x)`, `bisect_right(l, x)` for the sublist `l` at address `a` (In C; imported in sortedlist.py:20.) -/
def bisectCell (E : Env α) (right : Bool) (a : Nat) (x : α) : Run α α Nat := do
  let n ← see fun s => (s.cell a).length
  bisectLoop E.lt right (fun i => entry a i) x n 0 n

/-- `clear` (sortedlist.py:179-189) -/
def clear : Run α α Unit := do
  assign fun s => { s with len := 0 }
  assign fun s => { s with lists := [] }
  assign fun s => { s with maxes := [] }
  dropIndex
  assign fun s => { s with offset := 0 }

/-- `_expand` (sortedlist.py:228-259) -/
def expand (fuel : Nat) (pos : Int) : Run α α Unit := do
  let load ← see Shared.load
  let a ← sublist pos
  let n ← see fun s => (s.cell a).length
  if n > load * 2 then
    let a ← sublist pos
    let h ← alloc fun s => (s.cell a).drop load
    alter a fun l => l.take load
    let m ← entry a (-1)
    setMax pos m
    assign fun s => { s with lists := insert s.lists (pos + 1) h }
    let m ← entry h (-1)
    assign fun s => { s with maxes := insert s.maxes (pos + 1) m }
    dropIndex
  else touchUp fuel pos

/-- `add` (sortedlist.py:193-226) -/
def add (E : Env α) (fuel : Nat) (value : α) : Run α α Unit := do
  let m ← see Shared.maxes
  if m = [] then
    let a ← alloc fun _ => [value]
    assign fun s => { s with lists := s.lists ++ [a] }
    assign fun s => { s with maxes := s.maxes ++ [value] }
    addLen 1
  else
    let pos ← bisectMaxes E.lt true value
    let n ← see fun s => s.maxes.length
    if pos = n then
      let pos : Int := pos - 1
      let a ← sublist pos
      alter a fun l => l ++ [value]
      setMax pos value
      expand fuel pos
      addLen 1
    else
      let a ← sublist pos
      let i ← bisectCell E true a value
      alter a fun l => insert l i value
      expand fuel pos
      addLen 1

/-- `_maxes.extend(sublist[-1] for sublist in _lists)` (sortedlist.py:294): the generator holds an iterator over `_lists`, at position `i`. -/
def addMaxes : (fuel i : Nat) → Run α α Unit
  | 0, _ => .spin
  | fuel + 1, i => do
    let a ← see fun s => s.lists[i]?
    match a with
    | none => pure ()
    | some a =>
      let m ← entry a (-1)
      assign fun s => { s with maxes := s.maxes ++ [m] }
      addMaxes fuel (i + 1)

/-- The end of `update` (sortedlist.py:290-296) -/
def fill (fuel : Nat) (values : List α) : Run α α Unit := do
  let load ← see Shared.load
  let subs ← Task.lift (Core.chunks load values)
  addLists subs
  addMaxes fuel 0
  assign fun s => { s with len := values.length }
  dropIndex

/-- `update` (sortedlist.py:261-296) -/
def update (E : Env α) (fuel : Nat) (xs : List α) : Run α α Unit := do
  let values ← Task.lift (E.sorted xs)
  let m ← see Shared.maxes
  if m = [] then fill fuel values
  else
    let n ← see Shared.len
    if n ≤ values.length * 4 then
      let a ← alloc fun _ => values
      assign fun s => { s with lists := s.lists ++ [a] }
      let all ← see Shared.contents
      let values ← Task.lift (E.sorted all)
      clear
      fill fuel values
    else Task.forEach (add E fuel) values

/-- `_delete` (sortedlist.py:400-452) -/
def delete (fuel : Nat) (pos idx : Int) : Run α α Unit := do
  let a ← sublist pos
  Task.change fun s => (fun l => s.put a l) <$> Race.remove (s.cell a) idx
  addLen (-1)
  let n ← see fun s => (s.cell a).length
  let load ← see Shared.load
  if n > load / 2 then
    let m ← entry a (-1)
    setMax pos m
    touchDown pos
  else
    let k ← see fun s => s.lists.length
    if k > 1 then
      let pos := if pos = 0 then pos + 1 else pos
      let prev := pos - 1
      let b ← sublist prev
      let c ← sublist pos
      assign fun s => s.put b (s.cell b ++ s.cell c)
      let b ← sublist prev
      let m ← entry b (-1)
      setMax prev m
      dropList pos
      dropMax pos
      dropIndex
      expand fuel prev
    else if n ≠ 0 then
      let m ← entry a (-1)
      setMax pos m
    else
      dropList pos
      dropMax pos
      dropIndex

/-- `__contains__` (sortedlist.py:300-328) -/
def contains (E : Env α) (value : α) : Run α α Bool := do
  let m ← see Shared.maxes
  if m = [] then pure false
  else
    let pos ← bisectMaxes E.lt false value
    let n ← see fun s => s.maxes.length
    if pos = n then pure false
    else
      let a ← sublist pos
      let idx ← bisectCell E false a value
      let a ← sublist pos
      let x ← entry a idx
      Task.lift (E.cmp .eq x value)

/-- `discard` (sortedlist.py:330-360) -/
def discard (E : Env α) (fuel : Nat) (value : α) : Run α α Unit := do
  let m ← see Shared.maxes
  if m = [] then pure ()
  else
    let pos ← bisectMaxes E.lt false value
    let n ← see fun s => s.maxes.length
    if pos = n then pure ()
    else
      let a ← sublist pos
      let idx ← bisectCell E false a value
      let a ← sublist pos
      let x ← entry a idx
      let b ← Task.lift (E.cmp .eq x value)
      if b then delete fuel pos idx else pure ()

/-- `remove` (sortedlist.py:362-398) -/
def remove (E : Env α) (fuel : Nat) (value : α) : Run α α Unit := do
  let m ← see Shared.maxes
  if m = [] then Task.raise .valueError
  else
    let pos ← bisectMaxes E.lt false value
    let n ← see fun s => s.maxes.length
    if pos = n then Task.raise .valueError
    else
      let a ← sublist pos
      let idx ← bisectCell E false a value
      let a ← sublist pos
      let x ← entry a idx
      let b ← Task.lift (E.cmp .eq x value)
      if b then delete fuel pos idx else Task.raise .valueError

/-- `__delitem__` with an integer (sortedlist.py:742-743) -/
def delInt (E : Env α) (fuel : Nat) (index : Int) : Run α α Unit := do
  let r ← pos E.ilog2 index
  delete fuel r.1 r.2

/-- `val = _lists[pos][idx]; self._delete(pos, idx); return val` (sortedlist.py:1263-1288.) -/
def take (fuel : Nat) (pos idx : Int) : Run α α α := do
  let a ← sublist pos
  let x ← entry a idx
  delete fuel pos idx
  pure x

/-- `pop`, from line 1276 on -/
def popFar (E : Env α) (fuel : Nat) (index : Int) : Run α α α := do
  let a ← sublist (-1)
  let n ← see fun s => (s.cell a).length
  if -(n : Int) < index ∧ index < 0 then
    let k ← see fun s => s.lists.length
    take fuel ((k : Int) - 1) (n + index)
  else
    let r ← pos E.ilog2 index
    take fuel r.1 r.2

/-- `pop` (sortedlist.py:1231-1288) -/
def pop (E : Env α) (fuel : Nat) (index : Int) : Run α α α := do
  let n ← see Shared.len
  if n = 0 then Task.raise .indexError
  else if index = 0 then take fuel 0 0
  else if index = -1 then
    let k ← see fun s => s.lists.length
    let a ← sublist ((k : Int) - 1)
    let m ← see fun s => (s.cell a).length
    take fuel ((k : Int) - 1) ((m : Int) - 1)
  else if 0 ≤ index then
    let a ← sublist 0
    let m ← see fun s => (s.cell a).length
    if index < m then take fuel 0 index else popFar E fuel index
  else popFar E fuel index

/-- `bisect_left`, `bisect_right` (sortedlist.py:1085-1145) -/
def bisect (E : Env α) (right : Bool) (value : α) : Run α α Int := do
  let m ← see Shared.maxes
  if m = [] then pure 0
  else
    let pos ← bisectMaxes E.lt right value
    let n ← see fun s => s.maxes.length
    if pos = n then see Shared.len
    else
      let a ← sublist pos
      let idx ← bisectCell E right a value
      loc E.ilog2 pos idx

/-- `count` (sortedlist.py:1150-1187) -/
def count (E : Env α) (value : α) : Run α α Int := do
  let m ← see Shared.maxes
  if m = [] then pure 0
  else
    let posLeft ← bisectMaxes E.lt false value
    let n ← see fun s => s.maxes.length
    if posLeft = n then pure 0
    else
      let a ← sublist posLeft
      let idxLeft ← bisectCell E false a value
      let posRight ← bisectMaxes E.lt true value
      let n ← see fun s => s.maxes.length
      if posRight = n then
        let len ← see Shared.len
        let l ← loc E.ilog2 posLeft idxLeft
        pure (len - l)
      else
        let a ← sublist posRight
        let idxRight ← bisectCell E true a value
        if posLeft = posRight then pure ((idxRight : Int) - idxLeft)
        else
          let right ← loc E.ilog2 posRight idxRight
          let left ← loc E.ilog2 posLeft idxLeft
          pure (right - left)

/-- `__delitem__` with a slice (sortedlist.py:715-740) -/
def delSlice (E : Env α) (fuel : Nat) (sl : PySlice) : Run α α Unit := delSliceWith E.ilog2 clear (update E fuel) (delInt E fuel) sl

/-- `list(sl.irange(...))` (sortedlist.py:994-1073) -/
def irange (E : Env α) (minimum maximum : Option α) (incMin incMax reverse : Bool) : Run α α (List α) :=
  irangeWith E.lt (fun right pos x => do
    let a ← sublist pos
    bisectCell E right a x) (fun pos => do
    let a ← sublist pos
    see fun s => (s.cell a).length) minimum maximum incMin incMax reverse

/-- `index` (sortedlist.py:1290-1364) -/
def index (E : Env α) (value : α) (start stop : Option Int) : Run α α Int := do
  let len ← see Shared.len
  if len = 0 then Task.raise .valueError
  else
    let w := indexBounds len start stop
    if w.2 ≤ w.1 then Task.raise .valueError
    else
      let posLeft ← bisectMaxes E.lt false value
      let n ← see fun s => s.maxes.length
      if posLeft = n then Task.raise .valueError
      else
        let a ← sublist posLeft
        let idxLeft ← bisectCell E false a value
        let a ← sublist posLeft
        let x ← entry a idxLeft
        let ne ← Task.lift (E.cmp .ne x value)
        if ne then Task.raise .valueError
        else
          let left ← loc E.ilog2 posLeft idxLeft
          if w.1 ≤ left then
            if left ≤ w.2 - 1 then pure left else Task.raise .valueError
          else
            let right ← bisect E true value
            if w.1 ≤ right - 1 then pure w.1 else Task.raise .valueError

end SL

/-! ## SortedKeyList -/

namespace SKL

/-- `bisect_left(l, x)`, `bisect_right(l, x)` for the list of keys `l` at address `a` (In C; imported in sortedlist.py:20.) -/
def bisectCell (K : KEnv α κ) (right : Bool) (a : Nat) (x : κ) : Run α κ Nat := do
  let n ← see fun s => (s.kcell a).length
  bisectLoop K.lt right (fun i => kentry a i) x n 0 n

/-- `clear` (sortedlist.py:1664-1674) -/
def clear : Run α κ Unit := do
  assign fun s => { s with len := 0 }
  assign fun s => { s with lists := [] }
  assign fun s => { s with keys := [] }
  assign fun s => { s with maxes := [] }
  dropIndex

/-- `_expand` (sortedlist.py:1721-1757) -/
def expand (fuel : Nat) (pos : Int) : Run α κ Unit := do
  let b ← subkeys pos
  let n ← see fun s => (s.kcell b).length
  let load ← see Shared.load
  if n > load * 2 then
    let load ← see Shared.load
    let a ← sublist pos
    let b ← subkeys pos
    let h ← alloc fun s => (s.cell a).drop load
    let hk ← kalloc fun s => (s.kcell b).drop load
    alter a fun l => l.take load
    kalter b fun l => l.take load
    let m ← kentry b (-1)
    setMax pos m
    assign fun s => { s with lists := insert s.lists (pos + 1) h }
    assign fun s => { s with keys := insert s.keys (pos + 1) hk }
    let m ← kentry hk (-1)
    assign fun s => { s with maxes := insert s.maxes (pos + 1) m }
    dropIndex
  else touchUp fuel pos

/-- `add` (sortedlist.py:1678-1719) -/
def add (K : KEnv α κ) (fuel : Nat) (value : α) : Run α κ Unit := do
  let key ← Task.lift (K.key value)
  let m ← see Shared.maxes
  if m = [] then
    let a ← alloc fun _ => [value]
    assign fun s => { s with lists := s.lists ++ [a] }
    let b ← kalloc fun _ => [key]
    assign fun s => { s with keys := s.keys ++ [b] }
    assign fun s => { s with maxes := s.maxes ++ [key] }
    addLen 1
  else
    let pos ← bisectMaxes K.lt true key
    let n ← see fun s => s.maxes.length
    if pos = n then
      let pos : Int := pos - 1
      let a ← sublist pos
      alter a fun l => l ++ [value]
      let b ← subkeys pos
      kalter b fun l => l ++ [key]
      setMax pos key
      expand fuel pos
      addLen 1
    else
      let b ← subkeys pos
      let i ← bisectCell K true b key
      let a ← sublist pos
      alter a fun l => insert l i value
      let b ← subkeys pos
      kalter b fun l => insert l i key
      expand fuel pos
      addLen 1

/-- `list(map(self._key, _list))` (sortedlist.py:1794) for the sublist at address `a`: the iterator is at position `i`, `acc` are the keys so far. -/
def mapKeys (K : KEnv α κ) (a : Nat) : (fuel i : Nat) → (acc : List κ) → Run α κ (List κ)
  | 0, _, _ => .spin
  | fuel + 1, i, acc => do
    let x ← see fun s => (s.cell a)[i]?
    match x with
    | none => pure acc
    | some x =>
      let k ← Task.lift (K.key x)
      mapKeys K a fuel (i + 1) (acc ++ [k])

/-- `_keys.extend(list(map(self._key, _list)) for _list in _lists)` (sortedlist.py:1794): the generator holds an iterator over `_lists`, at position `i`. -/
def addKeys (K : KEnv α κ) : (fuel i : Nat) → Run α κ Unit
  | 0, _ => .spin
  | fuel + 1, i => do
    let a ← see fun s => s.lists[i]?
    match a with
    | none => pure ()
    | some a =>
      let ks ← mapKeys K a fuel 0 []
      let b ← kalloc fun _ => ks
      assign fun s => { s with keys := s.keys ++ [b] }
      addKeys K fuel (i + 1)

/-- `_maxes.extend(sublist[-1] for sublist in _keys)` (sortedlist.py:1795): the generator holds an iterator over `_keys`, at position `i`. -/
def addMaxes : (fuel i : Nat) → Run α κ Unit
  | 0, _ => .spin
  | fuel + 1, i => do
    let b ← see fun s => s.keys[i]?
    match b with
    | none => pure ()
    | some b =>
      let m ← kentry b (-1)
      assign fun s => { s with maxes := s.maxes ++ [m] }
      addMaxes fuel (i + 1)

/-- The end of `update` (sortedlist.py:1790-1797) -/
def fill (K : KEnv α κ) (fuel : Nat) (values : List α) : Run α κ Unit := do
  let load ← see Shared.load
  let subs ← Task.lift (Core.chunks load values)
  addLists subs
  addKeys K fuel 0
  addMaxes fuel 0
  assign fun s => { s with len := values.length }
  dropIndex

/-- `update` (sortedlist.py:1759-1797) -/
def update (K : KEnv α κ) (fuel : Nat) (xs : List α) : Run α κ Unit := do
  let values ← Task.lift (K.sortedByKey xs)
  let m ← see Shared.maxes
  if m = [] then fill K fuel values
  else
    let n ← see Shared.len
    if n ≤ values.length * 4 then
      let a ← alloc fun _ => values
      assign fun s => { s with lists := s.lists ++ [a] }
      let all ← see Shared.contents
      let values ← Task.lift (K.sortedByKey all)
      clear
      fill K fuel values
    else Task.forEach (add K fuel) values

/-- `_delete` (sortedlist.py:1949-2006) -/
def delete (fuel : Nat) (pos idx : Int) : Run α κ Unit := do
  let b ← subkeys pos
  let a ← sublist pos
  Task.change fun s => (fun l => s.kput b l) <$> Race.remove (s.kcell b) idx
  Task.change fun s => (fun l => s.put a l) <$> Race.remove (s.cell a) idx
  addLen (-1)
  let n ← see fun s => (s.kcell b).length
  let load ← see Shared.load
  if n > load / 2 then
    let m ← kentry b (-1)
    setMax pos m
    touchDown pos
  else
    let k ← see fun s => s.keys.length
    if k > 1 then
      let pos := if pos = 0 then pos + 1 else pos
      let prev := pos - 1
      let b ← subkeys prev
      let c ← subkeys pos
      assign fun s => s.kput b (s.kcell b ++ s.kcell c)
      let a ← sublist prev
      let c ← sublist pos
      assign fun s => s.put a (s.cell a ++ s.cell c)
      let b ← subkeys prev
      let m ← kentry b (-1)
      setMax prev m
      dropList pos
      dropKeys pos
      dropMax pos
      dropIndex
      expand fuel prev
    else if n ≠ 0 then
      let m ← kentry b (-1)
      setMax pos m
    else
      dropList pos
      dropKeys pos
      dropMax pos
      dropIndex

/-- The loop of `__contains__`, `discard` and `remove` (sortedlist.py:1835-1847, 1883-1895, 1935-1947): where the value is found.  It goes on as long as another thread keeps
putting entries behind it. -/
def find (K : KEnv α κ) (key : κ) (value : α) (lenKeys : Nat) : (fuel pos idx lenSublist : Nat) → Run α κ (Option (Nat × Nat))
  | 0, _, _, _ => .spin
  | fuel + 1, pos, idx, lenSublist => do
    let b ← subkeys pos
    let k ← kentry b idx
    let ne ← Task.lift (K.kcmp .ne k key)
    if ne then pure none
    else
      let a ← sublist pos
      let x ← entry a idx
      let eq ← Task.lift (K.vcmp .eq x value)
      if eq then pure (some (pos, idx))
      else if idx + 1 = lenSublist then
        if pos + 1 = lenKeys then pure none
        else
          let b ← subkeys (pos + 1 : Nat)
          let m ← see fun s => (s.kcell b).length
          find K key value lenKeys fuel (pos + 1) 0 m
      else find K key value lenKeys fuel pos (idx + 1) lenSublist

/-- What `__contains__`, `discard` and `remove` have in common (sortedlist.py:1815-1847, 1864-1895, 1916-1947) -/
def search (K : KEnv α κ) (fuel : Nat) (value : α) : Run α κ (Option (Nat × Nat)) := do
  let m ← see Shared.maxes
  if m = [] then pure none
  else
    let key ← Task.lift (K.key value)
    let pos ← bisectMaxes K.lt false key
    let n ← see fun s => s.maxes.length
    if pos = n then pure none
    else
      let b ← subkeys pos
      let idx ← bisectCell K false b key
      let lenKeys ← see fun s => s.keys.length
      let b ← subkeys pos
      let m ← see fun s => (s.kcell b).length
      find K key value lenKeys fuel pos idx m

/-- `__contains__` (sortedlist.py:1801-1847) -/
def contains (K : KEnv α κ) (fuel : Nat) (value : α) : Run α κ Bool := do
  let r ← search K fuel value
  match r with
  | some _ => pure true
  | none => pure false

/-- `discard` (sortedlist.py:1849-1895) -/
def discard (K : KEnv α κ) (fuel : Nat) (value : α) : Run α κ Unit := do
  let r ← search K fuel value
  match r with
  | some (pos, idx) => delete fuel pos idx
  | none => pure ()

/-- `remove` (sortedlist.py:1897-1947) -/
def remove (K : KEnv α κ) (fuel : Nat) (value : α) : Run α κ Unit := do
  let r ← search K fuel value
  match r with
  | some (pos, idx) => delete fuel pos idx
  | none => Task.raise .valueError

/-- `__delitem__` with an integer (sortedlist.py:742-743), inherited -/
def delInt (K : KEnv α κ) (fuel : Nat) (index : Int) : Run α κ Unit := do
  let r ← pos K.ilog2 index
  delete fuel r.1 r.2

/-- `val = _lists[pos][idx]; self._delete(pos, idx); return val` in `pop` (sortedlist.py:1263-1288.) -/
def take (fuel : Nat) (pos idx : Int) : Run α κ α := do
  let a ← sublist pos
  let x ← entry a idx
  delete fuel pos idx
  pure x

/-- `pop`, from line 1276 on, inherited -/
def popFar (K : KEnv α κ) (fuel : Nat) (index : Int) : Run α κ α := do
  let a ← sublist (-1)
  let n ← see fun s => (s.cell a).length
  if -(n : Int) < index ∧ index < 0 then
    let k ← see fun s => s.lists.length
    take fuel ((k : Int) - 1) (n + index)
  else
    let r ← pos K.ilog2 index
    take fuel r.1 r.2

/-- `pop` (sortedlist.py:1231-1288), inherited -/
def pop (K : KEnv α κ) (fuel : Nat) (index : Int) : Run α κ α := do
  let n ← see Shared.len
  if n = 0 then Task.raise .indexError
  else if index = 0 then take fuel 0 0
  else if index = -1 then
    let k ← see fun s => s.lists.length
    let a ← sublist ((k : Int) - 1)
    let m ← see fun s => (s.cell a).length
    take fuel ((k : Int) - 1) ((m : Int) - 1)
  else if 0 ≤ index then
    let a ← sublist 0
    let m ← see fun s => (s.cell a).length
    if index < m then take fuel 0 index else popFar K fuel index
  else popFar K fuel index

/-- `bisect_key_left`, `bisect_key_right` (sortedlist.py:2174-2207, 2209-2242) -/
def bisectKey (K : KEnv α κ) (right : Bool) (key : κ) : Run α κ Int := do
  let m ← see Shared.maxes
  if m = [] then pure 0
  else
    let pos ← bisectMaxes K.lt right key
    let n ← see fun s => s.maxes.length
    if pos = n then see Shared.len
    else
      let b ← subkeys pos
      let idx ← bisectCell K right b key
      loc K.ilog2 pos idx

/-- `bisect_left`, `bisect_right` (sortedlist.py:2130-2149, 2151-2170) -/
def bisect (K : KEnv α κ) (right : Bool) (value : α) : Run α κ Int := do
  let key ← Task.lift (K.key value)
  bisectKey K right key

/-- The loop of `count` (sortedlist.py:2276-2288) -/
def countLoop (K : KEnv α κ) (key : κ) (value : α) (lenKeys : Nat) : (fuel pos idx lenSublist : Nat) → (total : Int) → Run α κ Int
  | 0, _, _, _, _ => .spin
  | fuel + 1, pos, idx, lenSublist, total => do
    let b ← subkeys pos
    let k ← kentry b idx
    let ne ← Task.lift (K.kcmp .ne k key)
    if ne then pure total
    else
      let a ← sublist pos
      let x ← entry a idx
      let eq ← Task.lift (K.vcmp .eq x value)
      let total := if eq then total + 1 else total
      if idx + 1 = lenSublist then
        if pos + 1 = lenKeys then pure total
        else
          let b ← subkeys (pos + 1 : Nat)
          let m ← see fun s => (s.kcell b).length
          countLoop K key value lenKeys fuel (pos + 1) 0 m total
      else countLoop K key value lenKeys fuel pos (idx + 1) lenSublist total

/-- `count` (sortedlist.py:2245-2288) -/
def count (K : KEnv α κ) (fuel : Nat) (value : α) : Run α κ Int := do
  let m ← see Shared.maxes
  if m = [] then pure 0
  else
    let key ← Task.lift (K.key value)
    let pos ← bisectMaxes K.lt false key
    let n ← see fun s => s.maxes.length
    if pos = n then pure 0
    else
      let b ← subkeys pos
      let idx ← bisectCell K false b key
      let lenKeys ← see fun s => s.keys.length
      let b ← subkeys pos
      let m ← see fun s => (s.kcell b).length
      countLoop K key value lenKeys fuel pos idx m 0

/-- `__delitem__` with a slice (sortedlist.py:715-740), inherited -/
def delSlice (K : KEnv α κ) (fuel : Nat) (sl : PySlice) : Run α κ Unit := delSliceWith K.ilog2 clear (update K fuel) (delInt K fuel) sl

/-- `list(skl.irange_key(...))` (sortedlist.py:2044-2128) -/
def irangeKey (K : KEnv α κ) (minKey maxKey : Option κ) (incMin incMax reverse : Bool) : Run α κ (List α) :=
  irangeWith K.lt (fun right pos x => do
    let b ← subkeys pos
    bisectCell K right b x) (fun pos => do
    let b ← subkeys pos
    see fun s => (s.kcell b).length) minKey maxKey incMin incMax reverse

/-- `list(skl.irange(...))` (sortedlist.py:2008-2042) -/
def irange (K : KEnv α κ) (minimum maximum : Option α) (incMin incMax reverse : Bool) : Run α κ (List α) := do
  let minKey ← Task.lift (Verif.SKL.keyOpt K minimum)
  let maxKey ← Task.lift (Verif.SKL.keyOpt K maximum)
  irangeKey K minKey maxKey incMin incMax reverse

/-- One value in the loop of `index` (sortedlist.py:2370-2375); `some r` stands for `return r`. -/
def indexHit (ilog2 : Nat → Nat) (start stop : Int) (pos idx : Nat) (eq : Bool) : Run α κ (Option Int) :=
  if eq then do
    let l ← loc ilog2 pos idx
    if start ≤ l ∧ l ≤ stop then pure (some l)
    else if l > stop then Task.raise .valueError
    else pure none
  else pure none

/-- The loop of `index` (sortedlist.py:2367-2384); `stop` has already been decremented. -/
def indexLoop (K : KEnv α κ) (key : κ) (value : α) (start stop : Int) (lenKeys : Nat) : (fuel pos idx lenSublist : Nat) → Run α κ Int
  | 0, _, _, _ => .spin
  | fuel + 1, pos, idx, lenSublist => do
    let b ← subkeys pos
    let k ← kentry b idx
    let ne ← Task.lift (K.kcmp .ne k key)
    if ne then Task.raise .valueError
    else
      let a ← sublist pos
      let x ← entry a idx
      let eq ← Task.lift (K.vcmp .eq x value)
      let r ← indexHit K.ilog2 start stop pos idx eq
      match r with
      | some r => pure r
      | none =>
        if idx + 1 = lenSublist then
          if pos + 1 = lenKeys then Task.raise .valueError
          else
            let b ← subkeys (pos + 1 : Nat)
            let m ← see fun s => (s.kcell b).length
            indexLoop K key value start stop lenKeys fuel (pos + 1) 0 m
        else indexLoop K key value start stop lenKeys fuel pos (idx + 1) lenSublist

/-- `index` (sortedlist.py:2302-2384) -/
def index (K : KEnv α κ) (fuel : Nat) (value : α) (start stop : Option Int) : Run α κ Int := do
  let len ← see Shared.len
  if len = 0 then Task.raise .valueError
  else
    let w := indexBounds len start stop
    if w.2 ≤ w.1 then Task.raise .valueError
    else
      let key ← Task.lift (K.key value)
      let pos ← bisectMaxes K.lt false key
      let n ← see fun s => s.maxes.length
      if pos = n then Task.raise .valueError
      else
        let b ← subkeys pos
        let idx ← bisectCell K false b key
        let lenKeys ← see fun s => s.keys.length
        let b ← subkeys pos
        let m ← see fun s => (s.kcell b).length
        indexLoop K key value w.1 (w.2 - 1) lenKeys fuel pos idx m

end SKL
/-! ## New lists and comparisons -/

/-- A list iterator over `_lists`, and one over a sublist: `chain.from_iterable(self._lists)` (sortedlist.py:847-856).  `outer` is the position in `_lists` that comes next, `inner` the
address of the sublist that the iterator is in and the next position there.  (Both are Python's own.) -/
structure Cursor where
  outer : Nat
  inner : Option (Nat × Nat)

/-- `next` once the present sublist has no more values: the first value of the first of the sublists at the given addresses that is not empty
(sortedlist.py:847-856; Python's own, called by the code of /repo.) -/
def Shared.seek (s : Shared α κ) : List Nat → Nat → Option (α × Cursor)
  | [], _ => none
  | a :: as, i =>
    match s.cell a with
    | v :: _ => some (v, ⟨i + 1, some (a, 1)⟩)
    | [] => s.seek as (i + 1)

/-- `next` (sortedlist.py:847-856; Python's own, written in C, called by the code of /repo.) -/
def Shared.next (s : Shared α κ) (c : Cursor) : Option (α × Cursor) :=
  match c.inner with
  | none => s.seek (s.lists.drop c.outer) c.outer
  | some (a, i) =>
    match (s.cell a)[i]? with
    | some v => some (v, ⟨c.outer, some (a, i + 1)⟩)
    | none => s.seek (s.lists.drop c.outer) c.outer

/-- `seq_op(self_len, len_other)` (sortedlist.py:1475); nothing keeps `_len` from being negative. -/
def onLen (op : CmpOp) (n : Int) (m : Nat) : Bool :=
  match op with
  | .eq => n == m
  | .ne => n != m
  | .lt => n < m
  | .gt => (m : Int) < n
  | .le => n ≤ m
  | .ge => (m : Int) ≤ n

/-- `for alpha, beta in zip(self, other)` (sortedlist.py:1469-1475): `zip` asks `self` first, so that it takes one more value from it if `other` ends first. -/
def compareLoop (cmp : CmpOp → α → α → Except PyErr Bool) (op : CmpOp) (n : Int) (m : Nat) : List α → Cursor → Run α κ Bool
  | [], c => do
    let _ ← see fun s => s.next c
    pure (onLen op n m)
  | y :: ys, c => do
    let got ← see fun s => s.next c
    match got with
    | none => pure (onLen op n m)
    | some (x, c') => do
      let ne ← Task.lift (cmp .ne x y)
      if ne then Task.lift (cmp op x y) else compareLoop cmp op n m ys c'

/-- `__eq__`, `__ne__`, `__lt__`, `__gt__`, `__le__`, `__ge__` with a sequence that no other thread changes, given as the list of its values (sortedlist.py:1452-1475). -/
def compare (cmp : CmpOp → α → α → Except PyErr Bool) (op : CmpOp) (other : List α) : Run α κ Bool := do
  let n ← see fun s => s.len
  if n ≠ other.length ∧ op = .eq then pure false
  else if n ≠ other.length ∧ op = .ne then pure true
  else compareLoop cmp op n other.length other ⟨0, none⟩

/-- `copy`, `__copy__` (sortedlist.py:1189-1199): `sorted`, written in C, consumes the iterator; nobody else knows the new list.  Yields the values of the new list. -/
def SL.copy (E : Env α) : Run α α (List α) := do
  let values ← toList
  Task.lift (Core.iter <$> Verif.SL.new E (some values))

/-- `__add__`, `__radd__` (sortedlist.py:1366-1388).  Yields the values of the new list. -/
def SL.concat (E : Env α) (other : List α) : Run α α (List α) := do
  let values ← see Shared.contents
  Task.lift (Core.iter <$> Verif.SL.new E (some (values ++ other)))

/-- `__mul__`, `__rmul__` (sortedlist.py:1411-1429).  Yields the values of the new list. -/
def SL.mul (E : Env α) (num : Int) : Run α α (List α) := do
  let values ← see Shared.contents
  Task.lift (Core.iter <$> Verif.SL.new E (some (repeatList values num)))

/-- `copy` of a SortedKeyList (sortedlist.py:2290-2300) -/
def SKL.copy (K : KEnv α κ) : Run α κ (List α) := do
  let values ← toList
  Task.lift (Core.iter <$> Verif.SKL.new K (some values))

/-- `__add__`, `__radd__` of a SortedKeyList (sortedlist.py:2386-2409) -/
def SKL.concat (K : KEnv α κ) (other : List α) : Run α κ (List α) := do
  let values ← see Shared.contents
  Task.lift (Core.iter <$> Verif.SKL.new K (some (values ++ other)))

/-- `__mul__` of a SortedKeyList (sortedlist.py:2411-2428) -/
def SKL.mul (K : KEnv α κ) (num : Int) : Run α κ (List α) := do
  let values ← see Shared.contents
  Task.lift (Core.iter <$> Verif.SKL.new K (some (repeatList values num)))

/-- `__imul__` (sortedlist.py:1431-1450) -/
def SL.imul (E : Env α) (fuel : Nat) (num : Int) : Run α α Unit := do
  let values ← see Shared.contents
  SL.clear
  SL.update E fuel (repeatList values num)

/-- `_reset` (sortedlist.py:156-177) -/
def SL.reset (E : Env α) (fuel load : Nat) : Run α α Unit := do
  let values ← see Shared.contents
  SL.clear
  assign fun s => { s with load := load }
  SL.update E fuel values

/-- `__imul__` (sortedlist.py:1431-1450), inherited by SortedKeyList -/
def SKL.imul (K : KEnv α κ) (fuel : Nat) (num : Int) : Run α κ Unit := do
  let values ← see Shared.contents
  SKL.clear
  SKL.update K fuel (repeatList values num)

/-- `_reset` (sortedlist.py:156-177), inherited by SortedKeyList -/
def SKL.reset (K : KEnv α κ) (fuel load : Nat) : Run α κ Unit := do
  let values ← see Shared.contents
  SKL.clear
  assign fun s => { s with load := load }
  SKL.update K fuel values

/-- A call on a SortedList (Dispatch of the model: each call goes to the definition of its method, which cites its lines.) -/
def SL.step (E : Env α) (fuel : Nat) : Op α → Run α α (Out α)
  | .add v => (fun _ => .none) <$> SL.add E fuel v
  | .update xs => (fun _ => .none) <$> SL.update E fuel xs
  | .discard v => (fun _ => .none) <$> SL.discard E fuel v
  | .remove v => (fun _ => .none) <$> SL.remove E fuel v
  | .clear => (fun _ => .none) <$> SL.clear
  | .delInt i => (fun _ => .none) <$> SL.delInt E fuel i
  | .pop i => .val <$> SL.pop E fuel i
  | .contains v => .bool <$> SL.contains E v
  | .getInt i => .val <$> getInt E.ilog2 i
  | .bisectLeft v => .int <$> SL.bisect E false v
  | .bisectRight v => .int <$> SL.bisect E true v
  | .count v => .int <$> SL.count E v
  | .len => .int <$> length
  | .iter => .vals <$> toList
  | .reversed => .vals <$> reversed
  | .getSlice sl => .vals <$> getSlice E.ilog2 sl
  | .delSlice sl => (fun _ => .none) <$> SL.delSlice E fuel sl
  | .islice start stop reverse => .vals <$> islice E.ilog2 start stop reverse
  | .irange lo hi incMin incMax reverse => .vals <$> SL.irange E lo hi incMin incMax reverse
  | .index v start stop => .int <$> SL.index E v start stop
  | .iadd xs => (fun _ => .none) <$> SL.update E fuel xs
  | .compare op other => .bool <$> compare E.cmp op other
  | .copy => .vals <$> SL.copy E
  | .concat xs => .vals <$> SL.concat E xs
  | .mul n => .vals <$> SL.mul E n
  | .imul n => (fun _ => .none) <$> SL.imul E fuel n
  | .reset load => (fun _ => .none) <$> SL.reset E fuel load
  | .unsupported _ => Task.raise .notImplementedError

/-- A call on a SortedKeyList (Dispatch of the model: each call goes to the definition of its method, which cites its lines.) -/
def SKL.step (K : KEnv α κ) (fuel : Nat) : Op α → Run α κ (Out α)
  | .add v => (fun _ => .none) <$> SKL.add K fuel v
  | .update xs => (fun _ => .none) <$> SKL.update K fuel xs
  | .discard v => (fun _ => .none) <$> SKL.discard K fuel v
  | .remove v => (fun _ => .none) <$> SKL.remove K fuel v
  | .clear => (fun _ => .none) <$> SKL.clear
  | .delInt i => (fun _ => .none) <$> SKL.delInt K fuel i
  | .pop i => .val <$> SKL.pop K fuel i
  | .contains v => .bool <$> SKL.contains K fuel v
  | .getInt i => .val <$> getInt K.ilog2 i
  | .bisectLeft v => .int <$> SKL.bisect K false v
  | .bisectRight v => .int <$> SKL.bisect K true v
  | .count v => .int <$> SKL.count K fuel v
  | .len => .int <$> length
  | .iter => .vals <$> toList
  | .reversed => .vals <$> reversed
  | .getSlice sl => .vals <$> getSlice K.ilog2 sl
  | .delSlice sl => (fun _ => .none) <$> SKL.delSlice K fuel sl
  | .islice start stop reverse => .vals <$> islice K.ilog2 start stop reverse
  | .irange lo hi incMin incMax reverse => .vals <$> SKL.irange K lo hi incMin incMax reverse
  | .index v start stop => .int <$> SKL.index K fuel v start stop
  | .iadd xs => (fun _ => .none) <$> SKL.update K fuel xs
  | .compare op other => .bool <$> compare K.vcmp op other
  | .copy => .vals <$> SKL.copy K
  | .concat xs => .vals <$> SKL.concat K xs
  | .mul n => .vals <$> SKL.mul K n
  | .imul n => (fun _ => .none) <$> SKL.imul K fuel n
  | .reset load => (fun _ => .none) <$> SKL.reset K fuel load
  | .unsupported _ => Task.raise .notImplementedError

/-- A call on a SortedKeyList, searches by key included (Dispatch of the model: each call goes to the definition of its method, which cites its lines.) -/
def SKL.call (K : KEnv α κ) (fuel : Nat) : KOp α κ → Run α κ (Out α)
  | .op o => SKL.step K fuel o
  | .bisectKeyLeft k => .int <$> SKL.bisectKey K false k
  | .bisectKeyRight k => .int <$> SKL.bisectKey K true k
  | .irangeKey lo hi incMin incMax reverse => .vals <$> SKL.irangeKey K lo hi incMin incMax reverse

/-- A list object, once its methods have returned: the sublists of values and of keys have the addresses 0, 1, ...
(Scaffolding of the model: no code of /repo.) -/
def Shared.of (s : St α κ) : Shared α κ :=
  { cells := s.lists, kcells := s.keys, lists := List.range s.lists.length, keys := List.range s.keys.length, maxes := s.maxes, index := s.index.map Int.ofNat,
    offset := s.offset, len := s.len, load := s.load }

/-- Threads that have a SortedList in common; each makes its calls one after the other.
(Scaffolding of the model: no code of /repo.) -/
def SL.crowd (E : Env α) (fuel : Nat) (s : St α α) (threads : List (List (Op α))) : Crowd (Shared α α) (List (Except PyErr (Out α))) :=
  { shared := Shared.of s, threads := threads.map (Task.calls (SL.step E fuel)) }

/-- Threads that have a SortedKeyList in common.  (Scaffolding of the model: no code of /repo.) -/
def SKL.crowd (K : KEnv α κ) (fuel : Nat) (s : St α κ) (threads : List (List (KOp α κ))) : Crowd (Shared α κ) (List (Except PyErr (Out α))) :=
  { shared := Shared.of s, threads := threads.map (Task.calls (SKL.call K fuel)) }

end Race
end Verif
