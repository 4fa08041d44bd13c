import Verif.Model.Core
/-!
# SortedList

All line numbers refer to /repo/src/sortedcontainers/sortedlist.py.
-/

namespace Verif

/-- What a SortedList takes from outside: the comparison operators of the values, the
built-in `sorted`, and `int(math.log(·, 2))`.  Any of the first two may raise.  (Scaffolding of the model: no code of /repo.) -/
structure Env (α : Type) where
  cmp : CmpOp → α → α → Except PyErr Bool
  sorted : List α → Except PyErr (List α)
  ilog2 : Nat → Nat

/-- `a < b` (The operator `<`, which `bisect` and the methods call.) -/
abbrev Env.lt {α : Type} (E : Env α) : α → α → Except PyErr Bool := E.cmp .lt

namespace SL
variable {α : Type}

/-- `clear` (sortedlist.py:179-189) -/
def clear : Py (St α α) Unit :=
  Py.modify fun s => { s with len := 0, lists := [], maxes := [], index := [], offset := 0 }

/-- `_expand` (sortedlist.py:228-259); `_load << 1` is `2 * load`. -/
def expand (pos : Nat) : Py (St α α) Unit := do
  let s ← Py.get
  let listsPos ← Py.lift (getItem s.lists pos)
  if listsPos.length > s.load * 2 then
    let half := listsPos.drop s.load
    let listsPos := listsPos.take s.load
    Py.modify fun s => { s with lists := s.lists.set pos listsPos }
    let m ← Py.lift (lastItem listsPos)
    let maxes ← Py.lift (setItem s.maxes pos m)
    Py.modify fun s => { s with maxes := maxes }
    Py.modify fun s => { s with lists := insertAt s.lists (pos + 1) half }
    let m ← Py.lift (lastItem half)
    Py.modify fun s => { s with maxes := insertAt s.maxes (pos + 1) m }
    Py.modify fun s => { s with index := [] }
  else
    Core.touchIndex Core.incr pos

/-- `add` (sortedlist.py:193-226) -/
def add (E : Env α) (value : α) : Py (St α α) Unit := do
  let s ← Py.get
  if s.maxes ≠ [] then
    let pos ← Py.lift (bisectRight E.lt s.maxes value)
    if pos = s.maxes.length then
      let pos := pos - 1
      let l ← Py.lift (getItem s.lists pos)
      Py.modify fun s => { s with lists := s.lists.set pos (l ++ [value]) }
      Py.modify fun s => { s with maxes := s.maxes.set pos value }
      expand pos
    else
      let l ← Py.lift (getItem s.lists pos)
      let l ← Py.lift (insort E.lt l value)
      Py.modify fun s => { s with lists := s.lists.set pos l }
      expand pos
  else
    Py.modify fun s => { s with lists := s.lists ++ [[value]] }
    Py.modify fun s => { s with maxes := s.maxes ++ [value] }
  Py.modify fun s => { s with len := s.len + 1 }

/-- The tail of `update` (sortedlist.py:290-296): cut `values` into sublists. -/
def fill (values : List α) : Py (St α α) Unit := do
  let s ← Py.get
  let subs ← Py.lift (Core.chunks s.load values)
  Py.modify fun s => { s with lists := s.lists ++ subs }
  let s ← Py.get
  let ms ← Py.lift (mapE lastItem s.lists)
  Py.modify fun s => { s with maxes := s.maxes ++ ms }
  Py.modify fun s => { s with len := values.length }
  Py.modify fun s => { s with index := [] }

/-- `update` (sortedlist.py:261-296).  On the bulk path `_lists.append(values)` (line 280) happens before
the sort of line 282, which may raise. -/
def update (E : Env α) (iterable : List α) : Py (St α α) Unit := do
  let values ← Py.lift (E.sorted iterable)
  let s ← Py.get
  if s.maxes ≠ [] then
    if values.length * 4 ≥ s.len then
      Py.modify fun s => { s with lists := s.lists ++ [values] }
      let s ← Py.get
      let values ← Py.lift (E.sorted (Core.iter s))
      clear
      fill values
    else
      Py.forEach (add E) values
  else
    fill values

/-- `__contains__` (sortedlist.py:300-328) -/
def contains (E : Env α) (value : α) : Py (St α α) Bool := do
  let s ← Py.get
  if s.maxes = [] then pure false
  else
    let pos ← Py.lift (bisectLeft E.lt s.maxes value)
    if pos = s.maxes.length then pure false
    else
      let l ← Py.lift (getItem s.lists pos)
      let idx ← Py.lift (bisectLeft E.lt l value)
      let x ← Py.lift (getItem l idx)
      Py.lift (E.cmp .eq x value)

/-- `_delete` (sortedlist.py:400-452); `_load >> 1` is `load / 2`.  A negative `_len` cannot be represented (`modelGap`). -/
def delete (pos idx : Nat) : Py (St α α) Unit := do
  let s ← Py.get
  let l ← Py.lift (getItem s.lists pos)
  let l ← Py.lift (delItem l idx)
  Py.modify fun s => { s with lists := s.lists.set pos l }
  let len ← Py.lift (Core.decr s.len)
  Py.modify fun s => { s with len := len }
  if l.length > s.load / 2 then
    let m ← Py.lift (lastItem l)
    let maxes ← Py.lift (setItem s.maxes pos m)
    Py.modify fun s => { s with maxes := maxes }
    Core.touchIndex Core.decr pos
  else if s.lists.length > 1 then
    let pos := if pos = 0 then pos + 1 else pos
    let prev := pos - 1
    let s ← Py.get
    let a ← Py.lift (getItem s.lists prev)
    let b ← Py.lift (getItem s.lists pos)
    Py.modify fun s => { s with lists := s.lists.set prev (a ++ b) }
    let m ← Py.lift (lastItem (a ++ b))
    let maxes ← Py.lift (setItem s.maxes prev m)
    Py.modify fun s => { s with maxes := maxes }
    let s ← Py.get
    let lists ← Py.lift (delItem s.lists pos)
    Py.modify fun s => { s with lists := lists }
    let maxes ← Py.lift (delItem s.maxes pos)
    Py.modify fun s => { s with maxes := maxes }
    Py.modify fun s => { s with index := [] }
    expand prev
  else if l.length ≠ 0 then
    let m ← Py.lift (lastItem l)
    let maxes ← Py.lift (setItem s.maxes pos m)
    Py.modify fun s => { s with maxes := maxes }
  else
    let s ← Py.get
    let lists ← Py.lift (delItem s.lists pos)
    Py.modify fun s => { s with lists := lists }
    let maxes ← Py.lift (delItem s.maxes pos)
    Py.modify fun s => { s with maxes := maxes }
    Py.modify fun s => { s with index := [] }

/-- `discard` (sortedlist.py:330-360) -/
def discard (E : Env α) (value : α) : Py (St α α) Unit := do
  let s ← Py.get
  if s.maxes = [] then pure ()
  else
    let pos ← Py.lift (bisectLeft E.lt s.maxes value)
    if pos = s.maxes.length then pure ()
    else
      let l ← Py.lift (getItem s.lists pos)
      let idx ← Py.lift (bisectLeft E.lt l value)
      let x ← Py.lift (getItem l idx)
      if ← Py.lift (E.cmp .eq x value) then delete pos idx
      else pure ()

/-- `remove` (sortedlist.py:362-398) -/
def remove (E : Env α) (value : α) : Py (St α α) Unit := do
  let s ← Py.get
  if s.maxes = [] then Py.raise .valueError
  else
    let pos ← Py.lift (bisectLeft E.lt s.maxes value)
    if pos = s.maxes.length then Py.raise .valueError
    else
      let l ← Py.lift (getItem s.lists pos)
      let idx ← Py.lift (bisectLeft E.lt l value)
      let x ← Py.lift (getItem l idx)
      if ← Py.lift (E.cmp .eq x value) then delete pos idx
      else Py.raise .valueError

/-- The virtual methods of a SortedList.  (sortedlist.py:179-452: what SortedKeyList overrides.) -/
def methods (E : Env α) : Methods α α :=
  { clear := clear, update := update E, delete := delete, ilog2 := E.ilog2 }

/-- The body of `irange` (sortedlist.py:994-1073), with `ret` for the call of `_islice` that it ends with and `empty` for
`iter(())` (see `Core.isliceWith`); `incMin`, `incMax` are the components of `inclusive`. -/
def irangeWith {β : Type} (ret : St α α → Nat → Nat → Nat → Nat → Bool → Except PyErr β) (empty : β)
    (E : Env α) (minimum maximum : Option α) (incMin incMax reverse : Bool) : Py (St α α) β := do
  let s ← Py.get
  if s.maxes = [] then pure empty
  else
    -- lines 1030-1047; `none` stands for `return iter(())`
    let lo : Option (Nat × Nat) ←
      match minimum with
      | none => pure (some (0, 0))
      | some m => do
        let minPos ← Py.lift (if incMin then bisectLeft E.lt s.maxes m else bisectRight E.lt s.maxes m)
        if minPos = s.maxes.length then pure none
        else
          let l ← Py.lift (getItem s.lists minPos)
          let minIdx ← Py.lift (if incMin then bisectLeft E.lt l m else bisectRight E.lt l m)
          pure (some (minPos, minIdx))
    match lo with
    | none => pure empty
    | some (minPos, minIdx) =>
      -- lines 1052-1071
      let (maxPos, maxIdx) ←
        match maximum with
        | none => do
          let l ← Py.lift (getItem s.lists (s.maxes.length - 1))
          pure (s.maxes.length - 1, l.length)
        | some m => do
          let maxPos ← Py.lift (if incMax then bisectRight E.lt s.maxes m else bisectLeft E.lt s.maxes m)
          if maxPos = s.maxes.length then
            let l ← Py.lift (getItem s.lists (maxPos - 1))
            pure (maxPos - 1, l.length)
          else
            let l ← Py.lift (getItem s.lists maxPos)
            let maxIdx ← Py.lift (if incMax then bisectRight E.lt l m else bisectLeft E.lt l m)
            pure (maxPos, maxIdx)
      Py.lift (ret s minPos minIdx maxPos maxIdx reverse)

/-- `irange` (sortedlist.py:994-1073), as the list of values the iterator yields -/
def irange (E : Env α) (minimum maximum : Option α) (incMin incMax reverse : Bool) : Py (St α α) (List α) :=
  irangeWith Core.islicePos [] E minimum maximum incMin incMax reverse

/-- `bisect_left` (sortedlist.py:1085-1114) -/
def bisect_left (E : Env α) (value : α) : Py (St α α) Nat := do
  let s ← Py.get
  if s.maxes = [] then pure 0
  else
    let pos ← Py.lift (bisectLeft E.lt s.maxes value)
    if pos = s.maxes.length then pure s.len
    else
      let l ← Py.lift (getItem s.lists pos)
      let idx ← Py.lift (bisectLeft E.lt l value)
      Core.loc E.ilog2 pos idx

/-- `bisect_right` / `bisect` (sortedlist.py:1116-1148) -/
def bisect_right (E : Env α) (value : α) : Py (St α α) Nat := do
  let s ← Py.get
  if s.maxes = [] then pure 0
  else
    let pos ← Py.lift (bisectRight E.lt s.maxes value)
    if pos = s.maxes.length then pure s.len
    else
      let l ← Py.lift (getItem s.lists pos)
      let idx ← Py.lift (bisectRight E.lt l value)
      Core.loc E.ilog2 pos idx

/-- `count` (sortedlist.py:1150-1187), a Python integer. -/
def count (E : Env α) (value : α) : Py (St α α) Int := do
  let s ← Py.get
  if s.maxes = [] then pure 0
  else
    let posLeft ← Py.lift (bisectLeft E.lt s.maxes value)
    if posLeft = s.maxes.length then pure 0
    else
      let l ← Py.lift (getItem s.lists posLeft)
      let idxLeft ← Py.lift (bisectLeft E.lt l value)
      let posRight ← Py.lift (bisectRight E.lt s.maxes value)
      if posRight = s.maxes.length then
        let left ← Core.loc E.ilog2 posLeft idxLeft
        pure ((s.len : Int) - left)
      else
        let l ← Py.lift (getItem s.lists posRight)
        let idxRight ← Py.lift (bisectRight E.lt l value)
        if posLeft = posRight then pure ((idxRight : Int) - idxLeft)
        else
          let right ← Core.loc E.ilog2 posRight idxRight
          let left ← Core.loc E.ilog2 posLeft idxLeft
          pure ((right : Int) - left)

/-- Lines 1323-1335 (and 2336-2348) of `index`: the normalised `start`, `stop`. -/
def indexBounds (len : Nat) (start stop : Option Int) : Int × Int :=
  let start := start.getD 0
  let start := if start < 0 then start + len else start
  let start := if start < 0 then 0 else start
  let stop := stop.getD len
  let stop := if stop < 0 then stop + len else stop
  let stop := if stop > len then (len : Int) else stop
  (start, stop)

/-- `index` (sortedlist.py:1290-1364), a Python integer. -/
def index (E : Env α) (value : α) (start stop : Option Int) : Py (St α α) Int := do
  let s ← Py.get
  if s.len = 0 then Py.raise .valueError
  else
    let (start, stop) := indexBounds s.len start stop
    if stop ≤ start then Py.raise .valueError
    else
      let posLeft ← Py.lift (bisectLeft E.lt s.maxes value)
      if posLeft = s.maxes.length then Py.raise .valueError
      else
        let l ← Py.lift (getItem s.lists posLeft)
        let idxLeft ← Py.lift (bisectLeft E.lt l value)
        let x ← Py.lift (getItem l idxLeft)
        if ← Py.lift (E.cmp .ne x value) then Py.raise .valueError
        else
          let stop := stop - 1
          let left ← Core.loc E.ilog2 posLeft idxLeft
          if start ≤ left then
            if (left : Int) ≤ stop then pure (left : Int)
            else Py.raise .valueError
          else
            let right ← bisect_right E value
            if start ≤ (right : Int) - 1 then pure start
            else Py.raise .valueError

/-! ## Construction -/

/-- `SortedList(iterable)` (sortedlist.py:89-116); `none` is the default argument.
The object is returned only if `__init__` does not raise. -/
def new (E : Env α) (iterable : Option (List α)) : Except PyErr (St α α) :=
  match iterable with
  | none => .ok St.empty
  | some xs =>
    match update E xs St.empty with
    | (.ok (), s) => .ok s
    | (.error e, _) => .error e

/-- `copy` (sortedlist.py:1189-1199) -/
def copy (E : Env α) (s : St α α) : Except PyErr (St α α) := new E (some (Core.iter s))

/-- `__add__`, `__radd__` (sortedlist.py:1366-1388) -/
def concat (E : Env α) (other : List α) (s : St α α) : Except PyErr (St α α) :=
  new E (some (Core.iter s ++ other))

/-- `__mul__`, `__rmul__` (sortedlist.py:1411-1429) -/
def mul (E : Env α) (num : Int) (s : St α α) : Except PyErr (St α α) :=
  new E (some (repeatList (Core.iter s) num))

/-- The arguments in the `__reduce__` tuple (sortedlist.py:1500-1502). -/
def reduceArgs (s : St α α) : List α := Core.iter s

/-! ## The self-audit -/

/-- `assert b` (Python's own, called by the code of /repo.) -/
def assert (b : Bool) : Except PyErr Unit := if b then .ok () else .error .assertionError

/-- `assert` on a condition whose evaluation may raise (Python's own, called by the code of /repo.) -/
def assertE (b : Except PyErr Bool) : Except PyErr Unit := b >>= assert

/-- `for x in xs: f(x)` without effects (Python's own, called by the code of /repo.) -/
def allE {β : Type} (f : β → Except PyErr Unit) : List β → Except PyErr Unit
  | [] => .ok ()
  | b :: bs => f b >>= fun _ => allE f bs

/-- `for pos in range(1, len(l)): assert l[pos - 1] <= l[pos]` (sortedlist.py:1529-1530) -/
def checkSorted {κ : Type} (cmp : CmpOp → κ → κ → Except PyErr Bool) (l : List κ) : Except PyErr Unit :=
  allE (fun pos => do
    let a ← getItem l (pos - 1)
    let b ← getItem l pos
    assertE (cmp .le a b)) (Core.natRange 1 l.length)

/-- The part of `_check` about the positional index (sortedlist.py:1554-1574, 2492-2512). -/
def checkIndex {κ : Type} (s : St α κ) : Except PyErr Unit :=
  if s.index = [] then .ok ()
  else do
    let root ← getItem s.index 0
    assert (s.len == root)
    assert (s.index.length == s.offset + s.lists.length)
    allE (fun pos => do
      let leaf ← getItem s.index (s.offset + pos)
      let l ← getItem s.lists pos
      assert (leaf == l.length)) (Core.natRange 0 s.lists.length)
    allE (fun pos => do
      let child := pos * 2 + 1
      let x ← getItem s.index pos
      if child ≥ s.index.length then assert (x == 0)
      else if child + 1 = s.index.length then do
        let c ← getItem s.index child
        assert (x == c)
      else do
        let c ← getItem s.index child
        let d ← getItem s.index (child + 1)
        assert (c + d == x)) (Core.natRange 0 s.offset)

/-- `_check` (sortedlist.py:1515-1586); the diagnostic output of lines 1575-1586 is not modelled. -/
def check (E : Env α) (s : St α α) : Except PyErr Unit := do
  assert (s.load ≥ 4)
  assert (s.maxes.length == s.lists.length)
  assert (s.len == (s.lists.map List.length).sum)
  allE (checkSorted E.cmp) s.lists
  allE (fun pos => do
    let p ← getItem s.lists (pos - 1)
    let a ← lastItem p
    let q ← getItem s.lists pos
    let b ← getItem q 0
    assertE (E.cmp .le a b)) (Core.natRange 1 s.lists.length)
  allE (fun pos => do
    let m ← getItem s.maxes pos
    let l ← getItem s.lists pos
    let x ← lastItem l
    assertE (E.cmp .eq m x)) (Core.natRange 0 s.maxes.length)
  assert (s.lists.all fun l => l.length ≤ s.load * 2)
  allE (fun pos => do
    let l ← getItem s.lists pos
    assert (l.length ≥ s.load / 2)) (Core.natRange 0 (s.lists.length - 1))
  checkIndex s

end SL
end Verif
