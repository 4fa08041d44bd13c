import Verif.Model.API
import Verif.ClientSpec
/-!
# Comparisons and key functions that call back

The comparison operators of the values and the key function are code of the client.  Here they may, each time they are called,
query the very list on whose behalf they are called: `__lt__` of a value may ask `len(sl)`, `v in sl`, `sl[i]`, and so on.

The programs of this file are those of `Model/SortedList.lean` and `Model/SortedKeyList.lean`, line for line, where a call of a
comparison operator or of the key function is an action (`REnv`, `RKEnv`) on the list object and on a world `W` that the client
keeps.  The parts of the code that call neither (`_expand`, `_delete`, `_loc`, `_pos`, ...) are those of the other
files (`free`).  Local names of the code for `_lists`, `_maxes`, `_keys` are read once, at the start of a method: they stay
names of the list objects, and the queries made in between change none of them.

`Client` (ClientSpec.lean) is what the client's code does in one call: it asks queries, one after the other, and answers.  `SL.Clients.env` and
`SKL.Clients.env` run it.  A query that is asked calls comparison operators itself, and these may ask again, so the
environments are indexed by how deep calls may nest.

All line numbers refer to /repo/src/sortedcontainers/sortedlist.py.
-/

namespace Verif

/-- A computation on an object and on the world of the client.  (Scaffolding of the model: no code of /repo.) -/
abbrev RPy (W σ β : Type) : Type := Py (σ × W) β

namespace Reent
variable {W σ α κ β : Type}

/-- A computation that does not call the client's code.  (Scaffolding of the model: no code of /repo.) -/
def free (m : Py σ β) : RPy W σ β := fun p => ((m p.1).1, (m p.1).2, p.2)

end Reent

/-- What a SortedList takes from outside: actions that compare values, `sorted`, and `int(math.log(·, 2))`.
(Scaffolding of the model: no code of /repo.) -/
structure REnv (W α : Type) where
  cmp : CmpOp → α → α → RPy W (St α α) Bool
  sorted : List α → RPy W (St α α) (List α)
  ilog2 : Nat → Nat

/-- `a < b` (The operator `<`, which `bisect` and the methods call.) -/
abbrev REnv.lt {W α : Type} (E : REnv W α) : α → α → RPy W (St α α) Bool := E.cmp .lt

/-- What a SortedKeyList takes from outside.  (Scaffolding of the model: no code of /repo.) -/
structure RKEnv (W α κ : Type) where
  key : α → RPy W (St α κ) κ
  kcmp : CmpOp → κ → κ → RPy W (St α κ) Bool
  vcmp : CmpOp → α → α → RPy W (St α κ) Bool
  sortedByKey : List α → RPy W (St α κ) (List α)
  ilog2 : Nat → Nat

/-- `a < b` on keys (The operator `<`, which `bisect` and the methods call.) -/
abbrev RKEnv.lt {W α κ : Type} (K : RKEnv W α κ) : κ → κ → RPy W (St α κ) Bool := K.kcmp .lt

namespace Reent
variable {W σ α κ β : Type}

/-! ## `bisect` (Lib/bisect.py of CPython) -/

/-- The loop of `bisect.bisect_right`.  (In C; imported in sortedlist.py:20.) -/
def bisectRightLoop (lt : α → α → RPy W σ Bool) (a : List α) (x : α) (lo hi : Nat) : RPy W σ Nat :=
  if _h : lo < hi then do
    let m ← free (Py.lift (getItem a ((lo + hi) / 2)))
    if ← lt x m then bisectRightLoop lt a x lo ((lo + hi) / 2)
    else bisectRightLoop lt a x ((lo + hi) / 2 + 1) hi
  else pure lo
termination_by hi - lo
decreasing_by all_goals omega

/-- `bisect_right(a, x)` (In C; imported in sortedlist.py:20.) -/
def bisectRight (lt : α → α → RPy W σ Bool) (a : List α) (x : α) : RPy W σ Nat :=
  bisectRightLoop lt a x 0 a.length

/-- The loop of `bisect.bisect_left`.  (In C; imported in sortedlist.py:20.) -/
def bisectLeftLoop (lt : α → α → RPy W σ Bool) (a : List α) (x : α) (lo hi : Nat) : RPy W σ Nat :=
  if _h : lo < hi then do
    let m ← free (Py.lift (getItem a ((lo + hi) / 2)))
    if ← lt m x then bisectLeftLoop lt a x ((lo + hi) / 2 + 1) hi
    else bisectLeftLoop lt a x lo ((lo + hi) / 2)
  else pure lo
termination_by hi - lo
decreasing_by all_goals omega

/-- `bisect_left(a, x)` (In C; imported in sortedlist.py:20.) -/
def bisectLeft (lt : α → α → RPy W σ Bool) (a : List α) (x : α) : RPy W σ Nat :=
  bisectLeftLoop lt a x 0 a.length

/-- `bisect.insort(a, x)` (In C; imported in sortedlist.py:20.) -/
def insort (lt : α → α → RPy W σ Bool) (a : List α) (x : α) : RPy W σ (List α) := do
  let i ← bisectRight lt a x
  pure (insertAt a i x)

/-! ## Methods shared by both classes -/

/-- The loop `for alpha, beta in zip(self, other)` of the comparison methods (sortedlist.py:1469-1473). -/
def cmpLoop (cmp : CmpOp → α → α → RPy W σ Bool) (op : CmpOp) (selfLen otherLen : Nat) : List α → List α → RPy W σ Bool
  | a :: as, b :: bs => do
    if ← cmp .ne a b then cmp op a b
    else cmpLoop cmp op selfLen otherLen as bs
  | _, _ => pure (op.onNat selfLen otherLen)

/-- `__eq__`, `__ne__`, `__lt__`, `__gt__`, `__le__`, `__ge__` with a sequence argument (sortedlist.py:1452-1498).  The iterator over
the list is not affected by queries (C69, Props/IterHeap.lean), so its values are taken at the start. -/
def compare (cmp : CmpOp → α → α → RPy W (St α κ) Bool) (op : CmpOp) (other : List α) : RPy W (St α κ) Bool := do
  let s ← free Py.get
  if s.len ≠ other.length ∧ op = .eq then pure false
  else if s.len ≠ other.length ∧ op = .ne then pure true
  else cmpLoop cmp op s.len other.length (Core.iter s) other

/-- `_reset` (sortedlist.py:156-177) -/
def reset (clear : Py (St α κ) Unit) (update : List α → RPy W (St α κ) Unit) (load : Nat) : RPy W (St α κ) Unit := do
  let s ← free Py.get
  let values := Core.iter s
  free clear
  free (Py.modify fun s => { s with load := load })
  update values

/-- `__imul__` (sortedlist.py:1431-1450) -/
def imul (clear : Py (St α κ) Unit) (update : List α → RPy W (St α κ) Unit) (num : Int) : RPy W (St α κ) Unit := do
  let s ← free Py.get
  let values := repeatList (Core.iter s) num
  free clear
  update values

/-- `__delitem__` with a slice (sortedlist.py:715-740); `M` is used for `_clear`, `_delete` and `int(math.log(·, 2))`. -/
def delSlice (M : Methods α κ) (update : List α → RPy W (St α κ) Unit) (sl : PySlice) : RPy W (St α κ) Unit := do
  let s ← free Py.get
  let (start, stop, step) ← free (Py.lift (sl.indices s.len))
  if step = 1 ∧ start < stop ∧ start = 0 ∧ stop = s.len then free M.clear
  else if step = 1 ∧ start < stop ∧ (s.len : Int) ≤ 8 * (stop - start) then
    let values ← free (Core.getSliceStep1 M.ilog2 none (some start))
    let values ←
      if stop < s.len then do
        let tail ← free (Core.getSliceStep1 M.ilog2 (some stop) none)
        pure (values ++ tail)
      else pure values
    free M.clear
    update values
  else
    let indices := pyRange start stop step
    let indices := if step > 0 then indices.reverse else indices
    free (Py.forEach (Core.delInt M) indices)

end Reent

/-! ## SortedList -/

namespace Reent.SL
variable {W α : Type}
open Verif.SL (indexBounds)

/-- `add` (sortedlist.py:193-226) -/
def add (E : REnv W α) (value : α) : RPy W (St α α) Unit := do
  let s ← free Py.get
  if s.maxes ≠ [] then
    let pos ← bisectRight E.lt s.maxes value
    if pos = s.maxes.length then
      let pos := pos - 1
      let l ← free (Py.lift (getItem s.lists pos))
      free (Py.modify fun s => { s with lists := s.lists.set pos (l ++ [value]) })
      free (Py.modify fun s => { s with maxes := s.maxes.set pos value })
      free (Verif.SL.expand pos)
    else
      let l ← free (Py.lift (getItem s.lists pos))
      let l ← insort E.lt l value
      free (Py.modify fun s => { s with lists := s.lists.set pos l })
      free (Verif.SL.expand pos)
  else
    free (Py.modify fun s => { s with lists := s.lists ++ [[value]] })
    free (Py.modify fun s => { s with maxes := s.maxes ++ [value] })
  free (Py.modify fun s => { s with len := s.len + 1 })

/-- `__contains__` (sortedlist.py:300-328) -/
def contains (E : REnv W α) (value : α) : RPy W (St α α) Bool := do
  let s ← free Py.get
  if s.maxes = [] then pure false
  else
    let pos ← bisectLeft E.lt s.maxes value
    if pos = s.maxes.length then pure false
    else
      let l ← free (Py.lift (getItem s.lists pos))
      let idx ← bisectLeft E.lt l value
      let x ← free (Py.lift (getItem l idx))
      E.cmp .eq x value

/-- `discard` (sortedlist.py:330-360) -/
def discard (E : REnv W α) (value : α) : RPy W (St α α) Unit := do
  let s ← free Py.get
  if s.maxes = [] then pure ()
  else
    let pos ← bisectLeft E.lt s.maxes value
    if pos = s.maxes.length then pure ()
    else
      let l ← free (Py.lift (getItem s.lists pos))
      let idx ← bisectLeft E.lt l value
      let x ← free (Py.lift (getItem l idx))
      if ← E.cmp .eq x value then free (Verif.SL.delete pos idx)
      else pure ()

/-- `remove` (sortedlist.py:362-398) -/
def remove (E : REnv W α) (value : α) : RPy W (St α α) Unit := do
  let s ← free Py.get
  if s.maxes = [] then free (Py.raise .valueError)
  else
    let pos ← bisectLeft E.lt s.maxes value
    if pos = s.maxes.length then free (Py.raise .valueError)
    else
      let l ← free (Py.lift (getItem s.lists pos))
      let idx ← bisectLeft E.lt l value
      let x ← free (Py.lift (getItem l idx))
      if ← E.cmp .eq x value then free (Verif.SL.delete pos idx)
      else free (Py.raise .valueError)

/-- `irange` (sortedlist.py:994-1073), as the list of values the iterator yields; `incMin`, `incMax` are the
components of `inclusive`. -/
def irange (E : REnv W α) (minimum maximum : Option α) (incMin incMax reverse : Bool) :
    RPy W (St α α) (List α) := do
  let s ← free Py.get
  if s.maxes = [] then pure []
  else
    -- lines 1030-1047; `none` stands for `return iter(())`
    let lo : Option (Nat × Nat) ←
      match minimum with
      | none => pure (some (0, 0))
      | some m => do
        let minPos ← (if incMin then bisectLeft E.lt s.maxes m else bisectRight E.lt s.maxes m)
        if minPos = s.maxes.length then pure none
        else
          let l ← free (Py.lift (getItem s.lists minPos))
          let minIdx ← (if incMin then bisectLeft E.lt l m else bisectRight E.lt l m)
          pure (some (minPos, minIdx))
    match lo with
    | none => pure []
    | some (minPos, minIdx) =>
      -- lines 1052-1071
      let (maxPos, maxIdx) ←
        match maximum with
        | none => do
          let l ← free (Py.lift (getItem s.lists (s.maxes.length - 1)))
          pure (s.maxes.length - 1, l.length)
        | some m => do
          let maxPos ← (if incMax then bisectRight E.lt s.maxes m else bisectLeft E.lt s.maxes m)
          if maxPos = s.maxes.length then
            let l ← free (Py.lift (getItem s.lists (maxPos - 1)))
            pure (maxPos - 1, l.length)
          else
            let l ← free (Py.lift (getItem s.lists maxPos))
            let maxIdx ← (if incMax then bisectRight E.lt l m else bisectLeft E.lt l m)
            pure (maxPos, maxIdx)
      free (Py.lift (Core.islicePos s minPos minIdx maxPos maxIdx reverse))

/-- `bisect_left` (sortedlist.py:1085-1114) -/
def bisect_left (E : REnv W α) (value : α) : RPy W (St α α) Nat := do
  let s ← free Py.get
  if s.maxes = [] then pure 0
  else
    let pos ← bisectLeft E.lt s.maxes value
    if pos = s.maxes.length then pure s.len
    else
      let l ← free (Py.lift (getItem s.lists pos))
      let idx ← bisectLeft E.lt l value
      free (Core.loc E.ilog2 pos idx)

/-- `bisect_right` / `bisect` (sortedlist.py:1116-1148) -/
def bisect_right (E : REnv W α) (value : α) : RPy W (St α α) Nat := do
  let s ← free Py.get
  if s.maxes = [] then pure 0
  else
    let pos ← bisectRight E.lt s.maxes value
    if pos = s.maxes.length then pure s.len
    else
      let l ← free (Py.lift (getItem s.lists pos))
      let idx ← bisectRight E.lt l value
      free (Core.loc E.ilog2 pos idx)

/-- `count` (sortedlist.py:1150-1187), a Python integer. -/
def count (E : REnv W α) (value : α) : RPy W (St α α) Int := do
  let s ← free Py.get
  if s.maxes = [] then pure 0
  else
    let posLeft ← bisectLeft E.lt s.maxes value
    if posLeft = s.maxes.length then pure 0
    else
      let l ← free (Py.lift (getItem s.lists posLeft))
      let idxLeft ← bisectLeft E.lt l value
      let posRight ← bisectRight E.lt s.maxes value
      if posRight = s.maxes.length then
        let left ← free (Core.loc E.ilog2 posLeft idxLeft)
        pure ((s.len : Int) - left)
      else
        let l ← free (Py.lift (getItem s.lists posRight))
        let idxRight ← bisectRight E.lt l value
        if posLeft = posRight then pure ((idxRight : Int) - idxLeft)
        else
          let right ← free (Core.loc E.ilog2 posRight idxRight)
          let left ← free (Core.loc E.ilog2 posLeft idxLeft)
          pure ((right : Int) - left)

/-- `index` (sortedlist.py:1290-1364), a Python integer. -/
def index (E : REnv W α) (value : α) (start stop : Option Int) : RPy W (St α α) Int := do
  let s ← free Py.get
  if s.len = 0 then free (Py.raise .valueError)
  else
    let (start, stop) := indexBounds s.len start stop
    if stop ≤ start then free (Py.raise .valueError)
    else
      let posLeft ← bisectLeft E.lt s.maxes value
      if posLeft = s.maxes.length then free (Py.raise .valueError)
      else
        let l ← free (Py.lift (getItem s.lists posLeft))
        let idxLeft ← bisectLeft E.lt l value
        let x ← free (Py.lift (getItem l idxLeft))
        if ← E.cmp .ne x value then free (Py.raise .valueError)
        else
          let stop := stop - 1
          let left ← free (Core.loc E.ilog2 posLeft idxLeft)
          if start ≤ left then
            if (left : Int) ≤ stop then pure (left : Int)
            else free (Py.raise .valueError)
          else
            let right ← bisect_right E value
            if start ≤ (right : Int) - 1 then pure start
            else free (Py.raise .valueError)

/-- `update` (sortedlist.py:261-296) -/
def update (E : REnv W α) (iterable : List α) : RPy W (St α α) Unit := do
  let values ← E.sorted iterable
  let s ← free Py.get
  if s.maxes ≠ [] then
    if values.length * 4 ≥ s.len then
      free (Py.modify fun s => { s with lists := s.lists ++ [values] })
      let s ← free Py.get
      let values ← E.sorted (Core.iter s)
      free Verif.SL.clear
      free (Verif.SL.fill values)
    else
      Py.forEach (add E) values
  else
    free (Verif.SL.fill values)

/-- The values of a new list, `SortedList(iterable)` (sortedlist.py:89-116), which `copy`, `+` and `*` create
(1189-1199, 1366-1388, 1411-1429).  The client's queries are about the list the method was called on. -/
def newValues (E : REnv W α) (iterable : List α) : RPy W (St α α) (List α) := do
  let values ← E.sorted iterable
  free (Py.lift (match Verif.SL.fill values St.empty with
    | (.ok (), t) => .ok (Core.iter t)
    | (.error e, _) => .error e))

/-- The virtual methods that call neither comparison operators nor key function (`update` is not used).
(sortedlist.py:1664-2007: what SortedKeyList overrides.) -/
def methods (E : REnv W α) : Methods α α :=
  { clear := Verif.SL.clear, update := fun _ => pure (), delete := Verif.SL.delete, ilog2 := E.ilog2 }

/-- One call of the API.  (Dispatch of the model: each call goes to the definition of its method, which cites its lines.) -/
def step (E : REnv W α) : Op α → RPy W (St α α) (Out α)
  | .add v => Spec.out (fun _ => .none) (add E v)
  | .update xs => Spec.out (fun _ => .none) (update E xs)
  | .contains v => Spec.out .bool (contains E v)
  | .discard v => Spec.out (fun _ => .none) (discard E v)
  | .remove v => Spec.out (fun _ => .none) (remove E v)
  | .bisectLeft v => Spec.out (fun (n : Nat) => .int n) (bisect_left E v)
  | .bisectRight v => Spec.out (fun (n : Nat) => .int n) (bisect_right E v)
  | .count v => Spec.out .int (count E v)
  | .index v start stop => Spec.out .int (index E v start stop)
  | .irange lo hi incMin incMax reverse => Spec.out .vals (irange E lo hi incMin incMax reverse)
  | .compare op other => Spec.out .bool (compare E.cmp op other)
  | .iadd xs => Spec.out (fun _ => .none) (update E xs)
  | .imul n => Spec.out (fun _ => .none) (imul Verif.SL.clear (update E) n)
  | .reset load => Spec.out (fun _ => .none) (reset Verif.SL.clear (update E) load)
  | .delSlice sl => Spec.out (fun _ => .none) (delSlice (methods E) (update E) sl)
  | .copy => Spec.out .vals (do let s ← free Py.get; newValues E (Core.iter s))
  | .concat xs => Spec.out .vals (do let s ← free Py.get; newValues E (Core.iter s ++ xs))
  | .mul n => Spec.out .vals (do let s ← free Py.get; newValues E (repeatList (Core.iter s) n))
  | .clear => Spec.out (fun _ => .none) (free Verif.SL.clear)
  | .getInt i => Spec.out .val (free (Core.getInt E.ilog2 i))
  | .getSlice sl => Spec.out .vals (free (Core.getSlice E.ilog2 sl))
  | .delInt i => Spec.out (fun _ => .none) (free (Core.delInt (methods E) i))
  | .pop i => Spec.out .val (free (Core.pop (methods E) i))
  | .islice start stop reverse => Spec.out .vals (free (Core.islice E.ilog2 start stop reverse))
  | .iter => Spec.out .vals (free (ListAPI.read fun s => .ok (Core.iter s)))
  | .reversed => Spec.out .vals (free (ListAPI.read fun s => .ok (Core.reversed s)))
  | .len => Spec.out (fun (n : Nat) => .int n) (free (ListAPI.read fun s => .ok (Core.length s)))
  | .unsupported u => Spec.out (fun _ => .none) (free (Core.unsupported u))

end Reent.SL

/-! ## SortedKeyList -/

namespace Reent.SKL
variable {W α κ : Type}
open Verif.SL (indexBounds)

/-- `add` (sortedlist.py:1678-1719) -/
def add (K : RKEnv W α κ) (value : α) : RPy W (St α κ) Unit := do
  let s ← free Py.get
  let key ← K.key value
  if s.maxes ≠ [] then
    let pos ← bisectRight K.lt s.maxes key
    if pos = s.maxes.length then
      let pos := pos - 1
      let l ← free (Py.lift (getItem s.lists pos))
      free (Py.modify fun s => { s with lists := s.lists.set pos (l ++ [value]) })
      let ks ← free (Py.lift (getItem s.keys pos))
      free (Py.modify fun s => { s with keys := s.keys.set pos (ks ++ [key]) })
      free (Py.modify fun s => { s with maxes := s.maxes.set pos key })
      free (Verif.SKL.expand pos)
    else
      let ks ← free (Py.lift (getItem s.keys pos))
      let idx ← bisectRight K.lt ks key
      let l ← free (Py.lift (getItem s.lists pos))
      free (Py.modify fun s => { s with lists := s.lists.set pos (insertAt l idx value) })
      free (Py.modify fun s => { s with keys := s.keys.set pos (insertAt ks idx key) })
      free (Verif.SKL.expand pos)
  else
    free (Py.modify fun s => { s with lists := s.lists ++ [[value]] })
    free (Py.modify fun s => { s with keys := s.keys ++ [[key]] })
    free (Py.modify fun s => { s with maxes := s.maxes ++ [key] })
  free (Py.modify fun s => { s with len := s.len + 1 })

/-- The loop `while True:` that `__contains__`, `discard` and `remove` share
(sortedlist.py:1836-1847, 1883-1895, 1935-1947). -/
def findLoop (K : RKEnv W α κ) (lists : List (List α)) (keys : List (List κ)) (value : α) (key : κ)
    (pos idx lenSublist : Nat) : RPy W (St α κ) (Option (Nat × Nat)) :=
  match _h : getItem keys pos with
  | .error e => free (Py.raise e)
  | .ok ks =>
    match _h' : getItem ks idx with
    | .error e => free (Py.raise e)
    | .ok k => do
      if ← K.kcmp .ne k key then pure none
      else
        let l ← free (Py.lift (getItem lists pos))
        let x ← free (Py.lift (getItem l idx))
        if ← K.vcmp .eq x value then pure (some (pos, idx))
        else if idx + 1 = lenSublist then
          if pos + 1 = keys.length then pure none
          else
            let ks' ← free (Py.lift (getItem keys (pos + 1)))
            findLoop K lists keys value key (pos + 1) 0 ks'.length
        else findLoop K lists keys value key pos (idx + 1) lenSublist
termination_by (keys.length - pos, (keys[pos]?.getD []).length - idx)
decreasing_by
  all_goals
    rw [getItem_ok_iff] at _h _h'
    have h1 := (List.getElem?_eq_some_iff.1 _h).1
    have h2 := (List.getElem?_eq_some_iff.1 _h').1
    first
    | (apply Prod.Lex.left; omega)
    | (apply Prod.Lex.right; simp only [_h, Option.getD_some]; omega)

/-- The common first part of `__contains__`, `discard`, `remove`: locate the run of equal keys and
search it (sortedlist.py:1817-1834, 1866-1881, 1918-1933 and the loop). -/
def find (K : RKEnv W α κ) (value : α) : RPy W (St α κ) (Option (Nat × Nat)) := do
  let s ← free Py.get
  if s.maxes = [] then pure none
  else
    let key ← K.key value
    let pos ← bisectLeft K.lt s.maxes key
    if pos = s.maxes.length then pure none
    else
      let ks ← free (Py.lift (getItem s.keys pos))
      let idx ← bisectLeft K.lt ks key
      findLoop K s.lists s.keys value key pos idx ks.length

/-- `__contains__` (sortedlist.py:1801-1847) -/
def contains (K : RKEnv W α κ) (value : α) : RPy W (St α κ) Bool := do
  match ← find K value with
  | none => pure false
  | some _ => pure true

/-- `discard` (sortedlist.py:1849-1895) -/
def discard (K : RKEnv W α κ) (value : α) : RPy W (St α κ) Unit := do
  match ← find K value with
  | none => pure ()
  | some (pos, idx) => free (Verif.SKL.delete pos idx)

/-- `remove` (sortedlist.py:1897-1947) -/
def remove (K : RKEnv W α κ) (value : α) : RPy W (St α κ) Unit := do
  match ← find K value with
  | none => free (Py.raise .valueError)
  | some (pos, idx) => free (Verif.SKL.delete pos idx)

/-- `irange_key` (sortedlist.py:2044-2128), as the list of values the iterator yields. -/
def irange_key (K : RKEnv W α κ) (minKey maxKey : Option κ) (incMin incMax reverse : Bool) :
    RPy W (St α κ) (List α) := do
  let s ← free Py.get
  if s.maxes = [] then pure []
  else
    -- lines 2083-2100; `none` stands for `return iter(())`
    let lo : Option (Nat × Nat) ←
      match minKey with
      | none => pure (some (0, 0))
      | some m => do
        let minPos ← (if incMin then bisectLeft K.lt s.maxes m else bisectRight K.lt s.maxes m)
        if minPos = s.maxes.length then pure none
        else
          let ks ← free (Py.lift (getItem s.keys minPos))
          let minIdx ← (if incMin then bisectLeft K.lt ks m else bisectRight K.lt ks m)
          pure (some (minPos, minIdx))
    match lo with
    | none => pure []
    | some (minPos, minIdx) =>
      -- lines 2105-2124
      let (maxPos, maxIdx) ←
        match maxKey with
        | none => do
          let ks ← free (Py.lift (getItem s.keys (s.maxes.length - 1)))
          pure (s.maxes.length - 1, ks.length)
        | some m => do
          let maxPos ← (if incMax then bisectRight K.lt s.maxes m else bisectLeft K.lt s.maxes m)
          if maxPos = s.maxes.length then
            let ks ← free (Py.lift (getItem s.keys (maxPos - 1)))
            pure (maxPos - 1, ks.length)
          else
            let ks ← free (Py.lift (getItem s.keys maxPos))
            let maxIdx ← (if incMax then bisectRight K.lt ks m else bisectLeft K.lt ks m)
            pure (maxPos, maxIdx)
      free (Py.lift (Core.islicePos s minPos minIdx maxPos maxIdx reverse))

/-- `key(x) if x is not None else None` (sortedlist.py:2035-2036).  A key function returning `None`,
which `irange_key` would read as "no bound", is not modelled (`None` is not ordered with other keys). -/
def keyOpt (K : RKEnv W α κ) : Option α → RPy W (St α κ) (Option κ)
  | none => pure none
  | some x => do
    let k ← K.key x
    pure (some k)

/-- `irange` (sortedlist.py:2008-2042) -/
def irange (K : RKEnv W α κ) (minimum maximum : Option α) (incMin incMax reverse : Bool) :
    RPy W (St α κ) (List α) := do
  let minKey ← keyOpt K minimum
  let maxKey ← keyOpt K maximum
  irange_key K minKey maxKey incMin incMax reverse

/-- `bisect_key_left` (sortedlist.py:2174-2207) -/
def bisect_key_left (K : RKEnv W α κ) (key : κ) : RPy W (St α κ) Nat := do
  let s ← free Py.get
  if s.maxes = [] then pure 0
  else
    let pos ← bisectLeft K.lt s.maxes key
    if pos = s.maxes.length then pure s.len
    else
      let ks ← free (Py.lift (getItem s.keys pos))
      let idx ← bisectLeft K.lt ks key
      free (Core.loc K.ilog2 pos idx)

/-- `bisect_key_right` / `bisect_key` (sortedlist.py:2209-2243) -/
def bisect_key_right (K : RKEnv W α κ) (key : κ) : RPy W (St α κ) Nat := do
  let s ← free Py.get
  if s.maxes = [] then pure 0
  else
    let pos ← bisectRight K.lt s.maxes key
    if pos = s.maxes.length then pure s.len
    else
      let ks ← free (Py.lift (getItem s.keys pos))
      let idx ← bisectRight K.lt ks key
      free (Core.loc K.ilog2 pos idx)

/-- `bisect_left` (sortedlist.py:2130-2149) -/
def bisect_left (K : RKEnv W α κ) (value : α) : RPy W (St α κ) Nat := do
  let key ← K.key value
  bisect_key_left K key

/-- `bisect_right` / `bisect` (sortedlist.py:2151-2172) -/
def bisect_right (K : RKEnv W α κ) (value : α) : RPy W (St α κ) Nat := do
  let key ← K.key value
  bisect_key_right K key

/-- The loop of `count` (sortedlist.py:2277-2288). -/
def countLoop (K : RKEnv W α κ) (lists : List (List α)) (keys : List (List κ)) (value : α) (key : κ)
    (pos idx lenSublist total : Nat) : RPy W (St α κ) Nat :=
  match _h : getItem keys pos with
  | .error e => free (Py.raise e)
  | .ok ks =>
    match _h' : getItem ks idx with
    | .error e => free (Py.raise e)
    | .ok k => do
      if ← K.kcmp .ne k key then pure total
      else
        let l ← free (Py.lift (getItem lists pos))
        let x ← free (Py.lift (getItem l idx))
        let b ← K.vcmp .eq x value
        let total := if b then total + 1 else total
        if idx + 1 = lenSublist then
          if pos + 1 = keys.length then pure total
          else
            let ks' ← free (Py.lift (getItem keys (pos + 1)))
            countLoop K lists keys value key (pos + 1) 0 ks'.length total
        else countLoop K lists keys value key pos (idx + 1) lenSublist total
termination_by (keys.length - pos, (keys[pos]?.getD []).length - idx)
decreasing_by
  all_goals
    rw [getItem_ok_iff] at _h _h'
    have h1 := (List.getElem?_eq_some_iff.1 _h).1
    have h2 := (List.getElem?_eq_some_iff.1 _h').1
    first
    | (apply Prod.Lex.left; omega)
    | (apply Prod.Lex.right; simp only [_h, Option.getD_some]; omega)

/-- `count` (sortedlist.py:2245-2288) -/
def count (K : RKEnv W α κ) (value : α) : RPy W (St α κ) Nat := do
  let s ← free Py.get
  if s.maxes = [] then pure 0
  else
    let key ← K.key value
    let pos ← bisectLeft K.lt s.maxes key
    if pos = s.maxes.length then pure 0
    else
      let ks ← free (Py.lift (getItem s.keys pos))
      let idx ← bisectLeft K.lt ks key
      countLoop K s.lists s.keys value key pos idx ks.length 0

/-- The loop of `index` (sortedlist.py:2367-2384); `stop` has already been decremented. -/
def indexLoop (K : RKEnv W α κ) (lists : List (List α)) (keys : List (List κ)) (value : α) (key : κ)
    (start stop : Int) (pos idx lenSublist : Nat) : RPy W (St α κ) Int :=
  match _h : getItem keys pos with
  | .error e => free (Py.raise e)
  | .ok ks =>
    match _h' : getItem ks idx with
    | .error e => free (Py.raise e)
    | .ok k => do
      if ← K.kcmp .ne k key then free (Py.raise .valueError)
      else
        let l ← free (Py.lift (getItem lists pos))
        let x ← free (Py.lift (getItem l idx))
        let b ← K.vcmp .eq x value
        -- lines 2370-2375: `some r` stands for `return r`, `none` for falling through
        let r : Option Int ←
          if b then do
            let loc ← free (Core.loc K.ilog2 pos idx)
            if start ≤ (loc : Int) ∧ (loc : Int) ≤ stop then pure (some (loc : Int))
            else if (loc : Int) > stop then free (Py.raise .valueError)
            else pure none
          else pure none
        match r with
        | some r => pure r
        | none =>
          if idx + 1 = lenSublist then
            if pos + 1 = keys.length then free (Py.raise .valueError)
            else
              let ks' ← free (Py.lift (getItem keys (pos + 1)))
              indexLoop K lists keys value key start stop (pos + 1) 0 ks'.length
          else indexLoop K lists keys value key start stop pos (idx + 1) lenSublist
termination_by (keys.length - pos, (keys[pos]?.getD []).length - idx)
decreasing_by
  all_goals
    rw [getItem_ok_iff] at _h _h'
    have h1 := (List.getElem?_eq_some_iff.1 _h).1
    have h2 := (List.getElem?_eq_some_iff.1 _h').1
    first
    | (apply Prod.Lex.left; omega)
    | (apply Prod.Lex.right; simp only [_h, Option.getD_some]; omega)

/-- `index` (sortedlist.py:2302-2384), a Python integer. -/
def index (K : RKEnv W α κ) (value : α) (start stop : Option Int) : RPy W (St α κ) Int := do
  let s ← free Py.get
  if s.len = 0 then free (Py.raise .valueError)
  else
    let (start, stop) := indexBounds s.len start stop
    if stop ≤ start then free (Py.raise .valueError)
    else
      let key ← K.key value
      let pos ← bisectLeft K.lt s.maxes key
      if pos = s.maxes.length then free (Py.raise .valueError)
      else
        let ks ← free (Py.lift (getItem s.keys pos))
        let idx ← bisectLeft K.lt ks key
        indexLoop K s.lists s.keys value key start (stop - 1) pos idx ks.length

/-- The tail of `update` (sortedlist.py:1790-1797). -/
def fill (K : RKEnv W α κ) (values : List α) : RPy W (St α κ) Unit := do
  let s ← free Py.get
  let subs ← free (Py.lift (Core.chunks s.load values))
  free (Py.modify fun s => { s with lists := s.lists ++ subs })
  let s ← free Py.get
  Py.forEach (fun l => do
    let ks ← Py.mapEach K.key l
    free (Py.modify fun s => { s with keys := s.keys ++ [ks] })) s.lists
  let s ← free Py.get
  let ms ← free (Py.lift (mapE lastItem s.keys))
  free (Py.modify fun s => { s with maxes := s.maxes ++ ms })
  free (Py.modify fun s => { s with len := values.length })
  free (Py.modify fun s => { s with index := [] })

/-- `update` (sortedlist.py:1759-1799) -/
def update (K : RKEnv W α κ) (iterable : List α) : RPy W (St α κ) Unit := do
  let values ← K.sortedByKey iterable
  let s ← free Py.get
  if s.maxes ≠ [] then
    if values.length * 4 ≥ s.len then
      free (Py.modify fun s => { s with lists := s.lists ++ [values] })
      let s ← free Py.get
      let values ← K.sortedByKey (Core.iter s)
      free Verif.SKL.clear
      fill K values
    else
      Py.forEach (add K) values
  else
    fill K values

/-- The values of a new list, `SortedKeyList(iterable, key)` (sortedlist.py:1620-1657), which `copy`, `+` and `*` create
(2290-2300, 2386-2428).  The client's queries are about the list the method was called on; the new list has default load. -/
def newValues (K : RKEnv W α κ) (iterable : List α) : RPy W (St α κ) (List α) := do
  let values ← K.sortedByKey iterable
  let subs ← free (Py.lift (Core.chunks (St.empty : St α κ).load values))
  let keys ← Py.mapEach (Py.mapEach K.key) subs
  let _ ← free (Py.lift (mapE lastItem keys))
  pure subs.flatten

/-- The virtual methods that call neither comparison operators nor key function (`update` is not used).
(sortedlist.py:1664-2007: what SortedKeyList overrides.) -/
def methods (K : RKEnv W α κ) : Methods α κ :=
  { clear := Verif.SKL.clear, update := fun _ => pure (), delete := Verif.SKL.delete, ilog2 := K.ilog2 }

/-- One call of the API.  (Dispatch of the model: each call goes to the definition of its method, which cites its lines.) -/
def step (K : RKEnv W α κ) : Op α → RPy W (St α κ) (Out α)
  | .add v => Spec.out (fun _ => .none) (add K v)
  | .update xs => Spec.out (fun _ => .none) (update K xs)
  | .contains v => Spec.out .bool (contains K v)
  | .discard v => Spec.out (fun _ => .none) (discard K v)
  | .remove v => Spec.out (fun _ => .none) (remove K v)
  | .bisectLeft v => Spec.out (fun (n : Nat) => .int n) (bisect_left K v)
  | .bisectRight v => Spec.out (fun (n : Nat) => .int n) (bisect_right K v)
  | .count v => Spec.out (fun (n : Nat) => .int n) (count K v)
  | .index v start stop => Spec.out .int (index K v start stop)
  | .irange lo hi incMin incMax reverse => Spec.out .vals (irange K lo hi incMin incMax reverse)
  | .compare op other => Spec.out .bool (compare K.vcmp op other)
  | .iadd xs => Spec.out (fun _ => .none) (update K xs)
  | .imul n => Spec.out (fun _ => .none) (imul Verif.SKL.clear (update K) n)
  | .reset load => Spec.out (fun _ => .none) (reset Verif.SKL.clear (update K) load)
  | .delSlice sl => Spec.out (fun _ => .none) (delSlice (methods K) (update K) sl)
  | .copy => Spec.out .vals (do let s ← free Py.get; newValues K (Core.iter s))
  | .concat xs => Spec.out .vals (do let s ← free Py.get; newValues K (Core.iter s ++ xs))
  | .mul n => Spec.out .vals (do let s ← free Py.get; newValues K (repeatList (Core.iter s) n))
  | .clear => Spec.out (fun _ => .none) (free Verif.SKL.clear)
  | .getInt i => Spec.out .val (free (Core.getInt K.ilog2 i))
  | .getSlice sl => Spec.out .vals (free (Core.getSlice K.ilog2 sl))
  | .delInt i => Spec.out (fun _ => .none) (free (Core.delInt (methods K) i))
  | .pop i => Spec.out .val (free (Core.pop (methods K) i))
  | .islice start stop reverse => Spec.out .vals (free (Core.islice K.ilog2 start stop reverse))
  | .iter => Spec.out .vals (free (ListAPI.read fun s => .ok (Core.iter s)))
  | .reversed => Spec.out .vals (free (ListAPI.read fun s => .ok (Core.reversed s)))
  | .len => Spec.out (fun (n : Nat) => .int n) (free (ListAPI.read fun s => .ok (Core.length s)))
  | .unsupported u => Spec.out (fun _ => .none) (free (Core.unsupported u))

/-- One call on a SortedKeyList, searches by key included.
(Dispatch of the model: each call goes to the definition of its method, which cites its lines.) -/
def kstep (K : RKEnv W α κ) : KOp α κ → RPy W (St α κ) (Out α)
  | .op o => step K o
  | .bisectKeyLeft k => Spec.out (fun (n : Nat) => .int n) (bisect_key_left K k)
  | .bisectKeyRight k => Spec.out (fun (n : Nat) => .int n) (bisect_key_right K k)
  | .irangeKey lo hi incMin incMax reverse => Spec.out .vals (irange_key K lo hi incMin incMax reverse)

end Reent.SKL

/-! ## The client's code -/

namespace Reent
variable {σ Q R β : Type}

/-- Run the client's code on the object, where `query` is what the methods of the object do.
(Scaffolding of the model: no code of /repo.) -/
def exec (query : Q → RPy (Seen Q R) σ R) : Client Q R β → RPy (Seen Q R) σ β
  | .done r => Py.lift r
  | .ask q k => fun p =>
    let (r, s, w) := query q p
    exec query (k r) (s, { w with answers := (q, r) :: w.answers })

/-- The client's code is called: which code that is may depend on all it has seen.
(Scaffolding of the model: no code of /repo.) -/
def calling (query : Q → RPy (Seen Q R) σ R) (code : Seen Q R → Client Q R β) : RPy (Seen Q R) σ β := fun p =>
  exec query (code p.2) (p.1, { p.2 with calls := p.2.calls + 1 })

end Reent

namespace Reent
variable {α κ : Type}

/-- `sorted(xs)`: it compares, and gives the result of `sort`.  (Python's own, called by the code of /repo.) -/
def SL.sorting {W : Type} (cmp : CmpOp → α → α → RPy W (St α α) Bool) (pairs : List α → List (α × α))
    (sort : List α → Except PyErr (List α)) (xs : List α) : RPy W (St α α) (List α) := do
  Py.forEach (fun ab => do let _ ← cmp .lt ab.1 ab.2; pure ()) (pairs xs)
  free (Py.lift (sort xs))

/-- `sorted(xs, key=key)`: it calls the key function for each value, compares keys, and gives the result of `sort`.
(Python's own, called by the code of /repo.) -/
def SKL.sorting {W : Type} (key : α → RPy W (St α κ) κ) (kcmp : CmpOp → κ → κ → RPy W (St α κ) Bool)
    (pairs : List κ → List (κ × κ)) (sort : List α → Except PyErr (List α)) (xs : List α) : RPy W (St α κ) (List α) := do
  let ks ← Py.mapEach key xs
  Py.forEach (fun ab => do let _ ← kcmp .lt ab.1 ab.2; pure ()) (pairs ks)
  free (Py.lift (sort xs))

end Reent

/-- The environment of a SortedList at nesting depth `d`, where `n` further levels of nested calls are modelled: the queries that the
client's code asks are calls of the methods, in the environment one level deeper.  `E` gives `sorted` and `int(math.log(·, 2))`.
(Scaffolding of the model: no code of /repo.) -/
def SL.Clients.env {α : Type} (C : SL.Clients α) (E : Env α) : (n d : Nat) → REnv (Seen (Query α) (Out α)) α
  | 0, d =>
    let cmp := fun op a b => Reent.calling (fun _ => Py.raise .modelGap) (C.cmp d op a b)
    { cmp := cmp, sorted := Reent.SL.sorting cmp C.pairs E.sorted, ilog2 := E.ilog2 }
  | n + 1, d =>
    let cmp := fun op a b => Reent.calling (fun q => Reent.SL.step (SL.Clients.env C E n (d + 1)) q.1) (C.cmp d op a b)
    { cmp := cmp, sorted := Reent.SL.sorting cmp C.pairs E.sorted, ilog2 := E.ilog2 }

/-- The environment of a SortedKeyList.  (Scaffolding of the model: no code of /repo.) -/
def SKL.Clients.env {α κ : Type} (C : SKL.Clients α κ) (K : KEnv α κ) : (n d : Nat) → RKEnv (Seen (KQuery α κ) (Out α)) α κ
  | 0, d =>
    let key := fun a => Reent.calling (fun _ => Py.raise .modelGap) (C.key d a)
    let kcmp := fun op a b => Reent.calling (fun _ => Py.raise .modelGap) (C.kcmp d op a b)
    let vcmp := fun op a b => Reent.calling (fun _ => Py.raise .modelGap) (C.vcmp d op a b)
    { key := key, kcmp := kcmp, vcmp := vcmp, sortedByKey := Reent.SKL.sorting key kcmp C.pairs K.sortedByKey, ilog2 := K.ilog2 }
  | n + 1, d =>
    let query : KQuery α κ → RPy (Seen (KQuery α κ) (Out α)) (St α κ) (Out α) :=
      fun q => Reent.SKL.kstep (SKL.Clients.env C K n (d + 1)) q.1
    let key := fun a => Reent.calling query (C.key d a)
    let kcmp := fun op a b => Reent.calling query (C.kcmp d op a b)
    let vcmp := fun op a b => Reent.calling query (C.vcmp d op a b)
    { key := key, kcmp := kcmp, vcmp := vcmp, sortedByKey := Reent.SKL.sorting key kcmp C.pairs K.sortedByKey, ilog2 := K.ilog2 }

end Verif
