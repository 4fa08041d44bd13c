/-!
# The fragment of Python the library rests on

Exceptions are values.  A method that may mutate its object and may raise is a
function `σ → Except PyErr α × σ`; the second component is the object *after* the
call, also when the call raised.  Nothing here is specific to sortedcontainers.
-/

namespace Verif

/-- Python exceptions, by class; messages are not modelled.
`other n` is an arbitrary exception raised by user code (comparison or key function).
`modelGap` is raised by the *model* where Python would go on with a number that the
model cannot represent (a negative position); the theorems show it never is. -/
inductive PyErr where
  | indexError
  | valueError
  | keyError
  | typeError
  | notImplementedError
  | assertionError
  | other (n : Nat)
  | modelGap
deriving DecidableEq, Repr

/-- A computation on an object of state type `σ`: result or exception, and the object afterwards. -/
def Py (σ α : Type) : Type := σ → Except PyErr α × σ

namespace Py

variable {σ α β : Type}

protected def pure (a : α) : Py σ α := fun s => (.ok a, s)

/-- Sequencing; an exception skips the rest and keeps the mutations made so far. -/
protected def bind (m : Py σ α) (f : α → Py σ β) : Py σ β := fun s =>
  match m s with
  | (.ok a, s') => f a s'
  | (.error e, s') => (.error e, s')

instance : Monad (Py σ) where
  pure := Py.pure
  bind := Py.bind

/-- `raise e` -/
def raise (e : PyErr) : Py σ α := fun s => (.error e, s)

/-- A computation that may raise but does not touch the object. -/
def lift (x : Except PyErr α) : Py σ α := fun s => (x, s)

/-- Read all attributes of the object. -/
def get : Py σ σ := fun s => (.ok s, s)

/-- Assign attributes of the object. -/
def modify (f : σ → σ) : Py σ Unit := fun s => (.ok (), f s)

/-- `for x in xs: f(x)` -/
def forEach (f : β → Py σ Unit) : List β → Py σ Unit
  | [] => pure ()
  | b :: bs => do f b; forEach f bs

/-- `[f(x) for x in xs]` -/
def mapEach (f : β → Py σ α) : List β → Py σ (List α)
  | [] => pure []
  | b :: bs => do
    let a ← f b
    let as ← mapEach f bs
    pure (a :: as)

end Py

/-! ## List primitives -/

section Lists
variable {α β : Type}

/-- `l[i]` for `i >= 0` -/
def getItem (l : List α) (i : Nat) : Except PyErr α :=
  match l[i]? with
  | some a => .ok a
  | none => .error .indexError

theorem getItem_ok_iff {l : List α} {i : Nat} {a : α} : getItem l i = .ok a ↔ l[i]? = some a := by
  unfold getItem
  split <;> simp_all

/-- `l[-1]` -/
def lastItem (l : List α) : Except PyErr α :=
  match l.getLast? with
  | some a => .ok a
  | none => .error .indexError

/-- `l[i] = a` for `i >= 0` -/
def setItem (l : List α) (i : Nat) (a : α) : Except PyErr (List α) :=
  if i < l.length then .ok (l.set i a) else .error .indexError

/-- `del l[i]` for `i >= 0` -/
def delItem (l : List α) (i : Nat) : Except PyErr (List α) :=
  if i < l.length then .ok (l.eraseIdx i) else .error .indexError

/-- `l.insert(i, a)` for `i >= 0` (positions past the end append) -/
def insertAt (l : List α) (i : Nat) (a : α) : List α :=
  l.take i ++ a :: l.drop i

/-- `l[a:b]` for `0 <= a`, `0 <= b` -/
def subList (l : List α) (a b : Nat) : List α := (l.take b).drop a

/-- `[f(x) for x in xs]` with an `f` that may raise -/
def mapE (f : α → Except PyErr β) : List α → Except PyErr (List β)
  | [] => .ok []
  | a :: as =>
    match f a with
    | .error e => .error e
    | .ok b =>
      match mapE f as with
      | .error e => .error e
      | .ok bs => .ok (b :: bs)

/-- `list(map(l.__getitem__, idxs))` -/
def getItems (l : List α) (idxs : List Nat) : Except PyErr (List α) := mapE (getItem l) idxs

/-- `l * n` for an integer `n` (no copies when `n <= 0`) -/
def repeatList (l : List α) (n : Int) : List α := (List.replicate n.toNat l).flatten

end Lists

/-! ## The six comparison operators -/

/-- `==`, `!=`, `<`, `>`, `<=`, `>=` -/
inductive CmpOp where
  | eq | ne | lt | gt | le | ge
deriving DecidableEq, Repr

/-- The operator on integers. -/
def CmpOp.onNat (op : CmpOp) (a b : Nat) : Bool :=
  match op with
  | .eq => a == b
  | .ne => a != b
  | .lt => a < b
  | .gt => b < a
  | .le => a ≤ b
  | .ge => b ≤ a

/-! ## `bisect` (Lib/bisect.py of CPython; the C version runs the same loop) -/

section Bisect
variable {α : Type}

/-- The loop of `bisect.bisect_right`:
`while lo < hi: mid = (lo+hi)//2; if x < a[mid]: hi = mid else: lo = mid+1` -/
def bisectRightLoop (lt : α → α → Except PyErr Bool) (a : List α) (x : α) (lo hi : Nat) :
    Except PyErr Nat :=
  if _h : lo < hi then
    match getItem a ((lo + hi) / 2) with
    | .error e => .error e
    | .ok m =>
      match lt x m with
      | .error e => .error e
      | .ok true => bisectRightLoop lt a x lo ((lo + hi) / 2)
      | .ok false => bisectRightLoop lt a x ((lo + hi) / 2 + 1) hi
  else .ok lo
termination_by hi - lo
decreasing_by all_goals omega

/-- `bisect_right(a, x)` -/
def bisectRight (lt : α → α → Except PyErr Bool) (a : List α) (x : α) : Except PyErr Nat :=
  bisectRightLoop lt a x 0 a.length

/-- The loop of `bisect.bisect_left`:
`while lo < hi: mid = (lo+hi)//2; if a[mid] < x: lo = mid+1 else: hi = mid` -/
def bisectLeftLoop (lt : α → α → Except PyErr Bool) (a : List α) (x : α) (lo hi : Nat) :
    Except PyErr Nat :=
  if _h : lo < hi then
    match getItem a ((lo + hi) / 2) with
    | .error e => .error e
    | .ok m =>
      match lt m x with
      | .error e => .error e
      | .ok true => bisectLeftLoop lt a x ((lo + hi) / 2 + 1) hi
      | .ok false => bisectLeftLoop lt a x lo ((lo + hi) / 2)
  else .ok lo
termination_by hi - lo
decreasing_by all_goals omega

/-- `bisect_left(a, x)` -/
def bisectLeft (lt : α → α → Except PyErr Bool) (a : List α) (x : α) : Except PyErr Nat :=
  bisectLeftLoop lt a x 0 a.length

/-- `bisect.insort(a, x)` (= `insort_right`): `a.insert(bisect_right(a, x), x)` -/
def insort (lt : α → α → Except PyErr Bool) (a : List α) (x : α) : Except PyErr (List α) :=
  match bisectRight lt a x with
  | .error e => .error e
  | .ok i => .ok (insertAt a i x)

end Bisect

/-! ## `slice` and `range` -/

/-- `slice(start, stop, step)`; `none` is Python's `None`. -/
structure PySlice where
  start : Option Int := none
  stop : Option Int := none
  step : Option Int := none
deriving DecidableEq, Repr

/-- One bound of `slice.indices` (CPython `PySlice_AdjustIndices`): negative values count
from the end, then the value is clamped to `[lower, upper]`. -/
def adjustIndex (len : Nat) (lower upper i : Int) : Int :=
  if i < 0 then max (i + len) lower else min i upper

/-- `slice(start, stop, step).indices(len)`; raises `ValueError` for a zero step. -/
def PySlice.indices (sl : PySlice) (len : Nat) : Except PyErr (Int × Int × Int) :=
  let step := sl.step.getD 1
  if step = 0 then .error .valueError
  else
    let lower : Int := if step < 0 then -1 else 0
    let upper : Int := if step < 0 then (len : Int) - 1 else len
    let start := match sl.start with
      | none => if step < 0 then upper else lower
      | some i => adjustIndex len lower upper i
    let stop := match sl.stop with
      | none => if step < 0 then lower else upper
      | some i => adjustIndex len lower upper i
    .ok (start, stop, step)

/-- Number of elements of `range(start, stop, step)`, `step ≠ 0`. -/
def rangeLen (start stop step : Int) : Nat :=
  if 0 < step then
    if start < stop then ((stop - start - 1) / step + 1).toNat else 0
  else
    if stop < start then ((start - stop - 1) / (-step) + 1).toNat else 0

/-- `list(range(start, stop, step))`, `step ≠ 0`. -/
def pyRange (start stop step : Int) : List Int :=
  (List.range (rangeLen start stop step)).map fun (i : Nat) => start + (i : Int) * step

end Verif
