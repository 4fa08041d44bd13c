import Verif.Model.Iter
import Verif.Model.World
/-!
# Iterators by reference

As Model/Iter.lean, but an iterator holds the sublist objects that it goes through, as Python's iterators do.  It keeps
them when the container splits, merges or drops sublists, and what it yields next is read from the objects as they are
when the value is asked for.

What CPython's iterators do with the objects they hold:
* a list iterator compares its position with the length of the list at that time, and once it has found the end it drops
  the list for good (`listiter_next`, `listreviter_next`);
* `map` has consumed an argument when its function raises (`map_next`), so the next request goes on with the next argument;
* `chain` drops the iterator of its iterables when that raises (`chain_next`), and is then exhausted.

All line numbers refer to /repo/src/sortedcontainers/sortedlist.py.
-/

namespace Verif
namespace Heap
variable {α κ : Type}

/-- A part of an iterator: what it has still to do.
(The iterators of `chain`, `map`, `repeat` and lists that sortedlist.py:847-867, 931-992 put together; in C.) -/
inductive HPart where
  /-- `map(a.__getitem__, indices)` for a sublist `a` -/
  | items (a : Addr) (indices : List Nat)
  /-- `iter(a)`, standing at `idx` -/
  | sub (a : Addr) (idx : Nat)
  /-- `reversed(a)`, with `count` values to go -/
  | subRev (a : Addr) (count : Nat)
  /-- `chain.from_iterable(map(_lists.__getitem__, positions))`, with `map(reversed, ..)` around the sublists if `rev` -/
  | subs (positions : List Nat) (rev : Bool)
  /-- `chain.from_iterable(_lists)`, standing at the sublist `pos` -/
  | lists (pos : Nat)
  /-- `chain.from_iterable(map(reversed, reversed(_lists)))`, with `count` sublists to go -/
  | listsRev (count : Nat)
deriving DecidableEq

/-- An iterator: a chain of parts.
(The iterators of `chain`, `map`, `repeat` and lists that sortedlist.py:847-867, 931-992 put together; in C.) -/
abbrev HCursor := List HPart

namespace HCursor

/-- Bounds the number of parts that are opened or dropped before the next value.
(The iterators of `chain`, `map`, `repeat` and lists that sortedlist.py:847-867, 931-992 put together; in C.) -/
def weight (n : Nat) : HCursor → Nat
  | [] => 0
  | .items .. :: c | .sub .. :: c | .subRev .. :: c => 1 + weight n c
  | .subs ps _ :: c => 2 * ps.length + 1 + weight n c
  | .lists p :: c => 2 * (n - p) + 1 + weight n c
  | .listsRev k :: c => 2 * k + 1 + weight n c

/-- `next(it)`, where `as` are the sublists in `_lists` and `cell` the contents of list objects: the next value, `none` for
StopIteration, or an exception; and the iterator afterwards.
(The iterators of `chain`, `map`, `repeat` and lists that sortedlist.py:847-867, 931-992 put together; in C.) -/
def next (as : List Addr) (cell : Addr → List α) : HCursor → Except PyErr (Option α) × HCursor
  | [] => (.ok none, [])
  | .items _ [] :: c => next as cell c
  | .items a (i :: is) :: c =>
    match getItem (cell a) i with
    | .error e => (.error e, .items a is :: c)
    | .ok v => (.ok (some v), .items a is :: c)
  | .sub a i :: c =>
    match (cell a)[i]? with
    | some v => (.ok (some v), .sub a (i + 1) :: c)
    | none => next as cell c
  | .subRev _ 0 :: c => next as cell c
  | .subRev a (k + 1) :: c =>
    match (cell a)[k]? with
    | some v => (.ok (some v), .subRev a k :: c)
    | none => next as cell c
  | .subs [] _ :: c => next as cell c
  | .subs (p :: ps) rev :: c =>
    match getItem as p with
    | .error e => (.error e, c)
    | .ok a => next as cell ((if rev then .subRev a (cell a).length else .sub a 0) :: .subs ps rev :: c)
  | .lists p :: c =>
    if h : p < as.length then next as cell (.sub as[p] 0 :: .lists (p + 1) :: c) else next as cell c
  | .listsRev 0 :: c => next as cell c
  | .listsRev (k + 1) :: c =>
    match as[k]? with
    | some a => next as cell (.subRev a (cell a).length :: .listsRev k :: c)
    | none => next as cell c
termination_by c => weight as.length c
decreasing_by
  all_goals simp only [weight, List.length_cons]
  all_goals try omega
  all_goals split <;> simp only [weight] <;> omega

/-- A part of a new iterator: `_lists[pos].__getitem__` (lines 951-990) holds the sublist. -/
def part (as : List Addr) : Part → Except PyErr HPart
  | .items pos is => (getItem as pos).map (.items · is)
  | .sub pos i => (getItem as pos).map (.sub · i)
  | .subRev pos k => (getItem as pos).map (.subRev · k)
  | .subs ps rev => .ok (.subs ps rev)
  | .lists pos => .ok (.lists pos)
  | .listsRev k => .ok (.listsRev k)

/-- A new iterator.  (sortedlist.py:847-992, 994-1073, 2008-2128.) -/
def resolve (as : List Addr) : Cursor → Except PyErr HCursor := mapE (part as)

end HCursor

/-- A call that returns an iterator: the positions are found by `open` (Model/Iter.lean), which only reads sublists.
(sortedlist.py:847-992, 994-1073, 2008-2128.) -/
def openIter (m : Py (St α κ) Cursor) : Run α κ HCursor := do
  let c ← reading m
  let o ← self
  Py.lift (HCursor.resolve o.lists c)

/-- A container and the calls on it.  `K`, `C`: the calls that do and do not return iterators; `R`: the results of the
latter.  (Scaffolding of the model: no code of /repo.) -/
structure LiveSys (α κ K C R : Type) where
  opens : K → Run α κ HCursor
  call : C → Run α κ R

/-- The list objects, the container, and the iterators created so far.  (Scaffolding of the model: no code of /repo.) -/
abbrev LiveState (α κ : Type) := Ctx α κ × List HCursor

/-- One event.  (Scaffolding of the model: no code of /repo.) -/
def LiveSys.step {K C R : Type} (A : LiveSys α κ K C R) : Event K C → Py (LiveState α κ) (EvOut α R)
  | .opens k => fun (s, its) =>
    match A.opens k s with
    | (.ok c, s') => (.ok .opened, s', its ++ [c])
    | (.error e, s') => (.error e, s', its)
  | .next j => fun (s, its) =>
    match its[j]? with
    | none => (.ok .noIterator, s, its)
    | some c =>
      match c.next s.self.lists s.cell with
      | (.error e, c') => (.error e, s, its.set j c')
      | (.ok none, c') => (.ok .stop, s, its.set j c')
      | (.ok (some v), c') => (.ok (.value v), s, its.set j c')
  | .call op => fun (s, its) =>
    match A.call op s with
    | (.ok r, s') => (.ok (.result r), s', its)
    | (.error e, s') => (.error e, s', its)

/-- `SortedList()`, and no iterators.  (sortedlist.py:89-116.) -/
def LiveState.start : LiveState α κ := ({ mem := { vals := [], keys := [] }, self := Obj.empty }, [])

/-- After the events.  (Scaffolding of the model: no code of /repo.) -/
def LiveSys.after {K C R : Type} (A : LiveSys α κ K C R) (evs : List (Event K C)) : LiveState α κ :=
  (runHist A.step evs LiveState.start).2

/-- The values in the container (`list(sl)`).  (Scaffolding of the model: no code of /repo.) -/
def LiveState.values (s : LiveState α κ) : List α := Verif.Core.iter s.1.view

/-- A SortedList and its iterators (`__iter__`, `__reversed__`, `islice`, `irange`: lines 847-867, 886-929, 994-1073) -/
def SL.liveSys (E : Env α) : LiveSys α α (IterKind α) (Op α) (Verif.Out α) where
  opens k := openIter (Verif.SL.openIter E k)
  call := (SL.heapAPI E).call

/-- A SortedKeyList and its iterators (also `irange`, `irange_key`: lines 2008-2128) -/
def SKL.liveSys (K : KEnv α κ) : LiveSys α κ (KIterKind α κ) (KOp α κ) (Verif.Out α) where
  opens k := openIter (Verif.SKL.kopenIter K k)
  call
    | .op o => (SKL.heapAPI K).call o
    | o => reading (Verif.SKL.kstep K o)

end Heap
end Verif
