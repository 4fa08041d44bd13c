import Verif.Model.SortedSet
import Verif.Model.SortedDict
/-!
# The views of a SortedDict as sets and as sequences

`SortedKeysView(KeysView, Sequence)`, `SortedItemsView(ItemsView, Sequence)` and `SortedValuesView(ValuesView, Sequence)`
(sorteddict.py:596-744) get all methods but `__getitem__`, `__delitem__` and `_from_iterable` from `collections.abc`.
The mixin methods of CPython's `Lib/_collections_abc.py` are modelled here, as they are resolved for these classes:
`__contains__` and `__iter__` are those of `KeysView`, `ItemsView`, `ValuesView`; `__len__` that of `MappingView`;
comparisons, `isdisjoint` and the operators those of `Set`; `__reversed__`, `index` and `count` those of `Sequence`.
A view holds only a reference to its dict, so the methods are functions of the state of the dict.
`x is y or x == y` is modelled by `==`, for values that are equal to themselves.
-/

namespace Verif

/-- What the mixin methods of `Set` use of a set `x`: `len(x)`, the values that iteration yields, `v in x`.
(Scaffolding of the model: no code of /repo.) -/
structure ASet (β : Type) where
  len : Nat
  iter : Except PyErr (List β)
  has : β → Bool

/-- The other operand of `view - other` etc.: an instance of `collections.abc.Set` (built-in set, sorted set, view), or
another iterable.  (Scaffolding of the model: no code of /repo.) -/
inductive SetOperand (β : Type) where
  | set (b : ASet β)
  | iterable (xs : List β)

namespace ASet
variable {β τ σ : Type}

/-- A built-in set as the operand of a mixin method.  (Python's own, called by the code of /repo.) -/
def ofBuiltin (S : SetOps τ β) (t : τ) : ASet β := { len := S.len t, iter := .ok (S.toList t), has := fun v => S.mem v t }

/-- A sorted set as the operand of a mixin method.  (Scaffolding of the model: no code of /repo.) -/
def ofSorted (S : SetOps τ β) (L : ListAPI σ β) (s : SS τ σ) : ASet β :=
  { len := SS.length S s, iter := .ok (SS.iter L s), has := fun v => SS.contains S v s }

/-- `Set.__le__`: `if len(self) > len(other): return False`, then all values of `self` must be in `other`
(`collections.abc.Set`; inherited, sorteddict.py:596, 643.) -/
def le (a b : ASet β) : Except PyErr Bool :=
  if a.len > b.len then .ok false
  else do
    let xs ← a.iter
    pure (xs.all b.has)

/-- `Set.__ge__`: `if len(self) < len(other): return False`, then all values of `other` must be in `self`
(`collections.abc.Set`; inherited, sorteddict.py:596, 643.) -/
def ge (a b : ASet β) : Except PyErr Bool :=
  if a.len < b.len then .ok false
  else do
    let xs ← b.iter
    pure (xs.all a.has)

/-- The six operators: `__lt__` is `len(self) < len(other) and self.__le__(other)`, `__gt__` is
`len(self) > len(other) and self.__ge__(other)`, `__eq__` is `len(self) == len(other) and self.__le__(other)`, and
`__ne__` negates `__eq__`.  (`collections.abc.Set`; inherited, sorteddict.py:596, 643.) -/
def compare (op : CmpOp) (a b : ASet β) : Except PyErr Bool :=
  match op with
  | .le => le a b
  | .ge => ge a b
  | .lt => if a.len < b.len then le a b else .ok false
  | .gt => if a.len > b.len then ge a b else .ok false
  | .eq => if a.len = b.len then le a b else .ok false
  | .ne => do
    let r ← if a.len = b.len then le a b else .ok false
    pure !r

/-- `Set.isdisjoint`: no value of `other` is in `self` (`collections.abc.Set`; inherited, sorteddict.py:596, 643.) -/
def isdisjoint (xs : List β) (a : ASet β) : Bool := !xs.any a.has

variable (S : SetOps τ β) (L : ListAPI σ β)

/-- `self._from_iterable(it)` (sorteddict.py:607-609, 656-658): `SortedSet(it)`.  No key function is passed, so `L` is
the list class without key. -/
def fromIterable (xs : List β) : Except PyErr (SS τ σ) := SS.new S L (some xs)

/-- `Set.__and__`, `__rand__`: `_from_iterable(value for value in other if value in self)`
(`collections.abc.Set`; inherited, sorteddict.py:596, 643.) -/
def and (xs : List β) (a : ASet β) : Except PyErr (SS τ σ) := fromIterable S L (xs.filter a.has)

/-- `Set.__or__`, `__ror__`: `_from_iterable(e for s in (self, other) for e in s)`
(`collections.abc.Set`; inherited, sorteddict.py:596, 643.) -/
def or (xs : List β) (a : ASet β) : Except PyErr (SS τ σ) := do
  let own ← a.iter
  fromIterable S L (own ++ xs)

/-- `if not isinstance(other, Set): other = self._from_iterable(other)`
(`collections.abc.Set`; inherited, sorteddict.py:596, 643.) -/
def operand : SetOperand β → Except PyErr (ASet β)
  | .set b => .ok b
  | .iterable xs => do
    let s ← fromIterable S L xs
    pure (ofSorted S L s)

/-- `Set.__sub__`: `_from_iterable(value for value in self if value not in other)`
(`collections.abc.Set`; inherited, sorteddict.py:596, 643.) -/
def sub (other : SetOperand β) (a : ASet β) : Except PyErr (SS τ σ) := do
  let b ← operand S L other
  let own ← a.iter
  fromIterable S L (own.filter fun v => !b.has v)

/-- `Set.__rsub__`: `_from_iterable(value for value in other if value not in self)`
(`collections.abc.Set`; inherited, sorteddict.py:596, 643.) -/
def rsub (other : SetOperand β) (a : ASet β) : Except PyErr (SS τ σ) := do
  let b ← operand S L other
  let theirs ← b.iter
  fromIterable S L (theirs.filter fun v => !a.has v)

/-- `Set.__xor__`, `__rxor__`: `(self - other) | (other - self)`.  `self - other` is a sorted set, so `|` is
`SortedSet.__or__`.  `other - self` is `SortedSet.__sub__` if `other` was just made a sorted set; for a built-in set it is
`self.__rsub__(other)`, since `set.__sub__` does not take a view; for another view it is `Set.__sub__` of that view, the same
values.  (A sorted set with key function as `other` gives the same values in another order, which `|` forgets.)
(`collections.abc.Set`; inherited, sorteddict.py:596, 643.) -/
def xor (other : SetOperand β) (a : ASet β) : Except PyErr (SS τ σ) := do
  let left ← sub S L other a
  match other with
  | .set b => do
    let right ← rsub S L (.set b) a
    SS.union S L [SS.iter L right] left
  | .iterable xs => do
    let o ← fromIterable S L xs
    let own ← a.iter
    let right ← SS.difference S L [own] o
    SS.union S L [SS.iter L right] left

end ASet

/-! ## The mixin methods of `Sequence` -/

namespace Seq
variable {σ β : Type}

/-- `Sequence.__reversed__`: `for i in reversed(range(len(self))): yield self[i]`, as the list of values yielded, consumed
without other calls in between (`collections.abc.Sequence`; inherited, sorteddict.py:596, 643, 698.) -/
def reversed (len : σ → Nat) (at_ : Int → Py σ β) : Py σ (List β) := do
  let s ← Py.get
  Py.mapEach at_ ((List.range (len s)).reverse.map Int.ofNat)

/-- The loop of `Sequence.index`: `while stop is None or i < stop: try: v = self[i] except IndexError: break;
if v == value: return i; i += 1`.  `fuel` bounds the number of rounds; the loop ends by itself before it is used up, since
`self[len(self)]` raises.  (`collections.abc.Sequence`; inherited, sorteddict.py:596, 643, 698.) -/
def indexLoop (at_ : Int → Py σ β) (eq : β → β → Bool) (value : β) (stop : Option Int) : Nat → Int → Py σ Int
  | 0, _ => Py.raise .modelGap
  | fuel + 1, i => fun s =>
    if stop.all (i < ·) then
      match at_ i s with
      | (.ok v, s') => if eq v value then (.ok i, s') else indexLoop at_ eq value stop fuel (i + 1) s'
      | (.error .indexError, s') => (.error .valueError, s')
      | (.error e, s') => (.error e, s')
    else (.error .valueError, s)

/-- `Sequence.index(value, start=0, stop=None)`: `if start < 0: start = max(len(self) + start, 0)`,
`if stop is not None and stop < 0: stop += len(self)`, then the loop, then `raise ValueError`
(`collections.abc.Sequence`; inherited, sorteddict.py:596, 643, 698.) -/
def index (len : σ → Nat) (at_ : Int → Py σ β) (eq : β → β → Bool) (value : β) (start : Int) (stop : Option Int) :
    Py σ Int := do
  let s ← Py.get
  let start := if start < 0 then max ((len s : Int) + start) 0 else start
  let stop := stop.map fun (t : Int) => if t < 0 then t + (len s : Int) else t
  indexLoop at_ eq value stop (len s + 1) start

/-- `Sequence.count`: `sum(1 for v in self if v == value)`
(`collections.abc.Sequence`; inherited, sorteddict.py:596, 643, 698.) -/
def count (iter : σ → Except PyErr (List β)) (eq : β → β → Bool) (value : β) (s : σ) : Except PyErr Nat := do
  let xs ← iter s
  pure (xs.countP (eq · value))

end Seq

/-! ## The three views -/

namespace SD
variable {κ ν σ : Type} (eqv : κ → κ → Bool) (veq : ν → ν → Bool) (L : ListAPI σ κ)

/-- `sd.keys()` as a set: `KeysView.__contains__` is `key in self._mapping` (sorteddict.py:596, inherited.) -/
def keysView (s : SD κ ν σ) : ASet κ := { len := length s, iter := .ok (iter L s), has := fun k => contains eqv k s }

/-- `sd.items()` as a set: `ItemsView.__contains__` looks the key up, False on KeyError, else compares the values
(sorteddict.py:643, inherited.) -/
def itemsView (s : SD κ ν σ) : ASet (κ × ν) :=
  { len := length s, iter := items eqv L s, has := fun p => (get eqv p.1 s).any fun v => veq v p.2 }

/-- `==` of items (tuples) (Python's own, called by the code of /repo.) -/
def itemEq (p q : κ × ν) : Bool := eqv p.1 q.1 && veq p.2 q.2

/-- `value in sd.values()` (`ValuesView.__contains__`) (sorteddict.py:698, inherited.) -/
def valuesContains (value : ν) (s : SD κ ν σ) : Except PyErr Bool := do
  let vs ← values eqv L s
  pure (vs.any fun v => veq v value)

/-- `reversed(sd.keys())` (sorteddict.py:596, inherited.) -/
def keysReversed : Py (SD κ ν σ) (List κ) := Seq.reversed length (keysAt L)

/-- `reversed(sd.items())` (sorteddict.py:643, inherited.) -/
def itemsReversed : Py (SD κ ν σ) (List (κ × ν)) := Seq.reversed length (peekitem eqv L)

/-- `reversed(sd.values())` (sorteddict.py:698, inherited.) -/
def valuesReversed : Py (SD κ ν σ) (List ν) := Seq.reversed length (valuesAt eqv L)

/-- `sd.keys().index(key, start, stop)` (sorteddict.py:596, inherited.) -/
def keysIndex (k : κ) (start : Int) (stop : Option Int) : Py (SD κ ν σ) Int := Seq.index length (keysAt L) eqv k start stop

/-- `sd.items().index(item, start, stop)` (sorteddict.py:643, inherited.) -/
def itemsIndex (p : κ × ν) (start : Int) (stop : Option Int) : Py (SD κ ν σ) Int :=
  Seq.index length (peekitem eqv L) (itemEq eqv veq) p start stop

/-- `sd.values().index(value, start, stop)` (sorteddict.py:698, inherited.) -/
def valuesIndex (v : ν) (start : Int) (stop : Option Int) : Py (SD κ ν σ) Int :=
  Seq.index length (valuesAt eqv L) veq v start stop

/-- `sd.keys().count(key)` (sorteddict.py:596, inherited.) -/
def keysCount (k : κ) (s : SD κ ν σ) : Except PyErr Nat := Seq.count (fun s => .ok (iter L s)) eqv k s

/-- `sd.items().count(item)` (sorteddict.py:643, inherited.) -/
def itemsCount (p : κ × ν) (s : SD κ ν σ) : Except PyErr Nat := Seq.count (items eqv L) (itemEq eqv veq) p s

/-- `sd.values().count(value)` (sorteddict.py:698, inherited.) -/
def valuesCount (v : ν) (s : SD κ ν σ) : Except PyErr Nat := Seq.count (values eqv L) veq v s

end SD
end Verif
