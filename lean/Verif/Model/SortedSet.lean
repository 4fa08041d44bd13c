import Verif.Model.API
/-!
# sortedset.py

A SortedSet holds a built-in set `_set` and a sorted list `_list` (a SortedList, or a SortedKeyList when a key function
was given: `SortedList.__new__`, sortedlist.py:118-146).  The built-in set is a parameter `S : SetOps τ α`, about which
only the behaviour documented by Python is assumed (`SetOps.Lawful`); in particular its iteration order is arbitrary.
The sorted list is a parameter `L : ListAPI σ α`; the same `L` stands for the same `_key`.
-/

namespace Verif

/-- The built-in `set`: objects of type `τ`, with values of type `α`.  Values are hashable and `==` does not raise.
(Python's own, called by the code of /repo.) -/
structure SetOps (τ α : Type) where
  /-- `set()` -/
  empty : τ
  /-- `set(iterable)` -/
  ofList : List α → τ
  /-- the values in iteration order -/
  toList : τ → List α
  /-- `x in t` -/
  mem : α → τ → Bool
  /-- `len(t)` -/
  len : τ → Nat
  /-- `t.add(x)` -/
  add : α → τ → τ
  /-- `t.remove(x)` -/
  remove : α → τ → Except PyErr τ
  /-- `t.update(iterable)` -/
  update : List α → τ → τ
  /-- `t.difference_update(iterable)` -/
  differenceUpdate : List α → τ → τ
  /-- `t.intersection_update(*iterables)` -/
  intersectionUpdate : List (List α) → τ → τ
  /-- `t.symmetric_difference_update(iterable)` -/
  symmetricDifferenceUpdate : List α → τ → τ
  /-- `t.difference(*iterables)` -/
  difference : List (List α) → τ → τ
  /-- `t.intersection(*iterables)` -/
  intersection : List (List α) → τ → τ
  /-- `t.symmetric_difference(iterable)` -/
  symmetricDifference : List α → τ → τ
  /-- `set(t)` -/
  copy : τ → τ

/-- Add `x` unless an equal value is there already.  (Python's own, called by the code of /repo.) -/
def addNew {α : Type} (eqv : α → α → Bool) (l : List α) (x : α) : List α :=
  if l.any (eqv · x) then l else l ++ [x]

/-- What Python documents about `set`.  `eqv` is `==` of values (an equivalence, consistent with hashing).
Iteration yields each value once, in an order of which nothing is assumed (hence `Perm`, "up to order").  An existing
value is not replaced by an equal one.  Which of two equal values an intersection or symmetric difference
keeps is left open.  (Python's own, called by the code of /repo.) -/
structure SetOps.Lawful {τ α : Type} (S : SetOps τ α) (eqv : α → α → Bool) : Prop where
  refl : ∀ a, eqv a a = true
  symm : ∀ a b, eqv a b = eqv b a
  trans : ∀ a b c, eqv a b = true → eqv b c = true → eqv a c = true
  distinct : ∀ t, (S.toList t).Pairwise fun a b => eqv a b = false
  empty : S.toList S.empty = []
  ofList : ∀ xs, (S.toList (S.ofList xs)).Perm (xs.foldl (addNew eqv) [])
  mem : ∀ x t, S.mem x t = (S.toList t).any (eqv · x)
  len : ∀ t, S.len t = (S.toList t).length
  add : ∀ x t, (S.toList (S.add x t)).Perm (addNew eqv (S.toList t) x)
  remove : ∀ x t, (S.toList t).any (eqv · x) = true →
    ∃ t', S.remove x t = .ok t' ∧ (S.toList t').Perm ((S.toList t).filter fun y => !eqv y x)
  remove_absent : ∀ x t, (S.toList t).any (eqv · x) = false → S.remove x t = .error .keyError
  update : ∀ xs t, (S.toList (S.update xs t)).Perm (xs.foldl (addNew eqv) (S.toList t))
  differenceUpdate : ∀ xs t,
    (S.toList (S.differenceUpdate xs t)).Perm ((S.toList t).filter fun y => !xs.any (eqv · y))
  intersectionUpdate : ∀ xss t x, (S.toList (S.intersectionUpdate xss t)).any (eqv · x) =
    ((S.toList t).any (eqv · x) && xss.all fun xs => xs.any (eqv · x))
  symmetricDifferenceUpdate : ∀ xs t x, (S.toList (S.symmetricDifferenceUpdate xs t)).any (eqv · x) =
    ((S.toList t).any (eqv · x) != xs.any (eqv · x))
  difference : ∀ xss t,
    (S.toList (S.difference xss t)).Perm ((S.toList t).filter fun y => !xss.any fun xs => xs.any (eqv · y))
  intersection : ∀ xss t x, (S.toList (S.intersection xss t)).any (eqv · x) =
    ((S.toList t).any (eqv · x) && xss.all fun xs => xs.any (eqv · x))
  symmetricDifference : ∀ xs t x, (S.toList (S.symmetricDifference xs t)).any (eqv · x) =
    ((S.toList t).any (eqv · x) != xs.any (eqv · x))
  copy : ∀ t, (S.toList (S.copy t)).Perm (S.toList t)

/-- The attributes `_set` and `_list` of a SortedSet (sortedset.py:121-148).  The attributes `isdisjoint`, ...,
`bisect_left`, ... are bound methods of these two objects, which `__init__` creates and no method replaces. -/
structure SS (τ σ : Type) where
  set : τ
  list : σ

namespace SS
variable {τ σ α : Type}

/-- A call of a method of `_list`.  (sortedset.py:127-155, the references to `_set`, `_list` and their methods.) -/
def onList {β : Type} (m : Py σ β) : Py (SS τ σ) β := fun s =>
  let r := m s.list
  (r.1, { s with list := r.2 })

/-- A call of a mutating method of `_set` that cannot raise.
(sortedset.py:127-155, the references to `_set`, `_list` and their methods.) -/
def onSet (f : τ → τ) : Py (SS τ σ) Unit := Py.modify fun s => { s with set := f s.set }

/-- `self._set.remove(value)` (sortedset.py:127-155, the references to `_set`, `_list` and their methods.) -/
def setRemove (S : SetOps τ α) (v : α) : Py (SS τ σ) Unit := fun s =>
  match S.remove v s.set with
  | .ok t => (.ok (), { s with set := t })
  | .error e => (.error e, s)

variable (S : SetOps τ α) (L : ListAPI σ α)

/-- `__contains__` (sortedset.py:180-195) -/
def contains (v : α) (s : SS τ σ) : Bool := S.mem v s.set

/-- `__getitem__` with an integer (sortedset.py:197-219) -/
def getInt (i : Int) : Py (SS τ σ) α := onList (L.getInt i)

/-- `__getitem__` with a slice (sortedset.py:197-219) -/
def getSlice (sl : PySlice) : Py (SS τ σ) (List α) := onList (L.getSlice sl)

/-- `__delitem__` with an integer (sortedset.py:242-250) -/
def delInt (i : Int) : Py (SS τ σ) Unit := do
  let value ← onList (L.getInt i)
  setRemove S value
  onList (L.delInt i)

/-- `__delitem__` with a slice (sortedset.py:242-250) -/
def delSlice (sl : PySlice) : Py (SS τ σ) Unit := do
  let values ← onList (L.getSlice sl)
  onSet (S.differenceUpdate values)
  onList (L.delSlice sl)

/-- `set_richcompare` of CPython (Objects/setobject.c): `a op b` for two built-in sets.  `==`: same length and all values
of `a` in `b`; `<=`: not longer and all values of `a` in `b`; `<`: shorter and `<=`; the others by negation and by
swapping the operands.  (Python's own, called by the code of /repo.) -/
def setCompare (op : CmpOp) (a b : τ) : Bool :=
  let subset (x y : τ) := decide (S.len x ≤ S.len y) && (S.toList x).all fun v => S.mem v y
  match op with
  | .eq => S.len a == S.len b && (S.toList a).all fun v => S.mem v b
  | .ne => !(S.len a == S.len b && (S.toList a).all fun v => S.mem v b)
  | .le => subset a b
  | .ge => subset b a
  | .lt => decide (S.len a < S.len b) && subset a b
  | .gt => decide (S.len b < S.len a) && subset b a

/-- `__eq__`, `__ne__`, `__lt__`, `__gt__`, `__le__`, `__ge__` (sortedset.py:252-286) with a SortedSet or built-in set,
whose values are in the built-in set `other`.  Other operands are not modelled. -/
def compare (op : CmpOp) (other : τ) (s : SS τ σ) : Bool := setCompare S op s.set other

/-- `__len__` (sortedset.py:288-296) -/
def length (s : SS τ σ) : Nat := S.len s.set

/-- `__iter__` (sortedset.py:298-307), as the list of values yielded -/
def iter (s : SS τ σ) : List α := L.iter s.list

/-- `__reversed__` (sortedset.py:309-318), as the list of values yielded -/
def reversed (s : SS τ σ) : List α := L.reversed s.list

/-- `add` (sortedset.py:335-338) -/
def add (v : α) : Py (SS τ σ) Unit := do
  let s ← Py.get
  if S.mem v s.set then pure ()
  else
    onSet (S.add v)
    onList (L.add v)

/-- `clear` (sortedset.py:348-349) -/
def clear : Py (SS τ σ) Unit := do
  onSet fun _ => S.empty
  onList L.clear

/-- `_fromset` (sortedset.py:159-169): `__init__` (97-157) keeps the given set and sorts its values. -/
def fromset (values : τ) : Except PyErr (SS τ σ) :=
  match L.new (some (S.toList values)) with
  | .ok l => .ok { set := values, list := l }
  | .error e => .error e

/-- `copy` (sortedset.py:351-361) -/
def copy (s : SS τ σ) : Except PyErr (SS τ σ) := fromset S L (S.copy s.set)

/-- `count` (sortedset.py:363-376) -/
def count (v : α) (s : SS τ σ) : Nat := if S.mem v s.set then 1 else 0

/-- `discard` (sortedset.py:394-397) -/
def discard (v : α) : Py (SS τ σ) Unit := do
  let s ← Py.get
  if S.mem v s.set then
    setRemove S v
    onList (L.remove v)
  else pure ()

/-- `pop` (sortedset.py:425-427) -/
def pop (i : Int) : Py (SS τ σ) α := do
  let value ← onList (L.pop i)
  setRemove S value
  pure value

/-- `remove` (sortedset.py:449-450) -/
def remove (v : α) : Py (SS τ σ) Unit := do
  setRemove S v
  onList (L.remove v)

/-- `difference` (sortedset.py:470-471), also `ss - iterable` (473) -/
def difference (xss : List (List α)) (s : SS τ σ) : Except PyErr (SS τ σ) :=
  fromset S L (S.difference xss s.set)

/-- The lines `_list.clear(); _list.update(_set)` (sortedset.py:496-497, 551-552, 603-604, 651-652) -/
def rebuild : Py (SS τ σ) Unit := do
  onList L.clear
  let s ← Py.get
  onList (L.update (S.toList s.set))

/-- `difference_update` (sortedset.py:491-502), also `ss -= iterable` (504) -/
def differenceUpdate (xss : List (List α)) : Py (SS τ σ) Unit := do
  let s ← Py.get
  let values := S.ofList xss.flatten
  if 4 * S.len values > S.len s.set then
    onSet (S.differenceUpdate (S.toList values))
    rebuild S L
  else
    Py.forEach (discard S L) (S.toList values)

/-- `intersection` (sortedset.py:524-525), also `ss & iterable` and `iterable & ss` (527-528) -/
def intersection (xss : List (List α)) (s : SS τ σ) : Except PyErr (SS τ σ) :=
  fromset S L (S.intersection xss s.set)

/-- `intersection_update` (sortedset.py:548-553), also `ss &= iterable` (555) -/
def intersectionUpdate (xss : List (List α)) : Py (SS τ σ) Unit := do
  onSet (S.intersectionUpdate xss)
  rebuild S L

/-- `symmetric_difference` (sortedset.py:575-576), also `ss ^ iterable` and `iterable ^ ss` (578-579) -/
def symmetricDifference (xs : List α) (s : SS τ σ) : Except PyErr (SS τ σ) :=
  fromset S L (S.symmetricDifference xs s.set)

/-- `symmetric_difference_update` (sortedset.py:600-605), also `ss ^= iterable` (607) -/
def symmetricDifferenceUpdate (xs : List α) : Py (SS τ σ) Unit := do
  onSet (S.symmetricDifferenceUpdate xs)
  rebuild S L

/-- `update` (sortedset.py:645-657), also `ss |= iterable` (659) -/
def update (xss : List (List α)) : Py (SS τ σ) Unit := do
  let s ← Py.get
  let values := S.ofList xss.flatten
  if 4 * S.len values > S.len s.set then
    onSet (S.update (S.toList values))
    rebuild S L
  else
    Py.forEach (add S L) (S.toList values)

/-- `__init__` (sortedset.py:97-157) -/
def new (iterable : Option (List α)) : Except PyErr (SS τ σ) :=
  match L.new (some (S.toList S.empty)) with
  | .error e => .error e
  | .ok l =>
    let s : SS τ σ := { set := S.empty, list := l }
    match iterable with
    | none => .ok s
    | some xs =>
      match update S L [xs] s with
      | (.ok _, s') => .ok s'
      | (.error e, _) => .error e

/-- `union` (sortedset.py:624), also `ss | iterable` and `iterable | ss` (626-627) -/
def union (xss : List (List α)) (s : SS τ σ) : Except PyErr (SS τ σ) :=
  new S L (some (iter L s ++ xss.flatten))

/-- `other - ss`: SortedSet does not define `__rsub__`, so this is the mixin method of `collections.abc.Set`,
`self._from_iterable(value for value in other if value not in self)` where `_from_iterable(it)` is `cls(it)`.
No key function is passed: the result is built by `L0`, the list class without key.  (Inherited, sortedset.py:24.) -/
def rsub {σ0 : Type} (L0 : ListAPI σ0 α) (other : List α) (s : SS τ σ) : Except PyErr (SS τ σ0) :=
  new S L0 (some (other.filter fun v => !contains S v s))

/-- The values in the `__reduce__` tuple (sortedset.py:669); the other component is the key function. -/
def reduceArgs (s : SS τ σ) : List α := S.toList s.set

/-- `isdisjoint` (sortedset.py:135): the method of the built-in set -/
def isdisjoint (xs : List α) (s : SS τ σ) : Bool := !xs.any fun v => S.mem v s.set

/-- `issubset` (sortedset.py:136): `set.issubset(iterable)` compares with `set(iterable)` -/
def issubset (xs : List α) (s : SS τ σ) : Bool := setCompare S .le s.set (S.ofList xs)

/-- `issuperset` (sortedset.py:137): `set.issuperset(iterable)` -/
def issuperset (xs : List α) (s : SS τ σ) : Bool := xs.all fun v => S.mem v s.set

/-- `_check` (sortedset.py:685-695) -/
def check (S : SetOps τ α) (c : ListClass α) (s : SS τ c.State) : Except PyErr Unit := do
  c.check s.list
  SL.assert (S.len s.set == c.api.len s.list)
  SL.assert ((c.api.iter s.list).all fun v => S.mem v s.set)

end SS

/-! ## Calls -/

namespace SS
variable {τ σ α : Type} (S : SetOps τ α) (L : ListAPI σ α)

/-- A call that only reads the object.  (Scaffolding of the model: no code of /repo.) -/
def read {β : Type} (f : SS τ σ → β) : Py (SS τ σ) β := fun s => (.ok (f s), s)

/-- The values of a newly created set.  (Scaffolding of the model: no code of /repo.) -/
def valuesOf (f : SS τ σ → Except PyErr (SS τ σ)) : Py (SS τ σ) (List α) := fun s =>
  match f s with
  | .ok s' => (.ok (iter L s'), s)
  | .error e => (.error e, s)

/-- One call; the other operand of a comparison is the built-in set of `values`.
(Dispatch of the model: each call goes to the definition of its method, which cites its lines.) -/
def step : SSOp α → Py (SS τ σ) (Out α)
  | .add v => Spec.out (fun _ => .none) (add S L v)
  | .discard v => Spec.out (fun _ => .none) (discard S L v)
  | .remove v => Spec.out (fun _ => .none) (remove S L v)
  | .pop i => Spec.out .val (pop S L i)
  | .delInt i => Spec.out (fun _ => .none) (delInt S L i)
  | .delSlice sl => Spec.out (fun _ => .none) (delSlice S L sl)
  | .clear => Spec.out (fun _ => .none) (clear S L)
  | .update xss => Spec.out (fun _ => .none) (update S L xss)
  | .differenceUpdate xss => Spec.out (fun _ => .none) (differenceUpdate S L xss)
  | .intersectionUpdate xss => Spec.out (fun _ => .none) (intersectionUpdate S L xss)
  | .symmetricDifferenceUpdate xs => Spec.out (fun _ => .none) (symmetricDifferenceUpdate S L xs)
  | .getInt i => Spec.out .val (getInt L i)
  | .getSlice sl => Spec.out .vals (getSlice L sl)
  | .bisectLeft v => Spec.out (fun (n : Nat) => .int n) (onList (L.bisectLeft v))
  | .bisectRight v => Spec.out (fun (n : Nat) => .int n) (onList (L.bisectRight v))
  | .index v a b => Spec.out .int (onList (L.index v a b))
  | .irange lo hi a b r => Spec.out .vals (onList (L.irange lo hi a b r))
  | .islice a b r => Spec.out .vals (onList (L.islice a b r))
  | .reset load => Spec.out (fun _ => .none) (onList (L.reset load))
  | .contains v => Spec.out .bool (read (contains S v))
  | .len => Spec.out (fun (n : Nat) => .int n) (read (length S))
  | .iter => Spec.out .vals (read (iter L))
  | .reversed => Spec.out .vals (read (reversed L))
  | .count v => Spec.out (fun (n : Nat) => .int n) (read (count S v))
  | .isdisjoint xs => Spec.out .bool (read (isdisjoint S xs))
  | .issubset xs => Spec.out .bool (read (issubset S xs))
  | .issuperset xs => Spec.out .bool (read (issuperset S xs))
  | .compare op values => Spec.out .bool (read (compare S op (S.ofList values)))
  | .copy => Spec.out .vals (valuesOf L (copy S L))
  | .union xss => Spec.out .vals (valuesOf L (union S L xss))
  | .intersection xss => Spec.out .vals (valuesOf L (intersection S L xss))
  | .difference xss => Spec.out .vals (valuesOf L (difference S L xss))
  | .symmetricDifference xs => Spec.out .vals (valuesOf L (symmetricDifference S L xs))

/-- The states a SortedSet can reach: construct it from an iterable, or receive it from a set operation on another one,
then call methods with valid arguments, catching exceptions.  (Scaffolding of the model: no code of /repo.) -/
inductive Reachable : SS τ σ → Prop where
  | new {xs s} : new S L xs = .ok s → Reachable s
  | copy {s s'} : Reachable s → copy S L s = .ok s' → Reachable s'
  | union {s s' xss} : Reachable s → union S L xss s = .ok s' → Reachable s'
  | intersection {s s' xss} : Reachable s → intersection S L xss s = .ok s' → Reachable s'
  | difference {s s' xss} : Reachable s → difference S L xss s = .ok s' → Reachable s'
  | symmetricDifference {s s' xs} : Reachable s → symmetricDifference S L xs s = .ok s' → Reachable s'
  | step {s} (op : SSOp α) : op.Valid → Reachable s → Reachable (step S L op s).2
  /-- `bisect_key_left`, `bisect_key_right`, `irange_key` of `_list` (sortedset.py:150-154) -/
  | keyCall {s m} : L.keyCall m → Reachable s → Reachable (onList m s).2

end SS
end Verif
