import Verif.Model.SortedSet
import Verif.SetHeapSpec
/-!
# SortedSet with its parts by reference

Model/SortedSet.lean describes a SortedSet by the *values* of `_set` and `_list`.  Python's sets and sorted lists are mutable
objects: `_set` and `_list` are references, `__init__` binds some methods of these two objects as attributes of the
SortedSet, `_fromset` takes over a set object without copying it, and the client has sets of its own.  Here every built-in
set and every sorted list is an object at an address, and the methods pass addresses around as the code does.

Simplifications: sets that a method creates for itself and drops (`values` in `update`, sortedset.py:647) are values.
What happens inside a sorted list is a single step here; see Model/Heap.lean for its list objects.  Iterables are given by
the values they yield; every method that gets one takes all values before it changes anything.

All line numbers refer to /repo/src/sortedcontainers/sortedset.py.
-/

namespace Verif
namespace SetHeap

/-- All built-in sets and all sorted lists of the program; the identity of an object is its position.
(Scaffolding of the model: no code of /repo.) -/
structure Mem (τ σ : Type) where
  sets : List τ
  lists : List σ

/-- The attributes of a SortedSet (sortedset.py:121-154) -/
structure Obj where
  /-- `_set` -/
  set : Nat
  /-- `_list` -/
  list : Nat
  /-- the set whose methods `isdisjoint`, `issubset`, `issuperset` are (134-137) -/
  setMethods : Nat
  /-- the sorted list whose methods `bisect_left`, `bisect`, `bisect_right`, `index`, `irange`, `islice`, `_reset` are (141-148) -/
  listMethods : Nat

/-- What a method works on: all objects, and the attributes of `self`.  (Scaffolding of the model: no code of /repo.) -/
structure Ctx (τ σ : Type) where
  mem : Mem τ σ
  self : Obj

/-- A method.  (Scaffolding of the model: no code of /repo.) -/
abbrev Run (τ σ β : Type) := Py (Ctx τ σ) β

variable {τ σ α β : Type}

/-- The attributes of `self` (sortedset.py:127-155, the references to `_set`, `_list` and their methods.) -/
def self : Run τ σ Obj := fun c => (.ok c.self, c)

/-- What is in the set object at `a` (sortedset.py:127-155, the references to `_set`, `_list` and their methods.) -/
def theSet (a : Nat) : Run τ σ τ := fun c =>
  match c.mem.sets[a]? with
  | some t => (.ok t, c)
  | none => (.error .modelGap, c)

/-- What is in the sorted list at `a` (sortedset.py:127-155, the references to `_set`, `_list` and their methods.) -/
def theList (a : Nat) : Run τ σ σ := fun c =>
  match c.mem.lists[a]? with
  | some l => (.ok l, c)
  | none => (.error .modelGap, c)

/-- A mutating method of the set object at `a`; everybody who refers to it sees the change.
(sortedset.py:127-155, the references to `_set`, `_list` and their methods.) -/
def onSet (a : Nat) (f : τ → Except PyErr τ) : Run τ σ Unit := fun c =>
  match c.mem.sets[a]? with
  | some t =>
    match f t with
    | .ok t' => (.ok (), { c with mem := { c.mem with sets := c.mem.sets.set a t' } })
    | .error e => (.error e, c)
  | none => (.error .modelGap, c)

/-- A method of the sorted list at `a`; everybody who refers to it sees the change.
(sortedset.py:127-155, the references to `_set`, `_list` and their methods.) -/
def onList (a : Nat) (m : Py σ β) : Run τ σ β := fun c =>
  match c.mem.lists[a]? with
  | some l =>
    let r := m l
    (r.1, { c with mem := { c.mem with lists := c.mem.lists.set a r.2 } })
  | none => (.error .modelGap, c)

/-- A new set object (Scaffolding of the model: no code of /repo.) -/
def newSet (t : τ) : Run τ σ Nat := fun c =>
  (.ok c.mem.sets.length, { c with mem := { c.mem with sets := c.mem.sets ++ [t] } })

variable (S : SetOps τ α) (L : ListAPI σ α)

/-- `__contains__` (sortedset.py:180-195) -/
def contains (v : α) : Run τ σ Bool := do
  return S.mem v (← theSet (← self).set)

/-- `__getitem__` with an integer (sortedset.py:197-219) -/
def getInt (i : Int) : Run τ σ α := do
  onList (← self).list (L.getInt i)

/-- `__getitem__` with a slice (sortedset.py:197-219); the list it returns is new (C59) -/
def getSlice (sl : PySlice) : Run τ σ (List α) := do
  onList (← self).list (L.getSlice sl)

/-- `__delitem__` with an integer (sortedset.py:242-250) -/
def delInt (i : Int) : Run τ σ Unit := do
  let _set := (← self).set
  let _list := (← self).list
  let value ← onList _list (L.getInt i)
  onSet _set (S.remove value)
  onList _list (L.delInt i)

/-- `__delitem__` with a slice (sortedset.py:242-250) -/
def delSlice (sl : PySlice) : Run τ σ Unit := do
  let _set := (← self).set
  let _list := (← self).list
  let values ← onList _list (L.getSlice sl)
  onSet _set fun t => .ok (S.differenceUpdate values t)
  onList _list (L.delSlice sl)

/-- `__eq__`, ..., `__ge__` (sortedset.py:252-286); `other` is the address of the other set: that of `other._set` if the
operand is a SortedSet -/
def compare (op : CmpOp) (other : Nat) : Run τ σ Bool := do
  return SS.setCompare S op (← theSet (← self).set) (← theSet other)

/-- `__len__` (sortedset.py:288-296) -/
def length : Run τ σ Nat := do
  return S.len (← theSet (← self).set)

/-- `__iter__` (sortedset.py:298-307), as the list of values yielded -/
def iter : Run τ σ (List α) := do
  return L.iter (← theList (← self).list)

/-- `__reversed__` (sortedset.py:309-318), as the list of values yielded -/
def reversed : Run τ σ (List α) := do
  return L.reversed (← theList (← self).list)

/-- `add` (sortedset.py:335-338) -/
def add (v : α) : Run τ σ Unit := do
  let _set := (← self).set
  if S.mem v (← theSet _set) then pure ()
  else
    onSet _set fun t => .ok (S.add v t)
    onList (← self).list (L.add v)

/-- `clear` (sortedset.py:348-349) -/
def clear : Run τ σ Unit := do
  onSet (← self).set fun _ => .ok S.empty
  onList (← self).list L.clear

/-- `count` (sortedset.py:363-376) -/
def count (v : α) : Run τ σ Nat := do
  return if S.mem v (← theSet (← self).set) then 1 else 0

/-- `discard` (sortedset.py:394-397) -/
def discard (v : α) : Run τ σ Unit := do
  let _set := (← self).set
  if S.mem v (← theSet _set) then
    onSet _set (S.remove v)
    onList (← self).list (L.remove v)
  else pure ()

/-- `pop` (sortedset.py:425-427) -/
def pop (i : Int) : Run τ σ α := do
  let value ← onList (← self).list (L.pop i)
  onSet (← self).set (S.remove value)
  pure value

/-- `remove` (sortedset.py:449-450) -/
def remove (v : α) : Run τ σ Unit := do
  onSet (← self).set (S.remove v)
  onList (← self).list (L.remove v)

/-- The lines `_list.clear(); _list.update(_set)` (sortedset.py:496-497, 551-552, 603-604, 651-652) -/
def rebuild (_set _list : Nat) : Run τ σ Unit := do
  onList _list L.clear
  let values ← theSet _set
  onList _list (L.update (S.toList values))

/-- `difference_update` (sortedset.py:491-502) -/
def differenceUpdate (xss : List (List α)) : Run τ σ Unit := do
  let _set := (← self).set
  let _list := (← self).list
  let values := S.ofList xss.flatten
  if 4 * S.len values > S.len (← theSet _set) then
    onSet _set fun t => .ok (S.differenceUpdate (S.toList values) t)
    rebuild S L _set _list
  else
    Py.forEach (discard S L) (S.toList values)

/-- `intersection_update` (sortedset.py:548-553) -/
def intersectionUpdate (xss : List (List α)) : Run τ σ Unit := do
  let _set := (← self).set
  let _list := (← self).list
  onSet _set fun t => .ok (S.intersectionUpdate xss t)
  rebuild S L _set _list

/-- `symmetric_difference_update` (sortedset.py:600-605) -/
def symmetricDifferenceUpdate (xs : List α) : Run τ σ Unit := do
  let _set := (← self).set
  let _list := (← self).list
  onSet _set fun t => .ok (S.symmetricDifferenceUpdate xs t)
  rebuild S L _set _list

/-- `update` (sortedset.py:645-657) -/
def update (xss : List (List α)) : Run τ σ Unit := do
  let _set := (← self).set
  let _list := (← self).list
  let values := S.ofList xss.flatten
  if 4 * S.len values > S.len (← theSet _set) then
    onSet _set fun t => .ok (S.update (S.toList values) t)
    rebuild S L _set _list
  else
    Py.forEach (add S L) (S.toList values)

/-- `isdisjoint` (sortedset.py:135): a method of the set that `_set` was in `__init__` -/
def isdisjoint (xs : List α) : Run τ σ Bool := do
  let t ← theSet (← self).setMethods
  return !xs.any fun v => S.mem v t

/-- `issubset` (sortedset.py:136): a method of the set that `_set` was in `__init__` -/
def issubset (xs : List α) : Run τ σ Bool := do
  let t ← theSet (← self).setMethods
  return SS.setCompare S .le t (S.ofList xs)

/-- `issuperset` (sortedset.py:137): a method of the set that `_set` was in `__init__` -/
def issuperset (xs : List α) : Run τ σ Bool := do
  let t ← theSet (← self).setMethods
  return xs.all fun v => S.mem v t

/-- `bisect_left`, `index`, ... (sortedset.py:141-148): methods of the sorted list that `_list` was in `__init__` -/
def bound (m : Py σ β) : Run τ σ β := do
  onList (← self).listMethods m

/-- `__init__` (sortedset.py:97-157), run on an object that has the attribute `_set` already if `set` is given -/
def init (set : Option Nat) (iterable : Option (List α)) : Run τ σ Obj := fun c =>
  let (_set, c) :=
    match set with
    | some a => (a, c)
    | none => (c.mem.sets.length, { c with mem := { c.mem with sets := c.mem.sets ++ [S.empty] } })
  match c.mem.sets[_set]? with
  | none => (.error .modelGap, c)
  | some t =>
    match L.new (some (S.toList t)) with
    | .error e => (.error e, c)
    | .ok l =>
      let _list := c.mem.lists.length
      let o : Obj := { set := _set, list := _list, setMethods := _set, listMethods := _list }
      let mem := { c.mem with lists := c.mem.lists ++ [l] }
      match iterable with
      | none => (.ok o, { c with mem := mem })
      | some xs =>
        let r := update S L [xs] { mem := mem, self := o }
        (r.1.map fun _ => r.2.self, { c with mem := r.2.mem })

/-- `_fromset` (sortedset.py:159-169) -/
def fromset (values : Nat) : Run τ σ Obj := init S L (some values) none

/-- `copy` (sortedset.py:351-361) -/
def copy : Run τ σ Obj := do
  let t ← theSet (← self).set
  fromset S L (← newSet (S.copy t))

/-- `difference` (sortedset.py:470-471) -/
def difference (xss : List (List α)) : Run τ σ Obj := do
  let t ← theSet (← self).set
  fromset S L (← newSet (S.difference xss t))

/-- `intersection` (sortedset.py:524-525) -/
def intersection (xss : List (List α)) : Run τ σ Obj := do
  let t ← theSet (← self).set
  fromset S L (← newSet (S.intersection xss t))

/-- `symmetric_difference` (sortedset.py:575-576) -/
def symmetricDifference (xs : List α) : Run τ σ Obj := do
  let t ← theSet (← self).set
  fromset S L (← newSet (S.symmetricDifference xs t))

/-- `union` (sortedset.py:624) -/
def union (xss : List (List α)) : Run τ σ Obj := do
  let values ← iter L
  init S L none (some (values ++ xss.flatten))

/-- The set in the tuple that `__reduce__` returns (sortedset.py:669): `_set` itself -/
def reduceArgs : Run τ σ Nat := do
  return (← self).set

/-- Pickling and unpickling, or `copy.deepcopy`: the set in the tuple of `__reduce__` (sortedset.py:669) is copied, and
`__init__` is called with the copy. -/
def pickle : Run τ σ Obj := do
  let t ← theSet (← reduceArgs)
  init S L none (some (S.toList t))

/-- A new sorted set that is read once and dropped.  (Scaffolding of the model: no code of /repo.) -/
def values (m : Run τ σ Obj) : Run τ σ (List α) := do
  let o ← m
  return L.iter (← theList o.list)

/-- One call.  (Dispatch of the model: each call goes to the definition of its method, which cites its lines.) -/
def call : SSOp α → Run τ σ (Out α)
  | .add v => Spec.out (fun _ => .none) (add S L v)
  | .discard v => Spec.out (fun _ => .none) (discard S L v)
  | .remove v => Spec.out (fun _ => .none) (remove S L v)
  | .pop i => Spec.out .val (pop S L i)
  | .delInt i => Spec.out (fun _ => .none) (delInt S L i)
  | .delSlice sl => Spec.out (fun _ => .none) (delSlice S L sl)
  | .clear => Spec.out (fun _ => .none) (clear S L)
  | .update xss => Spec.out (fun _ => .none) (update S L xss)
  | .differenceUpdate xss => Spec.out (fun _ => .none) (differenceUpdate S L xss)
  | .intersectionUpdate xss => Spec.out (fun _ => .none) (intersectionUpdate S L xss)
  | .symmetricDifferenceUpdate xs => Spec.out (fun _ => .none) (symmetricDifferenceUpdate S L xs)
  | .getInt i => Spec.out .val (getInt L i)
  | .getSlice sl => Spec.out .vals (getSlice L sl)
  | .bisectLeft v => Spec.out (fun (n : Nat) => .int n) (bound (L.bisectLeft v))
  | .bisectRight v => Spec.out (fun (n : Nat) => .int n) (bound (L.bisectRight v))
  | .index v a b => Spec.out .int (bound (L.index v a b))
  | .irange lo hi a b r => Spec.out .vals (bound (L.irange lo hi a b r))
  | .islice a b r => Spec.out .vals (bound (L.islice a b r))
  | .reset load => Spec.out (fun _ => .none) (bound (L.reset load))
  | .contains v => Spec.out .bool (contains S v)
  | .len => Spec.out (fun (n : Nat) => .int n) (length S)
  | .iter => Spec.out .vals (iter L)
  | .reversed => Spec.out .vals (reversed L)
  | .count v => Spec.out (fun (n : Nat) => .int n) (count S v)
  | .isdisjoint xs => Spec.out .bool (isdisjoint S xs)
  | .issubset xs => Spec.out .bool (issubset S xs)
  | .issuperset xs => Spec.out .bool (issuperset S xs)
  | .compare op values => Spec.out .bool (do compare S op (← newSet (S.ofList values)))
  | .copy => Spec.out .vals (values L (copy S L))
  | .union xss => Spec.out .vals (values L (union S L xss))
  | .intersection xss => Spec.out .vals (values L (intersection S L xss))
  | .difference xss => Spec.out .vals (values L (difference S L xss))
  | .symmetricDifference xs => Spec.out .vals (values L (symmetricDifference S L xs))

/-- All objects, the client's sets and the sorted sets.  (Scaffolding of the model: no code of /repo.) -/
structure World (τ σ : Type) where
  mem : Mem τ σ
  sets : List Nat
  objs : List Obj

namespace World

/-- Nothing yet.  (Scaffolding of the model: no code of /repo.) -/
def empty : World τ σ := { mem := { sets := [], lists := [] }, sets := [], objs := [] }

/-- The values that an argument yields: a sorted set its `__iter__` (sortedset.py:298-307), a built-in set its values in its own order. -/
def arg (w : World τ σ) : SetArg α → Option (List α)
  | .set i => do return S.toList (← w.mem.sets[← w.sets[i]?]?)
  | .sorted j => do return L.iter (← w.mem.lists[(← w.objs[j]?).list]?)
  | .values xs => some xs

/-- The values of several arguments.  (Scaffolding of the model: no code of /repo.) -/
def args (w : World τ σ) (as : List (SetArg α)) : Option (List (List α)) := as.mapM (w.arg S L)

/-- A method call on the `j`-th sorted set, `o`.  (Scaffolding of the model: no code of /repo.) -/
def run (w : World τ σ) (j : Nat) (o : Obj) (m : Run τ σ β) : Except PyErr β × World τ σ :=
  let r := m { mem := w.mem, self := o }
  (r.1, { w with mem := r.2.mem, objs := w.objs.set j r.2.self })

/-- A method call for its effect on the `j`-th sorted set.  (Scaffolding of the model: no code of /repo.) -/
def change (j : Nat) (as : Option β) (m : β → Run τ σ Unit) : Py (World τ σ) (SetOut α) := fun w =>
  match w.objs[j]?, as with
  | some o, some b =>
    let r := w.run j o (m b)
    (r.1.map fun _ => .none, r.2)
  | _, _ => (.ok .noSuch, w)

/-- The client keeps a new sorted set.  (Scaffolding of the model: no code of /repo.) -/
def keep (r : Except PyErr Obj × World τ σ) : Except PyErr (SetOut α) × World τ σ :=
  match r with
  | (.ok o, w) => (.ok (.newSorted w.objs.length), { w with objs := w.objs ++ [o] })
  | (.error e, w) => (.error e, w)

/-- A method call on the `j`-th sorted set that returns a new one.  (Scaffolding of the model: no code of /repo.) -/
def derive (j : Nat) (as : Option β) (m : β → Run τ σ Obj) : Py (World τ σ) (SetOut α) := fun w =>
  match w.objs[j]?, as with
  | some o, some b => keep (w.run j o (m b))
  | _, _ => (.ok .noSuch, w)

/-- The address of the other operand of a comparison.  A set that only exists for the comparison is new.
(Scaffolding of the model: no code of /repo.) -/
def operand (w : World τ σ) : SetArg α → Option (Nat × World τ σ)
  | .set i => do return (← w.sets[i]?, w)
  | .sorted j => do return ((← w.objs[j]?).set, w)
  | .values xs => some (w.mem.sets.length, { w with mem := { w.mem with sets := w.mem.sets ++ [S.ofList xs] } })

/-- One event.  (Dispatch of the model: each call goes to the definition of its method, which cites its lines.) -/
def step : SetEvent α → Py (World τ σ) (SetOut α)
  | .newSet xs => fun w =>
    (.ok (.newSet w.sets.length),
      { w with mem := { w.mem with sets := w.mem.sets ++ [S.ofList xs] }, sets := w.sets ++ [w.mem.sets.length] })
  | .mutate i xs => fun w =>
    match w.sets[i]? with
    | some a => (.ok .none, { w with mem := { w.mem with sets := w.mem.sets.set a (S.ofList xs) } })
    | none => (.ok .noSuch, w)
  | .construct a => fun w =>
    match w.arg S L a with
    | some xs =>
      -- there is no `self` yet: its attributes do not matter
      let r := init S L none (some xs) { mem := w.mem, self := { set := 0, list := 0, setMethods := 0, listMethods := 0 } }
      keep (r.1, { w with mem := r.2.mem })
    | none => (.ok .noSuch, w)
  | .call j op => fun w =>
    match w.objs[j]? with
    | some o =>
      let r := w.run j o (call S L op)
      (r.1.map .value, r.2)
    | none => (.ok .noSuch, w)
  | .compare j op a => fun w =>
    match w.objs[j]?, w.operand S a with
    | some o, some (b, w) =>
      let r := w.run j o (compare S op b)
      (r.1.map fun b => .value (.bool b), r.2)
    | _, _ => (.ok .noSuch, w)
  | .update j as => fun w => change j (w.args S L as) (update S L) w
  | .differenceUpdate j as => fun w => change j (w.args S L as) (differenceUpdate S L) w
  | .intersectionUpdate j as => fun w => change j (w.args S L as) (intersectionUpdate S L) w
  | .symmetricDifferenceUpdate j a => fun w => change j (w.arg S L a) (symmetricDifferenceUpdate S L) w
  | .copy j => derive j (some ()) fun _ => copy S L
  | .pickle j => derive j (some ()) fun _ => pickle S L
  | .union j as => fun w => derive j (w.args S L as) (union S L) w
  | .intersection j as => fun w => derive j (w.args S L as) (intersection S L) w
  | .difference j as => fun w => derive j (w.args S L as) (difference S L) w
  | .symmetricDifference j a => fun w => derive j (w.arg S L a) (symmetricDifference S L) w
  | .reduceArgs j => fun w =>
    match w.objs[j]? with
    | some o =>
      match w.run j o reduceArgs with
      | (.ok a, w) => (.ok (.newSet w.sets.length), { w with sets := w.sets ++ [a] })
      | (.error e, w) => (.error e, w)
    | none => (.ok .noSuch, w)

/-- What the client sees: for each of its sets the values in the iteration order of the set, for each sorted set what
iteration yields.  (Scaffolding of the model: no code of /repo.) -/
def contents (w : World τ σ) : SetStore α :=
  { sets := w.sets.map fun a => (w.mem.sets[a]?.map S.toList).getD []
    sorted := w.objs.map fun o => (w.mem.lists[o.list]?.map L.iter).getD [] }

end World
end SetHeap
end Verif
