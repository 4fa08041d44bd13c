import Verif.Model.Reentrant
import Verif.Model.SortedSet
import Verif.Model.SortedDict
import Verif.ClientSets
/-!
# Comparisons and key functions that query the sorted set or dict they are called for

The programs of this file are those of `Model/SortedSet.lean` and `Model/SortedDict.lean`, line for line, where the methods of `_list` that
call comparison operators or the key function are those of `Model/Reentrant.lean`: the client's code that they call may query the whole
set or dict.  While a method of `_list` runs, the built-in set or dict is part of the world that the client's code looks
at (`inner`, `onList`).  The methods that call no client's code are those of the other files (`free`).

Hashing, and `==` of values in the built-in set or dict, are not code of the client here.

Line numbers of SortedList refer to /repo/src/sortedcontainers/sortedlist.py.
-/

namespace Verif
variable {τ σ W α κ ν β Q R : Type}

/-- The methods of a sorted list that call comparison operators or the key function, as far as sorted sets and dicts use them.
`newValues xs`: the values of a new list of the same class, `SortedList(xs, key)` (sortedlist.py:89-116, 1620-1657). -/
structure RListAPI (W σ α : Type) where
  add : α → RPy W σ Unit
  remove : α → RPy W σ Unit
  update : List α → RPy W σ Unit
  delSlice : PySlice → RPy W σ Unit
  reset : Nat → RPy W σ Unit
  bisectLeft : α → RPy W σ Nat
  bisectRight : α → RPy W σ Nat
  index : α → Option Int → Option Int → RPy W σ Int
  irange : Option α → Option α → Bool → Bool → Bool → RPy W σ (List α)
  newValues : List α → RPy W σ (List α)

/-- A SortedList (sortedlist.py:36-1586). -/
def Reent.SL.api (E : REnv W α) : RListAPI W (St α α) α where
  add := Reent.SL.add E
  remove := Reent.SL.remove E
  update := Reent.SL.update E
  delSlice := Reent.delSlice (Reent.SL.methods E) (Reent.SL.update E)
  reset := Reent.reset Verif.SL.clear (Reent.SL.update E)
  bisectLeft := Reent.SL.bisect_left E
  bisectRight := Reent.SL.bisect_right E
  index := Reent.SL.index E
  irange := Reent.SL.irange E
  newValues := Reent.SL.newValues E

/-- A SortedKeyList (sortedlist.py:1594-2526). -/
def Reent.SKL.api (K : RKEnv W α κ) : RListAPI W (St α κ) α where
  add := Reent.SKL.add K
  remove := Reent.SKL.remove K
  update := Reent.SKL.update K
  delSlice := Reent.delSlice (Reent.SKL.methods K) (Reent.SKL.update K)
  reset := Reent.reset Verif.SKL.clear (Reent.SKL.update K)
  bisectLeft := Reent.SKL.bisect_left K
  bisectRight := Reent.SKL.bisect_right K
  index := Reent.SKL.index K
  irange := Reent.SKL.irange K
  newValues := Reent.SKL.newValues K

/-- The methods of a list of the class at nesting depth `d`, where `run` runs the client's code.  The class gives `sorted` and
`int(math.log(·, 2))` (as `SL.Clients.env`, `SKL.Clients.env`).  (Scaffolding of the model: no code of /repo.) -/
def ListClass.calling : (c : ListClass α) → c.Code Q R → (d : Nat) →
    (run : {β : Type} → (Seen Q R → Client Q R β) → RPy W c.State β) → RListAPI W c.State α
  | .plain E => fun (C : ValueCode Q R α) d (run : {β : Type} → (Seen Q R → Client Q R β) → RPy W (St α α) β) =>
    let cmp := fun op a b => run (C.cmp d op a b)
    Reent.SL.api { cmp := cmp, sorted := Reent.SL.sorting cmp C.pairs E.sorted, ilog2 := E.ilog2 }
  | .keyed (κ := κ) K => fun (C : KeyCode Q R α κ) d (run : {β : Type} → (Seen Q R → Client Q R β) → RPy W (St α κ) β) =>
    let key := fun a => run (C.key d a)
    let kcmp := fun op a b => run (C.kcmp d op a b)
    let vcmp := fun op a b => run (C.vcmp d op a b)
    Reent.SKL.api { key := key, kcmp := kcmp, vcmp := vcmp, sortedByKey := Reent.SKL.sorting key kcmp C.pairs K.sortedByKey, ilog2 := K.ilog2 }

/-! ## sortedset.py -/

namespace Reent.SS

/-- A call of a method of `_list` that calls the client's code.
(sortedset.py:140-155, sorteddict.py:140-168: the references to `_list` and its methods.) -/
def onList (m : RPy (τ × W) σ β) : RPy W (SS τ σ) β := fun p =>
  let r := m (p.1.list, p.1.set, p.2)
  (r.1, { set := r.2.2.1, list := r.2.1 }, r.2.2.2)

/-- What a computation on the set is for a method of `_list` that runs meanwhile.  (Scaffolding of the model: no code of /repo.) -/
def inner (m : RPy W (SS τ σ) β) : RPy (τ × W) σ β := fun p =>
  let r := m ({ set := p.2.1, list := p.1 }, p.2.2)
  (r.1, r.2.1.list, r.2.1.set, r.2.2)

variable (S : SetOps τ α) (L : ListAPI σ α) (L' : RListAPI (τ × W) σ α)

/-- `__delitem__` with a slice (sortedset.py:242-250) -/
def delSlice (sl : PySlice) : RPy W (SS τ σ) Unit := do
  let values ← free (Verif.SS.onList (L.getSlice sl))
  free (Verif.SS.onSet (S.differenceUpdate values))
  onList (L'.delSlice sl)

/-- `add` (sortedset.py:335-338) -/
def add (v : α) : RPy W (SS τ σ) Unit := do
  let s ← free Py.get
  if S.mem v s.set then pure ()
  else
    free (Verif.SS.onSet (S.add v))
    onList (L'.add v)

/-- `discard` (sortedset.py:394-397) -/
def discard (v : α) : RPy W (SS τ σ) Unit := do
  let s ← free Py.get
  if S.mem v s.set then
    free (Verif.SS.setRemove S v)
    onList (L'.remove v)
  else pure ()

/-- `remove` (sortedset.py:449-450) -/
def remove (v : α) : RPy W (SS τ σ) Unit := do
  free (Verif.SS.setRemove S v)
  onList (L'.remove v)

/-- The lines `_list.clear(); _list.update(_set)` (sortedset.py:496-497, 551-552, 603-604, 651-652) -/
def rebuild : RPy W (SS τ σ) Unit := do
  free (Verif.SS.onList L.clear)
  let s ← free Py.get
  onList (L'.update (S.toList s.set))

/-- `difference_update` (sortedset.py:491-502) -/
def differenceUpdate (xss : List (List α)) : RPy W (SS τ σ) Unit := do
  let s ← free Py.get
  let values := S.ofList xss.flatten
  if 4 * S.len values > S.len s.set then
    free (Verif.SS.onSet (S.differenceUpdate (S.toList values)))
    rebuild S L L'
  else
    Py.forEach (discard S L') (S.toList values)

/-- `intersection_update` (sortedset.py:548-553) -/
def intersectionUpdate (xss : List (List α)) : RPy W (SS τ σ) Unit := do
  free (Verif.SS.onSet (S.intersectionUpdate xss))
  rebuild S L L'

/-- `symmetric_difference_update` (sortedset.py:600-605) -/
def symmetricDifferenceUpdate (xs : List α) : RPy W (SS τ σ) Unit := do
  free (Verif.SS.onSet (S.symmetricDifferenceUpdate xs))
  rebuild S L L'

/-- `update` (sortedset.py:645-657) -/
def update (xss : List (List α)) : RPy W (SS τ σ) Unit := do
  let s ← free Py.get
  let values := S.ofList xss.flatten
  if 4 * S.len values > S.len s.set then
    free (Verif.SS.onSet (S.update (S.toList values)))
    rebuild S L L'
  else
    Py.forEach (add S L') (S.toList values)

/-- The values of the new set that `copy`, `-`, `&` and `^` create with `_fromset` (sortedset.py:159-169).  The client's queries are about the set the
method was called on. -/
def fromset (values : τ → τ) : RPy W (SS τ σ) (List α) := do
  let s ← free Py.get
  onList (L'.newValues (S.toList (values s.set)))

/-- The values of the new set that `union` creates (sortedset.py:624): `__init__` (97-157) of an empty set, then `update` (645-657).  The
`update` of the new, empty `_list` sorts and fills it, as a new list does. -/
def union (xss : List (List α)) : RPy W (SS τ σ) (List α) := do
  let s ← free Py.get
  let values := S.ofList (Verif.SS.iter L s ++ xss.flatten)
  let none ← onList (L'.newValues (S.toList S.empty))
  if 4 * S.len values > S.len S.empty then
    onList (L'.newValues (S.toList (S.update (S.toList values) S.empty)))
  else pure none

/-- One call.  (Dispatch of the model: each call goes to the definition of its method, which cites its lines.) -/
def step : SSOp α → RPy W (SS τ σ) (Out α)
  | .add v => Spec.out (fun _ => .none) (add S L' v)
  | .discard v => Spec.out (fun _ => .none) (discard S L' v)
  | .remove v => Spec.out (fun _ => .none) (remove S L' v)
  | .delSlice sl => Spec.out (fun _ => .none) (delSlice S L L' sl)
  | .update xss => Spec.out (fun _ => .none) (update S L L' xss)
  | .differenceUpdate xss => Spec.out (fun _ => .none) (differenceUpdate S L L' xss)
  | .intersectionUpdate xss => Spec.out (fun _ => .none) (intersectionUpdate S L L' xss)
  | .symmetricDifferenceUpdate xs => Spec.out (fun _ => .none) (symmetricDifferenceUpdate S L L' xs)
  | .bisectLeft v => Spec.out (fun (n : Nat) => .int n) (onList (L'.bisectLeft v))
  | .bisectRight v => Spec.out (fun (n : Nat) => .int n) (onList (L'.bisectRight v))
  | .index v a b => Spec.out .int (onList (L'.index v a b))
  | .irange lo hi a b r => Spec.out .vals (onList (L'.irange lo hi a b r))
  | .reset load => Spec.out (fun _ => .none) (onList (L'.reset load))
  | .copy => Spec.out .vals (fromset S L' S.copy)
  | .union xss => Spec.out .vals (union S L L' xss)
  | .intersection xss => Spec.out .vals (fromset S L' (S.intersection xss))
  | .difference xss => Spec.out .vals (fromset S L' (S.difference xss))
  | .symmetricDifference xs => Spec.out .vals (fromset S L' (S.symmetricDifference xs))
  -- `pop`, `del ss[i]`, `clear`, and the queries that compare no values
  | op => free (Verif.SS.step S L op)

/-- The methods of `_list` of a set at nesting depth `d`, where `n` further levels of nested calls are modelled: the queries that the client's
code asks are calls of the methods of the set, one level deeper.  (Scaffolding of the model: no code of /repo.) -/
def list (S : SetOps τ α) (c : ListClass α) (C : c.Code (SSQuery α) (Out α)) :
    (n d : Nat) → RListAPI (τ × Seen (SSQuery α) (Out α)) c.State α
  | 0, d => c.calling C d fun code => inner (Reent.calling (fun _ => Py.raise .modelGap) code)
  | n + 1, d => c.calling C d fun code => inner (Reent.calling (fun q => step S c.api (list S c C n (d + 1)) q.1) code)

end Reent.SS

/-! ## sorteddict.py -/

namespace Reent.SD

/-- A call of a method of `_list` that calls the client's code.
(sortedset.py:140-155, sorteddict.py:140-168: the references to `_list` and its methods.) -/
def onList (m : RPy (List (κ × ν) × W) σ β) : RPy W (SD κ ν σ) β := fun p =>
  let r := m (p.1.list, p.1.dict, p.2)
  (r.1, { dict := r.2.2.1, list := r.2.1 }, r.2.2.2)

/-- What a computation on the dict is for a method of `_list` that runs meanwhile.
(Scaffolding of the model: no code of /repo.) -/
def inner (m : RPy W (SD κ ν σ) β) : RPy (List (κ × ν) × W) σ β := fun p =>
  let r := m ({ dict := p.2.1, list := p.1 }, p.2.2)
  (r.1, r.2.1.list, r.2.1.dict, r.2.2)

variable (eqv : κ → κ → Bool) (L : ListAPI σ κ) (L' : RListAPI (List (κ × ν) × W) σ κ)

/-- `__delitem__` (sorteddict.py:210-231) -/
def delitem (k : κ) : RPy W (SD κ ν σ) Unit := do
  free (Verif.SD.dictDelitem eqv k)
  onList (L'.remove k)

/-- `__setitem__` (sorteddict.py:255-275) -/
def setitem (k : κ) (v : ν) : RPy W (SD κ ν σ) Unit := do
  let s ← free Py.get
  if Verif.SD.contains eqv k s then pure () else onList (L'.add k)
  free (Verif.SD.onDict fun d => PyDict.set eqv d k v)

/-- `update` (sorteddict.py:487-516) -/
def update (arg : DictArg κ ν) : RPy W (SD κ ν σ) Unit := do
  let s ← free Py.get
  if s.dict.length = 0 then
    free (Verif.SD.dictUpdate eqv arg)
    let s ← free Py.get
    onList (L'.update (PyDict.keys s.dict))
  else
    let pairs ← free (Py.lift (Verif.SD.pairsOf eqv arg))
    if 10 * pairs.length > s.dict.length then
      free (Verif.SD.dictUpdate eqv (.dict pairs))
      free (Verif.SD.onList L.clear)
      let s ← free Py.get
      onList (L'.update (PyDict.keys s.dict))
    else
      Py.forEach (fun p => setitem eqv L' p.1 p.2) pairs

/-- `pop` (sorteddict.py:360-390) -/
def pop (k : κ) (default : Option ν) : RPy W (SD κ ν σ) ν := do
  let s ← free Py.get
  if Verif.SD.contains eqv k s then
    onList (L'.remove k)
    free (Verif.SD.dictPop eqv k)
  else
    match default with
    | none => free (Py.raise .keyError)
    | some v => pure v

/-- `setdefault` (sorteddict.py:457-485) -/
def setdefault (k : κ) (default : ν) : RPy W (SD κ ν σ) ν := do
  let s ← free Py.get
  if Verif.SD.contains eqv k s then free (Verif.SD.getitem eqv k)
  else
    free (Verif.SD.onDict fun d => PyDict.set eqv d k default)
    onList (L'.add k)
    pure default

/-- `del view[a:b:c]` (`_view_delitem`, sorteddict.py:583-590) -/
def viewDelSlice (sl : PySlice) : RPy W (SD κ ν σ) Unit := do
  let keys ← free (Verif.SD.onList (L.getSlice sl))
  onList (L'.delSlice sl)
  free (Py.forEach (Verif.SD.dictDelitem eqv) keys)

/-- The items of the new dict that `copy`, `|` create (sorteddict.py:279-305): `__init__` (97-170) fills a new, empty dict with `pairs own`, where
`own` are the items of this dict, and then its `_list`, which sorts the keys.  The client's queries are about the dict the
method was called on. -/
def newItems (pairs : List (κ × ν) → List (κ × ν)) : RPy W (SD κ ν σ) (List (κ × ν)) := do
  let s ← free Py.get
  let own ← free (Py.lift (Verif.SD.items eqv L s))
  let d := PyDict.update eqv [] (pairs own)
  let keys ← onList (L'.newValues (PyDict.keys d))
  free (Py.lift (mapE (fun k => do
    let v ← PyDict.getitem eqv d k
    pure (k, v)) keys))

/-- One call.  (Dispatch of the model: each call goes to the definition of its method, which cites its lines.) -/
def step : SDOp κ ν → RPy W (SD κ ν σ) (DOut κ ν)
  | .setitem k v => Verif.SD.out (fun _ => .none) (setitem eqv L' k v)
  | .delitem k => Verif.SD.out (fun _ => .none) (delitem eqv L' k)
  | .pop k default => Verif.SD.out .val (pop eqv L' k default)
  | .setdefault k v => Verif.SD.out .val (setdefault eqv L' k v)
  | .update arg => Verif.SD.out (fun _ => .none) (update eqv L L' arg)
  | .viewDelSlice sl => Verif.SD.out (fun _ => .none) (viewDelSlice eqv L L' sl)
  | .bisectLeft k => Verif.SD.out (fun (n : Nat) => .int n) (onList (L'.bisectLeft k))
  | .bisectRight k => Verif.SD.out (fun (n : Nat) => .int n) (onList (L'.bisectRight k))
  | .index k a b => Verif.SD.out .int (onList (L'.index k a b))
  | .irange lo hi a b r => Verif.SD.out .keys (onList (L'.irange lo hi a b r))
  | .reset load => Verif.SD.out (fun _ => .none) (onList (L'.reset load))
  | .copy => Verif.SD.out .items (newItems eqv L L' id)
  | .or other => Verif.SD.out .items (newItems eqv L L' fun own => own ++ other)
  | .ror other => Verif.SD.out .items (newItems eqv L L' fun own => other ++ own)
  -- `popitem`, `del view[i]`, `clear`, and the queries that compare no keys
  | op => free (Verif.SD.step eqv L op)

/-- The methods of `_list` of a dict at nesting depth `d`, where `n` further levels of nested calls are modelled.
(Scaffolding of the model: no code of /repo.) -/
def list (eqv : κ → κ → Bool) (c : ListClass κ) (C : c.Code (SDQuery κ ν) (DOut κ ν)) :
    (n d : Nat) → RListAPI (List (κ × ν) × Seen (SDQuery κ ν) (DOut κ ν)) c.State κ
  | 0, d => c.calling C d fun code => inner (Reent.calling (fun _ => Py.raise .modelGap) code)
  | n + 1, d => c.calling C d fun code => inner (Reent.calling (fun q => step eqv c.api (list eqv c C n (d + 1)) q.1) code)

end Reent.SD
end Verif
