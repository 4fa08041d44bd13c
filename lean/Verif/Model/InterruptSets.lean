import Verif.Model.Interrupt
import Verif.Model.SortedSet
import Verif.Model.SortedDict
/-!
# Interrupted calls on SortedSet and SortedDict

The programs of `Model/SortedSet.lean` and `Model/SortedDict.lean`, line for line, run with the log of `Model/Interrupt.lean`: the object
after every statement that writes to it, also inside the calls on `_list`.  One call of a method of the built-in set or
dict is one step, except `dict.update` with pairs, which is one step for each pair.  (An iterator written in Python that is interrupted inside such a call raises there; that is
an exception of the argument, which `DictArg` has.)  The calls of a SortedSet or SortedDict that create a new object, and those that only read, log nothing.
-/

namespace Verif

/-- The methods of `_list` that a SortedSet or SortedDict calls, or hands out as its own, as programs with a log.
(sortedset.py:140-155, sorteddict.py:140-168.) -/
structure IListAPI (σ α : Type) where
  add : α → IPy σ Unit
  update : List α → IPy σ Unit
  clear : IPy σ Unit
  remove : α → IPy σ Unit
  getInt : Int → IPy σ α
  getSlice : PySlice → IPy σ (List α)
  delInt : Int → IPy σ Unit
  delSlice : PySlice → IPy σ Unit
  pop : Int → IPy σ α
  bisectLeft : α → IPy σ Nat
  bisectRight : α → IPy σ Nat
  index : α → Option Int → Option Int → IPy σ Int
  islice : Option Int → Option Int → Bool → IPy σ (List α)
  reset : Nat → IPy σ Unit

namespace Interrupt

/-- A SortedList (sortedlist.py:36-1586). -/
def SL.api {α : Type} (E : Env α) : IListAPI (St α α) α where
  add := add E
  update := update E
  clear := clear
  remove := remove E
  getInt := Interrupt.getInt E.ilog2
  getSlice := Interrupt.getSlice E.ilog2
  delInt := Interrupt.delInt (methods E)
  delSlice := Interrupt.delSlice (methods E)
  pop := Interrupt.pop (methods E)
  bisectLeft := bisect_left E
  bisectRight := bisect_right E
  index := index E
  islice := Interrupt.islice E.ilog2
  reset := Interrupt.reset (methods E)

/-- A SortedKeyList (sortedlist.py:1594-2526). -/
def SKL.api {α κ : Type} (K : KEnv α κ) : IListAPI (St α κ) α where
  add := add K
  update := update K
  clear := clear
  remove := remove K
  getInt := Interrupt.getInt K.ilog2
  getSlice := Interrupt.getSlice K.ilog2
  delInt := Interrupt.delInt (methods K)
  delSlice := Interrupt.delSlice (methods K)
  pop := Interrupt.pop (methods K)
  bisectLeft := bisect_left K
  bisectRight := bisect_right K
  index := index K
  islice := Interrupt.islice K.ilog2
  reset := Interrupt.reset (methods K)

/-! ## SortedSet

All line numbers refer to /repo/src/sortedcontainers/sortedset.py. -/

namespace SS
variable {τ σ α β : Type}

/-- A call of a method of `_list`: the list goes through the states that the call logs, the set stays.
(sortedset.py:127-155, sorteddict.py:140-168: the references to `_set`, `_list` and their methods.) -/
def onList (m : IPy σ β) : IPy (SS τ σ) β := fun s =>
  let r := m (s.1.list, [])
  (r.1, { s.1 with list := r.2.1 }, s.2 ++ r.2.2.map fun l => { s.1 with list := l })

/-- A call of a mutating method of `_set` that cannot raise.
(sortedset.py:127-155, sorteddict.py:140-168: the references to `_set`, `_list` and their methods.) -/
def onSet (f : τ → τ) : IPy (SS τ σ) Unit := IPy.write fun s => { s with set := f s.set }

/-- `self._set.remove(value)`
(sortedset.py:127-155, sorteddict.py:140-168: the references to `_set`, `_list` and their methods.) -/
def setRemove (S : SetOps τ α) (v : α) : IPy (SS τ σ) Unit := do
  let s ← IPy.get
  let t ← IPy.lift (S.remove v s.set)
  onSet fun _ => t

variable (S : SetOps τ α) (L : IListAPI σ α)

/-- `__delitem__` with an integer (sortedset.py:242-250) -/
def delInt (i : Int) : IPy (SS τ σ) Unit := do
  let value ← onList (L.getInt i)
  setRemove S value
  onList (L.delInt i)

/-- `__delitem__` with a slice (sortedset.py:242-250) -/
def delSlice (sl : PySlice) : IPy (SS τ σ) Unit := do
  let values ← onList (L.getSlice sl)
  onSet (S.differenceUpdate values)
  onList (L.delSlice sl)

/-- `add` (sortedset.py:335-338) -/
def add (v : α) : IPy (SS τ σ) Unit := do
  let s ← IPy.get
  if S.mem v s.set then pure ()
  else
    onSet (S.add v)
    onList (L.add v)

/-- `clear` (sortedset.py:348-349) -/
def clear : IPy (SS τ σ) Unit := do
  onSet fun _ => S.empty
  onList L.clear

/-- `discard` (sortedset.py:394-397) -/
def discard (v : α) : IPy (SS τ σ) Unit := do
  let s ← IPy.get
  if S.mem v s.set then
    setRemove S v
    onList (L.remove v)
  else pure ()

/-- `pop` (sortedset.py:425-427) -/
def pop (i : Int) : IPy (SS τ σ) α := do
  let value ← onList (L.pop i)
  setRemove S value
  pure value

/-- `remove` (sortedset.py:449-450) -/
def remove (v : α) : IPy (SS τ σ) Unit := do
  setRemove S v
  onList (L.remove v)

/-- The lines `_list.clear(); _list.update(_set)` (sortedset.py:496-497, 551-552, 603-604, 651-652) -/
def rebuild : IPy (SS τ σ) Unit := do
  onList L.clear
  let s ← IPy.get
  onList (L.update (S.toList s.set))

/-- `difference_update` (sortedset.py:491-502), also `ss -= iterable` (504) -/
def differenceUpdate (xss : List (List α)) : IPy (SS τ σ) Unit := do
  let s ← IPy.get
  let values := S.ofList xss.flatten
  if 4 * S.len values > S.len s.set then
    onSet (S.differenceUpdate (S.toList values))
    rebuild S L
  else
    IPy.forEach (discard S L) (S.toList values)

/-- `intersection_update` (sortedset.py:548-553), also `ss &= iterable` (555) -/
def intersectionUpdate (xss : List (List α)) : IPy (SS τ σ) Unit := do
  onSet (S.intersectionUpdate xss)
  rebuild S L

/-- `symmetric_difference_update` (sortedset.py:600-605), also `ss ^= iterable` (607) -/
def symmetricDifferenceUpdate (xs : List α) : IPy (SS τ σ) Unit := do
  onSet (S.symmetricDifferenceUpdate xs)
  rebuild S L

/-- `update` (sortedset.py:645-657), also `ss |= iterable` (659) -/
def update (xss : List (List α)) : IPy (SS τ σ) Unit := do
  let s ← IPy.get
  let values := S.ofList xss.flatten
  if 4 * S.len values > S.len s.set then
    onSet (S.update (S.toList values))
    rebuild S L
  else
    IPy.forEach (add S L) (S.toList values)

/-- One call.  The calls that `IPy.still` takes from the model write nothing to the set.
(Dispatch of the model: each call goes to the definition of its method, which cites its lines.) -/
def step (L0 : ListAPI σ α) : SSOp α → IPy (SS τ σ) (Out α)
  | .add v => Spec.out (fun _ => .none) (add S L v)
  | .discard v => Spec.out (fun _ => .none) (discard S L v)
  | .remove v => Spec.out (fun _ => .none) (remove S L v)
  | .pop i => Spec.out .val (pop S L i)
  | .delInt i => Spec.out (fun _ => .none) (delInt S L i)
  | .delSlice sl => Spec.out (fun _ => .none) (delSlice S L sl)
  | .clear => Spec.out (fun _ => .none) (clear S L)
  | .update xss => Spec.out (fun _ => .none) (update S L xss)
  | .differenceUpdate xss => Spec.out (fun _ => .none) (differenceUpdate S L xss)
  | .intersectionUpdate xss => Spec.out (fun _ => .none) (intersectionUpdate S L xss)
  | .symmetricDifferenceUpdate xs => Spec.out (fun _ => .none) (symmetricDifferenceUpdate S L xs)
  | .getInt i => Spec.out .val (onList (L.getInt i))
  | .getSlice sl => Spec.out .vals (onList (L.getSlice sl))
  | .bisectLeft v => Spec.out (fun (n : Nat) => .int n) (onList (L.bisectLeft v))
  | .bisectRight v => Spec.out (fun (n : Nat) => .int n) (onList (L.bisectRight v))
  | .index v a b => Spec.out .int (onList (L.index v a b))
  | .islice a b r => Spec.out .vals (onList (L.islice a b r))
  | .reset load => Spec.out (fun _ => .none) (onList (L.reset load))
  | op => IPy.still (Verif.SS.step S L0 op)

end SS

/-! ## SortedDict

All line numbers refer to /repo/src/sortedcontainers/sorteddict.py. -/

namespace SD
variable {κ ν σ β : Type}

/-- A call of a method of `_list`: the list goes through the states that the call logs, the dict stays.
(sortedset.py:127-155, sorteddict.py:140-168: the references to `_set`, `_list` and their methods.) -/
def onList (m : IPy σ β) : IPy (SD κ ν σ) β := fun s =>
  let r := m (s.1.list, [])
  (r.1, { s.1 with list := r.2.1 }, s.2 ++ r.2.2.map fun l => { s.1 with list := l })

/-- A mutation of the dict that cannot raise.  (Python's `dict`, the base class, sorteddict.py:27.) -/
def onDict (f : List (κ × ν) → List (κ × ν)) : IPy (SD κ ν σ) Unit := IPy.write fun s => { s with dict := f s.dict }

variable (eqv : κ → κ → Bool) (L : IListAPI σ κ)

/-- `dict.__delitem__(self, key)` (Python's `dict`, the base class, sorteddict.py:27.) -/
def dictDelitem (k : κ) : IPy (SD κ ν σ) Unit := do
  let s ← IPy.get
  if PyDict.has eqv s.dict k then onDict fun d => PyDict.erase eqv d k
  else IPy.raise .keyError

/-- `dict.pop(self, key)` (Python's `dict`, the base class, sorteddict.py:27.) -/
def dictPop (k : κ) : IPy (SD κ ν σ) ν := do
  let s ← IPy.get
  let v ← IPy.lift (PyDict.getitem eqv s.dict k)
  onDict fun d => PyDict.erase eqv d k
  pure v

/-- `self[key]`, inherited from dict (Inherited from `dict`, sorteddict.py:27.) -/
def getitem (k : κ) : IPy (SD κ ν σ) ν := IPy.still (Verif.SD.getitem eqv k)

/-- `clear` (sorteddict.py:201-208) -/
def clear : IPy (SD κ ν σ) Unit := do
  onDict fun _ => []
  onList L.clear

/-- `__delitem__` (sorteddict.py:210-231) -/
def delitem (k : κ) : IPy (SD κ ν σ) Unit := do
  dictDelitem eqv k
  onList (L.remove k)

/-- `__setitem__` (sorteddict.py:255-275) -/
def setitem (k : κ) (v : ν) : IPy (SD κ ν σ) Unit := do
  let s ← IPy.get
  if Verif.SD.contains eqv k s then pure () else onList (L.add k)
  onDict fun d => PyDict.set eqv d k v

/-- `dict.update(self, *args, **kwargs)`.  A dict is taken over in one step; pairs arrive one by one.
(Python's `dict`, the base class, sorteddict.py:27.) -/
def dictUpdate : DictArg κ ν → IPy (SD κ ν σ) Unit
  | .dict items => onDict fun d => PyDict.update eqv d items
  | .pairs items fail => do
    IPy.forEach (fun p => onDict fun d => PyDict.set eqv d p.1 p.2) items
    match fail with
    | none => pure ()
    | some e => IPy.raise e

/-- `update` (sorteddict.py:487-516), also `sd |= other` (291-293) -/
def update (arg : DictArg κ ν) : IPy (SD κ ν σ) Unit := do
  let s ← IPy.get
  if s.dict.length = 0 then
    dictUpdate eqv arg
    let s ← IPy.get
    onList (L.update (PyDict.keys s.dict))
  else
    let pairs ← IPy.lift (Verif.SD.pairsOf eqv arg)
    if 10 * pairs.length > s.dict.length then
      dictUpdate eqv (.dict pairs)
      onList L.clear
      let s ← IPy.get
      onList (L.update (PyDict.keys s.dict))
    else
      IPy.forEach (fun p => setitem eqv L p.1 p.2) pairs

/-- `pop` (sorteddict.py:360-390); `default = none` if the argument is not given -/
def pop (k : κ) (default : Option ν) : IPy (SD κ ν σ) ν := do
  let s ← IPy.get
  if Verif.SD.contains eqv k s then
    onList (L.remove k)
    dictPop eqv k
  else
    match default with
    | none => IPy.raise .keyError
    | some v => pure v

/-- `popitem` (sorteddict.py:392-425) -/
def popitem (i : Int) : IPy (SD κ ν σ) (κ × ν) := do
  let s ← IPy.get
  if s.dict.length = 0 then IPy.raise .keyError
  else
    let key ← onList (L.pop i)
    let value ← dictPop eqv key
    pure (key, value)

/-- `peekitem` (sorteddict.py:427-455); also `sd.items()[i]` (685-693) -/
def peekitem (i : Int) : IPy (SD κ ν σ) (κ × ν) := do
  let key ← onList (L.getInt i)
  let value ← getitem eqv key
  pure (key, value)

/-- `setdefault` (sorteddict.py:457-485) -/
def setdefault (k : κ) (default : ν) : IPy (SD κ ν σ) ν := do
  let s ← IPy.get
  if Verif.SD.contains eqv k s then getitem eqv k
  else
    onDict fun d => PyDict.set eqv d k default
    onList (L.add k)
    pure default

/-- `sd.items()[a:b:c]` (sorteddict.py:685-690) -/
def itemsSlice (sl : PySlice) : IPy (SD κ ν σ) (List (κ × ν)) := do
  let keys ← onList (L.getSlice sl)
  IPy.mapEach (fun k => do
    let v ← getitem eqv k
    pure (k, v)) keys

/-- `sd.values()[i]` (sorteddict.py:736-744) -/
def valuesAt (i : Int) : IPy (SD κ ν σ) ν := do
  let key ← onList (L.getInt i)
  getitem eqv key

/-- `sd.values()[a:b:c]` (sorteddict.py:736-741) -/
def valuesSlice (sl : PySlice) : IPy (SD κ ν σ) (List ν) := do
  let keys ← onList (L.getSlice sl)
  IPy.mapEach (getitem eqv) keys

/-- `del view[i]` (`_view_delitem`, sorteddict.py:583-593) -/
def viewDelInt (i : Int) : IPy (SD κ ν σ) Unit := do
  let key ← onList (L.pop i)
  dictDelitem eqv key

/-- `del view[a:b:c]` (`_view_delitem`, sorteddict.py:583-590) -/
def viewDelSlice (sl : PySlice) : IPy (SD κ ν σ) Unit := do
  let keys ← onList (L.getSlice sl)
  onList (L.delSlice sl)
  IPy.forEach (dictDelitem eqv) keys

/-- Wrap the result of a call.  (Scaffolding of the model: no code of /repo.) -/
def out {τ : Type} (f : β → DOut κ ν) (m : IPy τ β) : IPy τ (DOut κ ν) := do
  let b ← m
  pure (f b)

/-- One call.  The calls that `IPy.still` takes from the model write nothing to the dict.
(Dispatch of the model: each call goes to the definition of its method, which cites its lines.) -/
def step (L0 : ListAPI σ κ) : SDOp κ ν → IPy (SD κ ν σ) (DOut κ ν)
  | .setitem k v => out (fun _ => .none) (setitem eqv L k v)
  | .delitem k => out (fun _ => .none) (delitem eqv L k)
  | .clear => out (fun _ => .none) (clear L)
  | .pop k default => out .val (pop eqv L k default)
  | .popitem i => out (fun p => .item p.1 p.2) (popitem eqv L i)
  | .peekitem i => out (fun p => .item p.1 p.2) (peekitem eqv L i)
  | .setdefault k v => out .val (setdefault eqv L k v)
  | .update arg => out (fun _ => .none) (update eqv L arg)
  | .keysAt i => out .key (onList (L.getInt i))
  | .keysSlice sl => out .keys (onList (L.getSlice sl))
  | .itemsAt i => out (fun p => .item p.1 p.2) (peekitem eqv L i)
  | .itemsSlice sl => out .items (itemsSlice eqv L sl)
  | .valuesAt i => out .val (valuesAt eqv L i)
  | .valuesSlice sl => out .vals (valuesSlice eqv L sl)
  | .viewDelInt i => out (fun _ => .none) (viewDelInt eqv L i)
  | .viewDelSlice sl => out (fun _ => .none) (viewDelSlice eqv L sl)
  | .bisectLeft k => out (fun (n : Nat) => .int n) (onList (L.bisectLeft k))
  | .bisectRight k => out (fun (n : Nat) => .int n) (onList (L.bisectRight k))
  | .index k a b => out .int (onList (L.index k a b))
  | .islice a b r => out .keys (onList (L.islice a b r))
  | .reset load => out (fun _ => .none) (onList (L.reset load))
  | op => IPy.still (Verif.SD.step eqv L0 op)

end SD
end Interrupt

/-- The methods of the class, as programs with a log.  (sortedset.py:140-155, sorteddict.py:140-168.) -/
def ListClass.interrupted {α : Type} : (c : ListClass α) → IListAPI c.State α
  | .plain E => Interrupt.SL.api E
  | .keyed K => Interrupt.SKL.api K

end Verif
