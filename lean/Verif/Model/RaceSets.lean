import Verif.Model.Locked
import Verif.Model.SortedSet
import Verif.Model.SortedDict
/-!
# Threads that share one sorted set or dict

The methods of SortedSet and SortedDict as programs that can be suspended between any two accesses (`Model/Race.lean`): an access to the built-in set or dict is one call of a built-in
function (`v in _set`, `_set.add(v)`, `_set.update(values)`, `dict.pop(self, k)`), and the calls of `_list` are cut into the accesses of `Model/Race.lean`.

Simplifications: iteration over the object is one access to `_list` (as `list(sl)` is); in `sd.items()` and `sd.values()` the accesses to the dict come after that one.  A set or dict
that is computed (`ss | other`, `sd.copy()`, ...) belongs to the thread alone, so it is made at once, by the constructor of `Model/SortedSet.lean` or `Model/SortedDict.lean`.
-/

namespace Verif

/-- The methods of `_list` that the calls below use, as programs.  (sortedset.py:140-155, sorteddict.py:140-168.) -/
structure RaceAPI (σ α : Type) where
  add : α → Task σ Unit
  update : List α → Task σ Unit
  remove : α → Task σ Unit
  clear : Task σ Unit
  delInt : Int → Task σ Unit
  pop : Int → Task σ α
  getInt : Int → Task σ α
  bisectLeft : α → Task σ Int
  bisectRight : α → Task σ Int
  /-- iteration, as the list of values yielded -/
  toList : Task σ (List α)
  getSlice : PySlice → Task σ (List α)
  delSlice : PySlice → Task σ Unit
  index : α → Option Int → Option Int → Task σ Int
  irange : Option α → Option α → Bool → Bool → Bool → Task σ (List α)
  islice : Option Int → Option Int → Bool → Task σ (List α)
  reset : Nat → Task σ Unit

namespace ListClass
variable {α : Type}

/-- An object of the class in memory.  (Scaffolding of the model: no code of /repo.) -/
def Memory : ListClass α → Type
  | .plain _ => Race.Shared α α
  | .keyed (κ := κ) _ => Race.Shared α κ

/-- The methods of the class.  (sortedset.py:140-155, sorteddict.py:140-168.) -/
def race : (c : ListClass α) → (fuel : Nat) → RaceAPI c.Memory α
  | .plain E, fuel =>
    { add := Race.SL.add E fuel, update := Race.SL.update E fuel, remove := Race.SL.remove E fuel, clear := Race.SL.clear, delInt := Race.SL.delInt E fuel, pop := Race.SL.pop E fuel,
      getInt := Race.getInt E.ilog2, bisectLeft := Race.SL.bisect E false, bisectRight := Race.SL.bisect E true, toList := Race.toList,
      getSlice := Race.getSlice E.ilog2, delSlice := Race.SL.delSlice E fuel, index := Race.SL.index E, irange := Race.SL.irange E, islice := Race.islice E.ilog2, reset := Race.SL.reset E fuel }
  | .keyed K, fuel =>
    { add := Race.SKL.add K fuel, update := Race.SKL.update K fuel, remove := Race.SKL.remove K fuel, clear := Race.SKL.clear, delInt := Race.SKL.delInt K fuel, pop := Race.SKL.pop K fuel,
      getInt := Race.getInt K.ilog2, bisectLeft := Race.SKL.bisect K false, bisectRight := Race.SKL.bisect K true, toList := Race.toList,
      getSlice := Race.getSlice K.ilog2, delSlice := Race.SKL.delSlice K fuel, index := Race.SKL.index K fuel, irange := Race.SKL.irange K, islice := Race.islice K.ilog2, reset := Race.SKL.reset K fuel }

/-- An object whose methods have returned.  (Scaffolding of the model: no code of /repo.) -/
def memory : (c : ListClass α) → c.State → c.Memory
  | .plain _, s => Race.Shared.of s
  | .keyed _, s => Race.Shared.of s

/-- The values of the list in memory, as iteration yields them.  (Scaffolding of the model: no code of /repo.) -/
def contents : (c : ListClass α) → c.Memory → List α
  | .plain _, s => Race.Shared.contents s
  | .keyed _, s => Race.Shared.contents s

/-- The object in memory as the other modules see it.  (Scaffolding of the model: no code of /repo.) -/
def view : (c : ListClass α) → c.Memory → c.State
  | .plain _, s => Race.Shared.view s
  | .keyed _, s => Race.Shared.view s

end ListClass

/-- The values that a call passes to the set.  (Scaffolding of the model: no code of /repo.) -/
def SSOp.given {α : Type} : SSOp α → List α
  | .add v => [v]
  | .update xss => xss.flatten
  | .symmetricDifferenceUpdate xs => xs
  | _ => []

/-- The values that a call may return although it does not pass them to the set.  (Scaffolding of the model: no code of /repo.) -/
def SSOp.operands {α : Type} : SSOp α → List α
  | .union xss => xss.flatten
  | .symmetricDifference xs => xs
  | _ => []

/-- The items that a call passes to the dict.  (Scaffolding of the model: no code of /repo.) -/
def SDOp.given {κ ν : Type} : SDOp κ ν → List (κ × ν)
  | .setitem k v => [(k, v)]
  | .setdefault k v => [(k, v)]
  | .update arg => arg.items
  | _ => []

/-- The items that a call may return although they are not stored: the default of `pop`, the items of the other mapping.
(Scaffolding of the model: no code of /repo.) -/
def SDOp.operands {κ ν : Type} : SDOp κ ν → List (κ × ν)
  | .pop k (some v) => [(k, v)]
  | .or other => other
  | .ror other => other
  | _ => []

/-- The key whose value a call asks for.  (Scaffolding of the model: no code of /repo.) -/
def SDOp.asks {κ ν : Type} : SDOp κ ν → Option κ
  | .getitem k => some k
  | .get k => some k
  | .pop k _ => some k
  | .setdefault k _ => some k
  | _ => none

/-- All that the answer shows to a call is from `known`: a key is that of an item, a value is that of an item whose key equals the one it is shown for.
(Scaffolding of the model: no code of /repo.) -/
def DOut.From {κ ν : Type} (eqv : κ → κ → Bool) (known : κ × ν → Prop) (asked : Option κ) : DOut κ ν → Prop
  | .key k => ∃ v, known (k, v)
  | .keys l => ∀ k ∈ l, ∃ v, known (k, v)
  | .val v => ∃ k, known (k, v) ∧ ∀ k', asked = some k' → eqv k k' = true
  | .vals l => ∀ v ∈ l, ∃ k, known (k, v)
  | .item k v => (∃ w, known (k, w)) ∧ ∃ k', known (k', v) ∧ eqv k' k = true
  | .items l => ∀ p ∈ l, (∃ w, known (p.1, w)) ∧ ∃ k', known (k', p.2) ∧ eqv k' p.1 = true
  | _ => True

namespace Race

/-! ## SortedSet

All line numbers refer to /repo/src/sortedcontainers/sortedset.py. -/

namespace SS
variable {τ σ σ' α β : Type}

/-- A call of a method of `_list`.
(sortedset.py:127-155, sorteddict.py:140-168: the references to `_set`, `_list` and their methods.) -/
def onList : Task σ β → Task (Verif.SS τ σ) β
  | .ret x => .ret x
  | .act f k => .act (fun s => { s with list := f s.list }) fun s => onList (k s.list)
  | .spin => .spin

/-- A look at `_set`.  (sortedset.py:127-155, sorteddict.py:140-168: the references to `_set`, `_list` and their methods.) -/
def seeSet (f : τ → β) : Task (Verif.SS τ σ) β := Task.see fun s => .ok (f s.set)

/-- A call of a mutating method of `_set` that cannot raise.
(sortedset.py:127-155, sorteddict.py:140-168: the references to `_set`, `_list` and their methods.) -/
def onSet (f : τ → τ) : Task (Verif.SS τ σ) Unit := Task.change fun s => .ok { s with set := f s.set }

variable (S : SetOps τ α) (W : RaceAPI σ α)

/-- `self._set.remove(value)`
(sortedset.py:127-155, sorteddict.py:140-168: the references to `_set`, `_list` and their methods.) -/
def setRemove (v : α) : Task (Verif.SS τ σ) Unit := Task.change fun s => (fun t => { s with set := t }) <$> S.remove v s.set

/-- `__delitem__` with an integer (sortedset.py:242-250) -/
def delInt (i : Int) : Task (Verif.SS τ σ) Unit := do
  let value ← onList (W.getInt i)
  setRemove S value
  onList (W.delInt i)

/-- `__delitem__` with a slice (sortedset.py:242-250) -/
def delSlice (sl : PySlice) : Task (Verif.SS τ σ) Unit := do
  let values ← onList (W.getSlice sl)
  onSet (S.differenceUpdate values)
  onList (W.delSlice sl)

/-- `add` (sortedset.py:335-338) -/
def add (v : α) : Task (Verif.SS τ σ) Unit := do
  let there ← seeSet fun t => S.mem v t
  if there then pure ()
  else
    onSet (S.add v)
    onList (W.add v)

/-- `clear` (sortedset.py:348-349) -/
def clear : Task (Verif.SS τ σ) Unit := do
  onSet fun _ => S.empty
  onList W.clear

/-- `discard` (sortedset.py:394-397) -/
def discard (v : α) : Task (Verif.SS τ σ) Unit := do
  let there ← seeSet fun t => S.mem v t
  if there then
    setRemove S v
    onList (W.remove v)
  else pure ()

/-- `pop` (sortedset.py:425-427) -/
def pop (i : Int) : Task (Verif.SS τ σ) α := do
  let value ← onList (W.pop i)
  setRemove S value
  pure value

/-- `remove` (sortedset.py:449-450) -/
def remove (v : α) : Task (Verif.SS τ σ) Unit := do
  setRemove S v
  onList (W.remove v)

/-- The lines `_list.clear(); _list.update(_set)` (sortedset.py:496-497, 551-552, 603-604, 651-652); `update` starts with `sorted(iterable)`, which reads the set in one go. -/
def rebuild : Task (Verif.SS τ σ) Unit := do
  onList W.clear
  let values ← seeSet S.toList
  onList (W.update values)

/-- `difference_update` (sortedset.py:491-502) -/
def differenceUpdate (xss : List (List α)) : Task (Verif.SS τ σ) Unit := do
  let values := S.ofList xss.flatten
  let n ← seeSet S.len
  if 4 * S.len values > n then
    onSet (S.differenceUpdate (S.toList values))
    rebuild S W
  else
    Task.forEach (discard S W) (S.toList values)

/-- `intersection_update` (sortedset.py:548-553) -/
def intersectionUpdate (xss : List (List α)) : Task (Verif.SS τ σ) Unit := do
  onSet (S.intersectionUpdate xss)
  rebuild S W

/-- `symmetric_difference_update` (sortedset.py:600-605) -/
def symmetricDifferenceUpdate (xs : List α) : Task (Verif.SS τ σ) Unit := do
  onSet (S.symmetricDifferenceUpdate xs)
  rebuild S W

/-- `update` (sortedset.py:645-657) -/
def update (xss : List (List α)) : Task (Verif.SS τ σ) Unit := do
  let values := S.ofList xss.flatten
  let n ← seeSet S.len
  if 4 * S.len values > n then
    onSet (S.update (S.toList values))
    rebuild S W
  else
    Task.forEach (add S W) (S.toList values)

variable (L : ListAPI σ' α)

/-- A new SortedSet with the given built-in set (`_fromset`, sortedset.py:159-169), as the list of its values. -/
def made (values : τ) : Task (Verif.SS τ σ) (List α) := Task.lift (Verif.SS.iter L <$> Verif.SS.fromset S L values)

/-- One call.  (Dispatch of the model: each call goes to the definition of its method, which cites its lines.) -/
def step : SSOp α → Task (Verif.SS τ σ) (Out α)
  | .add v => (fun _ => .none) <$> add S W v
  | .discard v => (fun _ => .none) <$> discard S W v
  | .remove v => (fun _ => .none) <$> remove S W v
  | .pop i => .val <$> pop S W i
  | .delInt i => (fun _ => .none) <$> delInt S W i
  | .delSlice sl => (fun _ => .none) <$> delSlice S W sl
  | .clear => (fun _ => .none) <$> clear S W
  | .update xss => (fun _ => .none) <$> update S W xss
  | .differenceUpdate xss => (fun _ => .none) <$> differenceUpdate S W xss
  | .intersectionUpdate xss => (fun _ => .none) <$> intersectionUpdate S W xss
  | .symmetricDifferenceUpdate xs => (fun _ => .none) <$> symmetricDifferenceUpdate S W xs
  | .getInt i => .val <$> onList (W.getInt i)
  | .getSlice sl => .vals <$> onList (W.getSlice sl)
  | .bisectLeft v => .int <$> onList (W.bisectLeft v)
  | .bisectRight v => .int <$> onList (W.bisectRight v)
  | .index v start stop => .int <$> onList (W.index v start stop)
  | .irange lo hi incMin incMax reverse => .vals <$> onList (W.irange lo hi incMin incMax reverse)
  | .islice start stop reverse => .vals <$> onList (W.islice start stop reverse)
  -- `__contains__` (sortedset.py:180-195), `__len__` (288-296), `count` (363-376), `isdisjoint`, `issubset`, `issuperset` (135-137), comparisons (252-286)
  | .contains v => .bool <$> seeSet fun t => S.mem v t
  | .len => (fun (n : Nat) => .int n) <$> seeSet S.len
  | .count v => (fun (n : Nat) => .int n) <$> seeSet fun t => if S.mem v t then 1 else 0
  | .isdisjoint xs => .bool <$> seeSet fun t => !xs.any fun v => S.mem v t
  | .issubset xs => .bool <$> seeSet fun t => Verif.SS.setCompare S .le t (S.ofList xs)
  | .issuperset xs => .bool <$> seeSet fun t => xs.all fun v => S.mem v t
  | .compare op values => .bool <$> seeSet fun t => Verif.SS.setCompare S op t (S.ofList values)
  -- `__iter__` (298-307), `__reversed__` (309-318)
  | .iter => .vals <$> onList W.toList
  | .reversed => (fun l => .vals l.reverse) <$> onList W.toList
  -- `copy` (351-361), `intersection` (524-525), `difference` (470-471), `symmetric_difference` (575-576)
  | .copy => do
    let t ← seeSet S.copy
    .vals <$> made S L t
  | .intersection xss => do
    let t ← seeSet (S.intersection xss)
    .vals <$> made S L t
  | .difference xss => do
    let t ← seeSet (S.difference xss)
    .vals <$> made S L t
  | .symmetricDifference xs => do
    let t ← seeSet (S.symmetricDifference xs)
    .vals <$> made S L t
  -- `union` (624)
  | .union xss => do
    let own ← onList W.toList
    .vals <$> Task.lift (Verif.SS.iter L <$> Verif.SS.new S L (some (own ++ xss.flatten)))
  | .reset load => (fun _ => .none) <$> onList (W.reset load)

/-- A SortedSet of the class in memory.  (Scaffolding of the model: no code of /repo.) -/
def of (c : ListClass α) (s : Verif.SS τ c.State) : Verif.SS τ c.Memory := { set := s.set, list := c.memory s.list }

/-- Threads that have a SortedSet and a lock in common.  (Scaffolding of the model: no code of /repo.) -/
def guarded (c : ListClass α) (s : Verif.SS τ c.State) (threads : List (List (SSOp α))) : Guarded (Verif.SS τ c.Memory) (SSOp α) (Out α) :=
  { shared := of c s, holder := none, waiting := threads, log := [] }

/-- Threads that have a SortedSet in common, and nothing protects it.  (Scaffolding of the model: no code of /repo.) -/
def crowd (S : SetOps τ α) (c : ListClass α) (fuel : Nat) (s : Verif.SS τ c.State) (threads : List (List (SSOp α))) : Crowd (Verif.SS τ c.Memory) (List (Except PyErr (Out α))) :=
  { shared := of c s, threads := threads.map (Task.calls (step S (c.race fuel) c.api)) }

end SS

/-! ## SortedDict

All line numbers refer to /repo/src/sortedcontainers/sorteddict.py. -/

namespace SD
variable {κ ν σ σ' β : Type}

/-- A call of a method of `_list`.
(sortedset.py:127-155, sorteddict.py:140-168: the references to `_set`, `_list` and their methods.) -/
def onList : Task σ β → Task (Verif.SD κ ν σ) β
  | .ret x => .ret x
  | .act f k => .act (fun s => { s with list := f s.list }) fun s => onList (k s.list)
  | .spin => .spin

/-- A look at the dict.  (Python's `dict`, the base class, sorteddict.py:27.) -/
def seeDict (f : List (κ × ν) → Except PyErr β) : Task (Verif.SD κ ν σ) β := Task.see fun s => f s.dict

/-- A mutation of the dict that cannot raise.  (Python's `dict`, the base class, sorteddict.py:27.) -/
def onDict (f : List (κ × ν) → List (κ × ν)) : Task (Verif.SD κ ν σ) Unit := Task.change fun s => .ok { s with dict := f s.dict }

variable (eqv : κ → κ → Bool) (W : RaceAPI σ κ)

/-- `self[key]`, inherited from dict (Inherited from `dict`, sorteddict.py:27.) -/
def getitem (k : κ) : Task (Verif.SD κ ν σ) ν := seeDict fun d => PyDict.getitem eqv d k

/-- `dict.pop(self, key)`; `dict.__delitem__(self, key)` does the same and returns nothing
(Python's `dict`, the base class, sorteddict.py:27.) -/
def dictPop (k : κ) : Task (Verif.SD κ ν σ) ν := .act (fun s => { s with dict := PyDict.erase eqv s.dict k }) fun s => .ret (PyDict.getitem eqv s.dict k)

/-- `clear` (sorteddict.py:201-208) -/
def clear : Task (Verif.SD κ ν σ) Unit := do
  onDict fun _ => []
  onList W.clear

/-- `__delitem__` (sorteddict.py:210-231) -/
def delitem (k : κ) : Task (Verif.SD κ ν σ) Unit := do
  let _ ← dictPop eqv k
  onList (W.remove k)

/-- `__setitem__` (sorteddict.py:255-275) -/
def setitem (k : κ) (v : ν) : Task (Verif.SD κ ν σ) Unit := do
  let there ← seeDict fun d => .ok (PyDict.has eqv d k)
  if there then pure () else onList (W.add k)
  onDict fun d => PyDict.set eqv d k v

/-- `[f(key) for key in keys]` (Python's own, called by the code of /repo.) -/
def mapEach (f : κ → Task (Verif.SD κ ν σ) β) : List κ → Task (Verif.SD κ ν σ) (List β)
  | [] => pure []
  | k :: ks => do
    let x ← f k
    let xs ← mapEach f ks
    pure (x :: xs)

/-- Iteration over `sd.items()` (sorteddict.py:331-339), as the list of items yielded -/
def items : Task (Verif.SD κ ν σ) (List (κ × ν)) := do
  let keys ← onList W.toList
  mapEach (fun k => do
    let v ← getitem eqv k
    pure (k, v)) keys

/-- Iteration over `sd.values()` (sorteddict.py:341-351), as the list of values yielded -/
def values : Task (Verif.SD κ ν σ) (List ν) := do
  let keys ← onList W.toList
  mapEach (getitem eqv) keys

/-- `dict.update(self, *args, **kwargs)` (Python's `dict`, the base class, sorteddict.py:27.) -/
def dictUpdate (arg : DictArg κ ν) : Task (Verif.SD κ ν σ) Unit := do
  onDict fun d => PyDict.update eqv d arg.items
  match arg.fail with
  | none => pure ()
  | some e => Task.raise e

/-- `update` (sorteddict.py:487-516) -/
def update (arg : DictArg κ ν) : Task (Verif.SD κ ν σ) Unit := do
  let n ← seeDict fun d => .ok d.length
  if n = 0 then
    dictUpdate eqv arg
    let keys ← seeDict fun d => .ok (PyDict.keys d)
    onList (W.update keys)
  else
    let pairs ← Task.lift (Verif.SD.pairsOf eqv arg)
    let n ← seeDict fun d => .ok d.length
    if 10 * pairs.length > n then
      dictUpdate eqv (.dict pairs)
      onList W.clear
      let keys ← seeDict fun d => .ok (PyDict.keys d)
      onList (W.update keys)
    else
      Task.forEach (fun p => setitem eqv W p.1 p.2) pairs

/-- `pop` (sorteddict.py:360-390); `default = none` if the argument is not given -/
def pop (k : κ) (default : Option ν) : Task (Verif.SD κ ν σ) ν := do
  let there ← seeDict fun d => .ok (PyDict.has eqv d k)
  if there then
    onList (W.remove k)
    dictPop eqv k
  else
    match default with
    | none => Task.raise .keyError
    | some v => pure v

/-- `popitem` (sorteddict.py:392-425) -/
def popitem (i : Int) : Task (Verif.SD κ ν σ) (κ × ν) := do
  let n ← seeDict fun d => .ok d.length
  if n = 0 then Task.raise .keyError
  else
    let key ← onList (W.pop i)
    let value ← dictPop eqv key
    pure (key, value)

/-- `peekitem` (sorteddict.py:427-455); also `sd.items()[i]` (685-693) -/
def peekitem (i : Int) : Task (Verif.SD κ ν σ) (κ × ν) := do
  let key ← onList (W.getInt i)
  let value ← getitem eqv key
  pure (key, value)

/-- `setdefault` (sorteddict.py:457-485) -/
def setdefault (k : κ) (default : ν) : Task (Verif.SD κ ν σ) ν := do
  let there ← seeDict fun d => .ok (PyDict.has eqv d k)
  if there then getitem eqv k
  else
    onDict fun d => PyDict.set eqv d k default
    onList (W.add k)
    pure default

/-- `sd.values()[i]` (sorteddict.py:736-744) -/
def valuesAt (i : Int) : Task (Verif.SD κ ν σ) ν := do
  let key ← onList (W.getInt i)
  getitem eqv key

/-- `del view[i]` (`_view_delitem`, sorteddict.py:583-593) -/
def viewDelInt (i : Int) : Task (Verif.SD κ ν σ) Unit := do
  let key ← onList (W.pop i)
  let _ ← dictPop eqv key
  pure ()

/-- `sd.items()[a:b:c]` (sorteddict.py:685-690) -/
def itemsSlice (sl : PySlice) : Task (Verif.SD κ ν σ) (List (κ × ν)) := do
  let keys ← onList (W.getSlice sl)
  mapEach (fun k => do
    let v ← getitem eqv k
    pure (k, v)) keys

/-- `sd.values()[a:b:c]` (sorteddict.py:736-741) -/
def valuesSlice (sl : PySlice) : Task (Verif.SD κ ν σ) (List ν) := do
  let keys ← onList (W.getSlice sl)
  mapEach (getitem eqv) keys

/-- `del view[a:b:c]` (`_view_delitem`, sorteddict.py:583-590) -/
def viewDelSlice (sl : PySlice) : Task (Verif.SD κ ν σ) Unit := do
  let keys ← onList (W.getSlice sl)
  onList (W.delSlice sl)
  Task.forEach (fun k => do
    let _ ← dictPop eqv k
    pure ()) keys

variable (L : ListAPI σ' κ)

/-- A new SortedDict with the given items (`__init__`, sorteddict.py:97-170), as the list of its items in order. -/
def made (pairs : List (κ × ν)) : Task (Verif.SD κ ν σ) (List (κ × ν)) :=
  Task.lift (Verif.SD.new eqv L (.pairs pairs none) >>= Verif.SD.items eqv L)

/-- One call.  (Dispatch of the model: each call goes to the definition of its method, which cites its lines.) -/
def step : SDOp κ ν → Task (Verif.SD κ ν σ) (DOut κ ν)
  | .setitem k v => (fun _ => .none) <$> setitem eqv W k v
  | .delitem k => (fun _ => .none) <$> delitem eqv W k
  | .clear => (fun _ => .none) <$> clear W
  | .pop k default => .val <$> pop eqv W k default
  | .popitem i => (fun p => .item p.1 p.2) <$> popitem eqv W i
  | .peekitem i => (fun p => .item p.1 p.2) <$> peekitem eqv W i
  | .setdefault k v => .val <$> setdefault eqv W k v
  | .update arg => (fun _ => .none) <$> update eqv W arg
  | .getitem k => .val <$> getitem eqv k
  -- `get`, `in`, `len`, inherited from dict
  | .get k => (fun o => o.elim .none .val) <$> seeDict fun d => .ok (PyDict.lookup eqv d k)
  | .contains k => .bool <$> seeDict fun d => .ok (PyDict.has eqv d k)
  | .len => (fun (n : Nat) => .int n) <$> seeDict fun d => .ok d.length
  -- `__iter__` (233-242), `__reversed__` (244-253)
  | .iter => .keys <$> onList W.toList
  | .reversed => (fun l => .keys l.reverse) <$> onList W.toList
  | .items => .items <$> items eqv W
  | .values => .vals <$> values eqv W
  -- `sd.keys()[i]` (611-638)
  | .keysAt i => .key <$> onList (W.getInt i)
  | .keysSlice sl => .keys <$> onList (W.getSlice sl)
  | .itemsSlice sl => .items <$> itemsSlice eqv W sl
  | .valuesSlice sl => .vals <$> valuesSlice eqv W sl
  | .viewDelSlice sl => (fun _ => .none) <$> viewDelSlice eqv W sl
  | .itemsAt i => (fun p => .item p.1 p.2) <$> peekitem eqv W i
  | .valuesAt i => .val <$> valuesAt eqv W i
  | .viewDelInt i => (fun _ => .none) <$> viewDelInt eqv W i
  | .bisectLeft k => .int <$> onList (W.bisectLeft k)
  | .bisectRight k => .int <$> onList (W.bisectRight k)
  | .index k start stop => .int <$> onList (W.index k start stop)
  | .irange lo hi incMin incMax reverse => .keys <$> onList (W.irange lo hi incMin incMax reverse)
  | .islice start stop reverse => .keys <$> onList (W.islice start stop reverse)
  -- `copy` (295-305), `__or__` (279-283), `__ror__` (285-289)
  | .copy => do
    let own ← items eqv W
    .items <$> made eqv L own
  | .or other => do
    let own ← items eqv W
    .items <$> made eqv L (own ++ other)
  | .ror other => do
    let own ← items eqv W
    .items <$> made eqv L (other ++ own)
  | .reset load => (fun _ => .none) <$> onList (W.reset load)

/-- A SortedDict of the class in memory.  (Scaffolding of the model: no code of /repo.) -/
def of (c : ListClass κ) (s : Verif.SD κ ν c.State) : Verif.SD κ ν c.Memory := { dict := s.dict, list := c.memory s.list }

/-- Threads that have a SortedDict and a lock in common.  (Scaffolding of the model: no code of /repo.) -/
def guarded (c : ListClass κ) (s : Verif.SD κ ν c.State) (threads : List (List (SDOp κ ν))) : Guarded (Verif.SD κ ν c.Memory) (SDOp κ ν) (DOut κ ν) :=
  { shared := of c s, holder := none, waiting := threads, log := [] }

/-- Threads that have a SortedDict in common, and nothing protects it.  (Scaffolding of the model: no code of /repo.) -/
def crowd (eqv : κ → κ → Bool) (c : ListClass κ) (fuel : Nat) (s : Verif.SD κ ν c.State) (threads : List (List (SDOp κ ν))) : Crowd (Verif.SD κ ν c.Memory) (List (Except PyErr (DOut κ ν))) :=
  { shared := of c s, threads := threads.map (Task.calls (step eqv (c.race fuel) c.api)) }

end SD
end Race
end Verif
