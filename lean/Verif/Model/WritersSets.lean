import Verif.Model.Writers
import Verif.Model.ThreadsSets
/-!
# Threads that change one sorted set or dict

The calls of SortedSet and SortedDict that put one value in or take one out, as programs that can be suspended; they are those of `Model/SortedSet.lean` and
`Model/SortedDict.lean`, line for line.  A test `v in _set` is one look, and `_set.add(v)` or `dict.__setitem__(self, k, v)` is one write, for these are single calls of
built-in functions; `_set.remove(v)`, `dict.__delitem__(self, k)` and `dict.pop(self, k)` are a look, which raises KeyError if there is nothing to remove, and a write (in CPython the
two are one step, so the model has all schedules that there are, and more).

The calls on `_list` are programs too; `ListClass.writers` has those of `Model/Writers.lean`.  These take one look for all reads between two writes, which is too coarse if several threads
change the list; what `Props/Owners.lean` proves of sets and dicts holds for all programs that change nothing but `_list`.
-/

namespace Verif

/-- The methods of `_list` that the calls below use.
(sortedset.py:140-155, sorteddict.py:140-168: the references to `_list` and its methods.) -/
structure WListAPI (σ α : Type) where
  add : α → Prog σ Unit
  remove : α → Prog σ Unit

namespace Threads

/-! ## SortedSet

All line numbers refer to /repo/src/sortedcontainers/sortedset.py. -/

namespace SS
variable {τ σ α : Type} (S : SetOps τ α) (W : WListAPI σ α) (Q : QListAPI σ α) (L : ListAPI σ α)

/-- `_set.add(value)` (sortedset.py:337) -/
def setAdd (v : α) : Prog (SS τ σ) Unit := Prog.modify fun s => { s with set := S.add v s.set }

/-- `_set.remove(value)` (sortedset.py:396, 449) -/
def setRemove (v : α) : Prog (SS τ σ) Unit := do
  let s ← Prog.get
  let _ ← Prog.lift (S.remove v s.set)
  Prog.modify fun s =>
    match S.remove v s.set with
    | .ok t => { s with set := t }
    | .error _ => s

/-- `add` (sortedset.py:335-338) -/
def add (v : α) : Prog (SS τ σ) Unit := do
  let s ← Prog.get
  if S.mem v s.set then pure ()
  else
    setAdd S v
    onList (W.add v)

/-- `discard` (sortedset.py:394-397) -/
def discard (v : α) : Prog (SS τ σ) Unit := do
  let s ← Prog.get
  if S.mem v s.set then
    setRemove S v
    onList (W.remove v)
  else pure ()

/-- `remove` (sortedset.py:449-450) -/
def remove (v : α) : Prog (SS τ σ) Unit := do
  setRemove S v
  onList (W.remove v)

/-- The calls of a thread: `add`, `discard`, `remove`; and queries.
(Dispatch of the model: each call goes to the definition of its method, which cites its lines.) -/
def change : SSOp α → Prog (SS τ σ) (Out α)
  | .add v => (fun _ => .none) <$> add S W v
  | .discard v => (fun _ => .none) <$> discard S W v
  | .remove v => (fun _ => .none) <$> remove S W v
  | op => query S Q L op

end SS

/-! ## SortedDict

All line numbers refer to /repo/src/sortedcontainers/sorteddict.py. -/

namespace SD
variable {κ ν σ : Type} (eqv : κ → κ → Bool) (W : WListAPI σ κ) (Q : QListAPI σ κ) (L : ListAPI σ κ)

/-- `dict.__setitem__(self, key, value)` (sorteddict.py:275, 483) -/
def dictSetitem (k : κ) (v : ν) : Prog (SD κ ν σ) Unit := Prog.modify fun s => { s with dict := PyDict.set eqv s.dict k v }

/-- `dict.pop(self, key)` (sorteddict.py:386); `dict.__delitem__(self, key)` (229) does the same and returns nothing -/
def dictPop (k : κ) : Prog (SD κ ν σ) ν := do
  let s ← Prog.get
  let v ← Prog.lift (PyDict.getitem eqv s.dict k)
  Prog.modify fun s => { s with dict := PyDict.erase eqv s.dict k }
  pure v

/-- `__setitem__` (sorteddict.py:255-275) -/
def setitem (k : κ) (v : ν) : Prog (SD κ ν σ) Unit := do
  let s ← Prog.get
  if PyDict.has eqv s.dict k then pure () else onList (W.add k)
  dictSetitem eqv k v

/-- `__delitem__` (sorteddict.py:210-231) -/
def delitem (k : κ) : Prog (SD κ ν σ) Unit := do
  let _ ← dictPop eqv k
  onList (W.remove k)

/-- `pop` (sorteddict.py:360-390) -/
def pop (k : κ) (default : Option ν) : Prog (SD κ ν σ) ν := do
  let s ← Prog.get
  if PyDict.has eqv s.dict k then
    onList (W.remove k)
    dictPop eqv k
  else
    match default with
    | none => Prog.raise .keyError
    | some v => pure v

/-- `setdefault` (sorteddict.py:457-485) -/
def setdefault (k : κ) (default : ν) : Prog (SD κ ν σ) ν := do
  let s ← Prog.get
  if PyDict.has eqv s.dict k then getitem eqv k
  else
    dictSetitem eqv k default
    onList (W.add k)
    pure default

/-- The calls of a thread: `sd[k] = v`, `del sd[k]`, `pop`, `setdefault`; and queries.
(Dispatch of the model: each call goes to the definition of its method, which cites its lines.) -/
def change : SDOp κ ν → Prog (SD κ ν σ) (DOut κ ν)
  | .setitem k v => (fun _ => .none) <$> setitem eqv W k v
  | .delitem k => (fun _ => .none) <$> delitem eqv W k
  | .pop k default => .val <$> pop eqv W k default
  | .setdefault k v => .val <$> setdefault eqv W k v
  | op => query eqv Q L op

end SD
end Threads

/-- The calls of the class that change it, as programs that can be suspended.
(sortedset.py:140-155, sorteddict.py:140-168: the references to `_list` and its methods.) -/
def ListClass.writers {α : Type} : (c : ListClass α) → WListAPI c.State α
  | .plain E => { add := Threads.SL.add E, remove := Threads.SL.remove E }
  | .keyed K => { add := Threads.SKL.add K, remove := Threads.SKL.remove K }

end Verif
