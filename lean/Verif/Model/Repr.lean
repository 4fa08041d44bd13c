import Verif.ReprSpec
/-!
# `repr`

`__repr__` of the four classes and of the views, the decorator `recursive_repr` of the standard library (`reprlib.py`), `repr` of built-in lists, tuples and dicts, and
threads that call `repr`.  A call of `repr` is a stack of calls that wait for the text of a part.  Nothing here keeps it from running forever but the code itself.

`recursive_repr` keeps a set `repr_running` of pairs `(id(self), get_ident())` for each decorated function, and CPython keeps a list of objects for each thread for the
built-in types (`Py_ReprEnter`); as an object has one type, one set of pairs `Running` stands for all of them.  A thread looks at the set, adds to it and
discards from it one after the other, and other threads run in between.

Not modelled: the limit on the depth of recursion; `__repr__` of other types that look at containers; threads that change an object while it is shown.
-/

namespace Verif

/-- What a `__repr__` still has to do: it returns or raises, or it calls `repr(o)` and goes on with the text.
(Scaffolding of the model: no code of /repo.) -/
inductive Code (α : Type) where
  | done (x : Except PyErr α)
  | repr (o : Nat) (k : String → Code α)

namespace Code
variable {α β : Type}

/-- `m`, then `f` with its result (Scaffolding of the model: no code of /repo.) -/
def bind : Code α → (α → Code β) → Code β
  | done (.ok a), f => f a
  | done (.error e), _ => done (.error e)
  | repr o k, f => repr o fun t => bind (k t) f

/-- As a monad.  (Scaffolding of the model: no code of /repo.) -/
instance : Monad Code where
  pure a := done (.ok a)
  bind := bind

/-- `repr(o)` (Python's own, called by the code of /repo.) -/
def ask (o : Nat) : Code String := repr o fun t => done (.ok t)

/-- `repr` of each of `xs`, in order (Scaffolding of the model: no code of /repo.) -/
def askEach : List Nat → Code (List String)
  | [] => pure []
  | x :: xs => do
    let t ← ask x
    let ts ← askEach xs
    pure (t :: ts)

end Code

open Code

/-- `list.__repr__` of CPython, without its check for recursion: `[`, the values, `]`
(Python's own, called by the code of /repo.) -/
def reprList (xs : List Nat) : Code String := do
  let texts ← askEach xs
  pure ("[" ++ commas texts ++ "]")

/-- `tuple.__repr__` of CPython: a tuple of one value has a comma after it.  (Python's own, called by the code of /repo.) -/
def reprTuple (xs : List Nat) : Code String := do
  let texts ← askEach xs
  pure (match texts with
    | [t] => "(" ++ t ++ ",)"
    | ts => "(" ++ commas ts ++ ")")

/-- The items of `dict.__repr__` of CPython: the key, then the value (Python's own, called by the code of /repo.) -/
def reprItems : List (Nat × Nat) → Code (List String)
  | [] => pure []
  | (k, v) :: items => do
    let a ← ask k
    let b ← ask v
    let ts ← reprItems items
    pure ((a ++ ": " ++ b) :: ts)

/-- `dict.__repr__` of CPython (Python's own, called by the code of /repo.) -/
def reprDict (items : List (Nat × Nat)) : Code String := do
  let texts ← reprItems items
  pure ("{" ++ commas texts ++ "}")

/-- `SortedList.__repr__` (sortedlist.py:1504-1513).  `list(self)` is a new list, so its own check for recursion never finds it. -/
def reprSortedList (name : String) (s : St Nat Nat) : Code String := do
  let values ← reprList (Core.iter s)
  pure (name ++ "(" ++ values ++ ")")

/-- `SortedKeyList.__repr__` (sortedlist.py:2434-2444) -/
def reprSortedKeyList (name : String) (s : St Nat Nat) (key : Nat) : Code String := do
  let values ← reprList (Core.iter s)
  let key ← ask key
  pure (name ++ "(" ++ values ++ ", key=" ++ key ++ ")")

/-- `SortedSet.__repr__` (sortedset.py:671-683) -/
def reprSortedSet (name : String) (s : St Nat Nat) (key : Option Nat) : Code String := do
  let key ← match key with
    | none => pure ""
    | some key => do
      let t ← ask key
      pure (", key=" ++ t)
  let values ← reprList (Core.iter s)
  pure (name ++ "(" ++ values ++ key ++ ")")

/-- `item_format(key, self[key]) for key in self._list` (sorteddict.py:541-543) -/
def reprEntries (same : Nat → Nat → Bool) (dict : List (Nat × Nat)) : List Nat → Code (List String)
  | [] => pure []
  | key :: keys => do
    let value ← done (PyDict.getitem same dict key)
    let a ← ask key
    let b ← ask value
    let ts ← reprEntries same dict keys
    pure ((a ++ ": " ++ b) :: ts)

/-- `SortedDict.__repr__` (sorteddict.py:530-544) -/
def reprSortedDict (same : Nat → Nat → Bool) (name : String) (dict : List (Nat × Nat)) (s : St Nat Nat) (key : Option Nat) : Code String := do
  let keyArg ← match key with
    | none => pure ""
    | some key => do
      let t ← ask key
      pure (t ++ ", ")
  let items ← reprEntries same dict (Core.iter s)
  pure (name ++ "(" ++ keyArg ++ "{" ++ commas items ++ "})")

/-- `MappingView.__repr__` of `collections.abc`, which the views inherit (sorteddict.py:721-830): `'{0.__class__.__name__}({0._mapping!r})'` -/
def reprView (name : String) (mapping : Nat) : Code String := do
  let t ← ask mapping
  pure (name ++ "(" ++ t ++ ")")

/-- `o.__repr__()`, without the check for recursion
(Dispatch of the model: each call goes to the definition of its method, which cites its lines.) -/
def Graph.body (g : Graph) (o : Nat) : Code String :=
  match g.node o with
  | .value x => done x
  | .list xs => reprList xs
  | .tuple xs => reprTuple xs
  | .dict items => reprDict items
  | .sortedList name s => reprSortedList name s
  | .sortedKeyList name s key => reprSortedKeyList name s key
  | .sortedSet name s key => reprSortedSet name s key
  | .sortedDict name d s key => reprSortedDict g.same name d s key
  | .view name m => reprView name m

/-- Whether `__repr__` checks for recursion, and what it returns then.  The classes are decorated with `@recursive_repr()`, whose default is `'...'` (sortedlist.py:1504, 2434,
sortedset.py:671, sorteddict.py:530); the views are not decorated. -/
def Graph.guard (g : Graph) (o : Nat) : Option String :=
  match g.node o with
  | .value _ => none
  | .list _ => some "[...]"
  | .tuple _ => some "(...)"
  | .dict _ => some "{...}"
  | .sortedList .. => some "..."
  | .sortedKeyList .. => some "..."
  | .sortedSet .. => some "..."
  | .sortedDict .. => some "..."
  | .view .. => none

/-- `repr_running`: objects and threads (`reprlib`; sortedlist.py:1504, 2434, sortedset.py:671, sorteddict.py:530.) -/
abbrev Running := Nat → Nat → Bool

/-- What waits for a call to return: a `__repr__` that goes on with the text, or a wrapper that discards its pair (`finally`).
(Scaffolding of the model: no code of /repo.) -/
inductive Waits where
  | resume (k : String → Code String)
  | wrapper (o : Nat)

/-- What a thread does next: call `repr(o)`; add its pair, after it looked and found none; or go on with a `__repr__`.
(Scaffolding of the model: no code of /repo.) -/
inductive Doing where
  | call (o : Nat)
  | enter (o : Nat)
  | run (c : Code String)

/-- A thread that calls `repr` (Scaffolding of the model: no code of /repo.) -/
structure Shower where
  doing : Doing
  stack : List Waits

/-- What the call returned or raised, once it has.  (Scaffolding of the model: no code of /repo.) -/
def Shower.result (s : Shower) : Option (Except PyErr String) :=
  match s.doing, s.stack with
  | .run (.done x), [] => some x
  | _, _ => none

/-- The next step of thread `t`.  `wrapper` of `recursive_repr`:

    key = id(self), get_ident()
    if key in repr_running:
        return fillvalue
    repr_running.add(key)
    try:
        result = user_function(self)
    finally:
        repr_running.discard(key)
    return result (`reprlib`; sortedlist.py:1504, 2434, sortedset.py:671, sorteddict.py:530.) -/
def Graph.step (g : Graph) (t : Nat) (running : Running) (s : Shower) : Running × Shower :=
  match s.doing with
  | .call o =>
    match g.guard o with
    | none => (running, { s with doing := .run (g.body o) })
    | some text =>
      if running o t then (running, { s with doing := .run (.done (.ok text)) })
      else (running, { s with doing := .enter o })
  | .enter o => (fun x u => if x == o && u == t then true else running x u, ⟨.run (g.body o), .wrapper o :: s.stack⟩)
  | .run (.repr o k) => (running, ⟨.call o, .resume k :: s.stack⟩)
  | .run (.done x) =>
    match s.stack with
    | [] => (running, s)
    | .resume k :: stack =>
      match x with
      | .ok text => (running, ⟨.run (k text), stack⟩)
      | .error e => (running, ⟨.run (.done (.error e)), stack⟩)
    | .wrapper o :: stack => (fun y u => if y == o && u == t then false else running y u, ⟨.run (.done x), stack⟩)

/-- Threads that call `repr`, and the set they share.  (Scaffolding of the model: no code of /repo.) -/
structure Showers where
  running : Running
  threads : List Shower

/-- Thread `t` takes a step.  (Scaffolding of the model: no code of /repo.) -/
def Graph.turn (g : Graph) (p : Showers) (t : Nat) : Showers :=
  match p.threads[t]? with
  | none => p
  | some s => let r := g.step t p.running s; ⟨r.1, p.threads.set t r.2⟩

/-- The threads take steps in the order of `schedule`.  (Scaffolding of the model: no code of /repo.) -/
def Graph.run (g : Graph) (schedule : List Nat) (p : Showers) : Showers := schedule.foldl g.turn p

/-- Thread `i` calls `repr` of the object `os[i]`.  (Scaffolding of the model: no code of /repo.) -/
def reprs (running : Running) (os : List Nat) : Showers := ⟨running, os.map fun o => ⟨.call o, []⟩⟩

end Verif
