import Verif.Model.Threads
import Verif.Model.Interrupt
/-!
# A thread that changes a list while others query it

`add`, `discard`, `remove` and `clear` of the two list classes as programs that can be suspended, line for line as in `Model/Interrupt.lean`, which has the same
programs with the places where they can be interrupted.  The queries of the other threads write only to `self._index` and `self._offset`, so what the programs below read
of these two is read one access at a time, and so is `self._len`; the other reads between two writes are one look, for only the thread itself writes what they read.

Simplifications: a store `_index[child] = x` into an index that has become too short since it was read does nothing (Python raises IndexError); a number that would
become negative stays 0.

`Prog.replay` takes a program of `Model/Interrupt.lean` as a whole: it is for threads that are the only ones to write.

All line numbers refer to /repo/src/sortedcontainers/sortedlist.py.
-/

namespace Verif
variable {σ α κ β : Type}

/-- The writes `log`, one after the other, then the result.  (Scaffolding of the model: no code of /repo.) -/
def Prog.writes (x : Except PyErr β) : List σ → Prog σ β
  | [] => .ret x
  | s :: log => .write (fun _ => s) (Prog.writes x log)

/-- A program of `Model/Interrupt.lean`, in a thread that is the only one to write to the object: what it reads is then what it wrote last, so that its writes are
known from the start.  (The last write is there twice.) (Scaffolding of the model: no code of /repo.) -/
def Prog.replay (m : IPy σ β) : Prog σ β := .read fun s => Prog.writes (m (s, [])).1 ((m (s, [])).2.2 ++ [(m (s, [])).2.1])

namespace Threads

/-- `_index[child] += 1`, `child = (child - 1) >> 1` (sortedlist.py:255-259, 429-433, 1753-1757, 1980-1984); `f` is the change of one entry. -/
def bumpPath (f : Nat → Nat) (child : Nat) : Prog (St α κ) Unit := do
  let s ← Prog.get
  let x ← Prog.lift (getItem s.index child)
  Prog.modify fun s => { s with index := s.index.set child (f x) }
  if h : child = 0 then pure () else bumpPath f ((child - 1) / 2)
termination_by child
decreasing_by omega

/-- `if _index: child = self._offset + pos; ...` (sortedlist.py:254-259, 428-433, 1752-1757, 1979-1984) -/
def touchIndex (f : Nat → Nat) (pos : Nat) : Prog (St α κ) Unit := do
  let s ← Prog.get
  if s.index = [] then pure ()
  else
    let s ← Prog.get
    bumpPath f (s.offset + pos)

/-- `self._len += 1`, `self._len -= 1` (sortedlist.py:226, 421, 1719, 1972.) -/
def changeLen (f : Nat → Nat) : Prog (St α κ) Unit := do
  let s ← Prog.get
  Prog.modify fun s' => { s' with len := f s.len }

namespace SL

/-- `clear` (sortedlist.py:179-189) -/
def clear : Prog (St α α) Unit := do
  Prog.modify fun s => { s with len := 0 }
  Prog.modify fun s => { s with lists := [] }
  Prog.modify fun s => { s with maxes := [] }
  Prog.modify fun s => { s with index := [] }
  Prog.modify fun s => { s with offset := 0 }

/-- `_expand` (sortedlist.py:228-259) -/
def expand (pos : Nat) : Prog (St α α) Unit := do
  let s ← Prog.get
  let listsPos ← Prog.lift (getItem s.lists pos)
  if listsPos.length > s.load * 2 then
    let half := listsPos.drop s.load
    let listsPos := listsPos.take s.load
    Prog.modify fun s => { s with lists := s.lists.set pos listsPos }
    let m ← Prog.lift (lastItem listsPos)
    let maxes ← Prog.lift (setItem s.maxes pos m)
    Prog.modify fun s => { s with maxes := maxes }
    Prog.modify fun s => { s with lists := insertAt s.lists (pos + 1) half }
    let m ← Prog.lift (lastItem half)
    Prog.modify fun s => { s with maxes := insertAt s.maxes (pos + 1) m }
    Prog.modify fun s => { s with index := [] }
  else
    touchIndex (· + 1) pos

/-- `add` (sortedlist.py:193-226) -/
def add (E : Env α) (value : α) : Prog (St α α) Unit := do
  let s ← Prog.get
  if s.maxes ≠ [] then
    let pos ← Prog.lift (bisectRight E.lt s.maxes value)
    if pos = s.maxes.length then
      let pos := pos - 1
      let s ← Prog.get
      let l ← Prog.lift (getItem s.lists pos)
      Prog.modify fun s => { s with lists := s.lists.set pos (l ++ [value]) }
      Prog.modify fun s => { s with maxes := s.maxes.set pos value }
      expand pos
    else
      let s ← Prog.get
      let l ← Prog.lift (getItem s.lists pos)
      let l ← Prog.lift (insort E.lt l value)
      Prog.modify fun s => { s with lists := s.lists.set pos l }
      expand pos
  else
    Prog.modify fun s => { s with lists := s.lists ++ [[value]] }
    Prog.modify fun s => { s with maxes := s.maxes ++ [value] }
  changeLen (· + 1)

/-- `_delete` (sortedlist.py:400-452) -/
def delete (pos idx : Nat) : Prog (St α α) Unit := do
  let s ← Prog.get
  let l ← Prog.lift (getItem s.lists pos)
  let l ← Prog.lift (delItem l idx)
  Prog.modify fun s => { s with lists := s.lists.set pos l }
  changeLen (· - 1)
  if l.length > s.load / 2 then
    let m ← Prog.lift (lastItem l)
    let maxes ← Prog.lift (setItem s.maxes pos m)
    Prog.modify fun s => { s with maxes := maxes }
    touchIndex (· - 1) pos
  else if s.lists.length > 1 then
    let pos := if pos = 0 then pos + 1 else pos
    let prev := pos - 1
    let s ← Prog.get
    let a ← Prog.lift (getItem s.lists prev)
    let b ← Prog.lift (getItem s.lists pos)
    Prog.modify fun s => { s with lists := s.lists.set prev (a ++ b) }
    let m ← Prog.lift (lastItem (a ++ b))
    let maxes ← Prog.lift (setItem s.maxes prev m)
    Prog.modify fun s => { s with maxes := maxes }
    let s ← Prog.get
    let lists ← Prog.lift (delItem s.lists pos)
    Prog.modify fun s => { s with lists := lists }
    let maxes ← Prog.lift (delItem s.maxes pos)
    Prog.modify fun s => { s with maxes := maxes }
    Prog.modify fun s => { s with index := [] }
    expand prev
  else if l.length ≠ 0 then
    let m ← Prog.lift (lastItem l)
    let maxes ← Prog.lift (setItem s.maxes pos m)
    Prog.modify fun s => { s with maxes := maxes }
  else
    let s ← Prog.get
    let lists ← Prog.lift (delItem s.lists pos)
    Prog.modify fun s => { s with lists := lists }
    let maxes ← Prog.lift (delItem s.maxes pos)
    Prog.modify fun s => { s with maxes := maxes }
    Prog.modify fun s => { s with index := [] }

/-- `discard` (sortedlist.py:330-360) -/
def discard (E : Env α) (value : α) : Prog (St α α) Unit := do
  let s ← Prog.get
  if s.maxes = [] then pure ()
  else
    let pos ← Prog.lift (bisectLeft E.lt s.maxes value)
    if pos = s.maxes.length then pure ()
    else
      let l ← Prog.lift (getItem s.lists pos)
      let idx ← Prog.lift (bisectLeft E.lt l value)
      let x ← Prog.lift (getItem l idx)
      if ← Prog.lift (E.cmp .eq x value) then delete pos idx
      else pure ()

/-- `remove` (sortedlist.py:362-398) -/
def remove (E : Env α) (value : α) : Prog (St α α) Unit := do
  let s ← Prog.get
  if s.maxes = [] then Prog.raise .valueError
  else
    let pos ← Prog.lift (bisectLeft E.lt s.maxes value)
    if pos = s.maxes.length then Prog.raise .valueError
    else
      let l ← Prog.lift (getItem s.lists pos)
      let idx ← Prog.lift (bisectLeft E.lt l value)
      let x ← Prog.lift (getItem l idx)
      if ← Prog.lift (E.cmp .eq x value) then delete pos idx
      else Prog.raise .valueError

/-- The calls of the thread that changes the list: `add`, `discard`, `remove`, `clear`; and queries, as in the other threads.
(Dispatch of the model: each call goes to the definition of its method, which cites its lines.) -/
def change (E : Env α) : Op α → Prog (St α α) (Out α)
  | .add v => (fun _ => .none) <$> add E v
  | .discard v => (fun _ => .none) <$> discard E v
  | .remove v => (fun _ => .none) <$> remove E v
  | .clear => (fun _ => .none) <$> clear
  | op => query E op

/-- `__contains__` (sortedlist.py:300-328), one access at a time -/
def containsSlowly (E : Env α) (value : α) : Prog (St α α) Bool := do
  let s ← Prog.get
  if s.maxes = [] then pure false
  else
    let s ← Prog.get
    let pos ← Prog.lift (bisectLeft E.lt s.maxes value)
    let s ← Prog.get
    if pos = s.maxes.length then pure false
    else
      let s ← Prog.get
      let l ← Prog.lift (getItem s.lists pos)
      let idx ← Prog.lift (bisectLeft E.lt l value)
      let s ← Prog.get
      let l ← Prog.lift (getItem s.lists pos)
      let x ← Prog.lift (getItem l idx)
      Prog.lift (E.cmp .eq x value)

/-- Queries of the other threads while one thread changes the list: `v in sl`, access by access; the others at one look, which is right for `list(sl)`, one call of
built-in functions written in C.
(Dispatch of the model: each call goes to the definition of its method, which cites its lines.) -/
def glance (E : Env α) : Op α → Prog (St α α) (Out α)
  | .contains v => .bool <$> containsSlowly E v
  | op => query E op

end SL

namespace SKL

/-- `clear` (sortedlist.py:1664-1676) -/
def clear : Prog (St α κ) Unit := do
  Prog.modify fun s => { s with len := 0 }
  Prog.modify fun s => { s with lists := [] }
  Prog.modify fun s => { s with keys := [] }
  Prog.modify fun s => { s with maxes := [] }
  Prog.modify fun s => { s with index := [] }

/-- `_expand` (sortedlist.py:1721-1757) -/
def expand (pos : Nat) : Prog (St α κ) Unit := do
  let s ← Prog.get
  let keysPos ← Prog.lift (getItem s.keys pos)
  if keysPos.length > s.load * 2 then
    let listsPos ← Prog.lift (getItem s.lists pos)
    let half := listsPos.drop s.load
    let halfKeys := keysPos.drop s.load
    let listsPos := listsPos.take s.load
    let keysPos := keysPos.take s.load
    Prog.modify fun s => { s with lists := s.lists.set pos listsPos }
    Prog.modify fun s => { s with keys := s.keys.set pos keysPos }
    let m ← Prog.lift (lastItem keysPos)
    let maxes ← Prog.lift (setItem s.maxes pos m)
    Prog.modify fun s => { s with maxes := maxes }
    Prog.modify fun s => { s with lists := insertAt s.lists (pos + 1) half }
    Prog.modify fun s => { s with keys := insertAt s.keys (pos + 1) halfKeys }
    let m ← Prog.lift (lastItem halfKeys)
    Prog.modify fun s => { s with maxes := insertAt s.maxes (pos + 1) m }
    Prog.modify fun s => { s with index := [] }
  else
    touchIndex (· + 1) pos

/-- `add` (sortedlist.py:1678-1719) -/
def add (K : KEnv α κ) (value : α) : Prog (St α κ) Unit := do
  let s ← Prog.get
  let key ← Prog.lift (K.key value)
  if s.maxes ≠ [] then
    let pos ← Prog.lift (bisectRight K.lt s.maxes key)
    if pos = s.maxes.length then
      let pos := pos - 1
      let l ← Prog.lift (getItem s.lists pos)
      Prog.modify fun s => { s with lists := s.lists.set pos (l ++ [value]) }
      let ks ← Prog.lift (getItem s.keys pos)
      Prog.modify fun s => { s with keys := s.keys.set pos (ks ++ [key]) }
      Prog.modify fun s => { s with maxes := s.maxes.set pos key }
      expand pos
    else
      let ks ← Prog.lift (getItem s.keys pos)
      let idx ← Prog.lift (bisectRight K.lt ks key)
      let l ← Prog.lift (getItem s.lists pos)
      Prog.modify fun s => { s with lists := s.lists.set pos (insertAt l idx value) }
      Prog.modify fun s => { s with keys := s.keys.set pos (insertAt ks idx key) }
      expand pos
  else
    Prog.modify fun s => { s with lists := s.lists ++ [[value]] }
    Prog.modify fun s => { s with keys := s.keys ++ [[key]] }
    Prog.modify fun s => { s with maxes := s.maxes ++ [key] }
  changeLen (· + 1)

/-- `_delete` (sortedlist.py:1949-2006) -/
def delete (pos idx : Nat) : Prog (St α κ) Unit := do
  let s ← Prog.get
  let keysPos ← Prog.lift (getItem s.keys pos)
  let listsPos ← Prog.lift (getItem s.lists pos)
  let keysPos ← Prog.lift (delItem keysPos idx)
  Prog.modify fun s => { s with keys := s.keys.set pos keysPos }
  let listsPos ← Prog.lift (delItem listsPos idx)
  Prog.modify fun s => { s with lists := s.lists.set pos listsPos }
  changeLen (· - 1)
  if keysPos.length > s.load / 2 then
    let m ← Prog.lift (lastItem keysPos)
    let maxes ← Prog.lift (setItem s.maxes pos m)
    Prog.modify fun s => { s with maxes := maxes }
    touchIndex (· - 1) pos
  else if s.keys.length > 1 then
    let pos := if pos = 0 then pos + 1 else pos
    let prev := pos - 1
    let s ← Prog.get
    let ka ← Prog.lift (getItem s.keys prev)
    let kb ← Prog.lift (getItem s.keys pos)
    Prog.modify fun s => { s with keys := s.keys.set prev (ka ++ kb) }
    let a ← Prog.lift (getItem s.lists prev)
    let b ← Prog.lift (getItem s.lists pos)
    Prog.modify fun s => { s with lists := s.lists.set prev (a ++ b) }
    let m ← Prog.lift (lastItem (ka ++ kb))
    let maxes ← Prog.lift (setItem s.maxes prev m)
    Prog.modify fun s => { s with maxes := maxes }
    let s ← Prog.get
    let lists ← Prog.lift (delItem s.lists pos)
    Prog.modify fun s => { s with lists := lists }
    let keys ← Prog.lift (delItem s.keys pos)
    Prog.modify fun s => { s with keys := keys }
    let maxes ← Prog.lift (delItem s.maxes pos)
    Prog.modify fun s => { s with maxes := maxes }
    Prog.modify fun s => { s with index := [] }
    expand prev
  else if keysPos.length ≠ 0 then
    let m ← Prog.lift (lastItem keysPos)
    let maxes ← Prog.lift (setItem s.maxes pos m)
    Prog.modify fun s => { s with maxes := maxes }
  else
    let s ← Prog.get
    let lists ← Prog.lift (delItem s.lists pos)
    Prog.modify fun s => { s with lists := lists }
    let keys ← Prog.lift (delItem s.keys pos)
    Prog.modify fun s => { s with keys := keys }
    let maxes ← Prog.lift (delItem s.maxes pos)
    Prog.modify fun s => { s with maxes := maxes }
    Prog.modify fun s => { s with index := [] }

/-- `discard` (sortedlist.py:1849-1895) -/
def discard (K : KEnv α κ) (value : α) : Prog (St α κ) Unit := do
  match ← Prog.look (Verif.SKL.find K value) with
  | none => pure ()
  | some (pos, idx) => delete pos idx

/-- `remove` (sortedlist.py:1897-1947) -/
def remove (K : KEnv α κ) (value : α) : Prog (St α κ) Unit := do
  match ← Prog.look (Verif.SKL.find K value) with
  | none => Prog.raise .valueError
  | some (pos, idx) => delete pos idx

/-- The calls of the thread that changes the list: `add`, `discard`, `remove`, `clear`; and queries, as in the other threads.
(Dispatch of the model: each call goes to the definition of its method, which cites its lines.) -/
def change (K : KEnv α κ) : KOp α κ → Prog (St α κ) (Out α)
  | .op (.add v) => (fun _ => .none) <$> add K v
  | .op (.discard v) => (fun _ => .none) <$> discard K v
  | .op (.remove v) => (fun _ => .none) <$> remove K v
  | .op .clear => (fun _ => .none) <$> clear
  | op => query K op

end SKL
end Threads
end Verif
