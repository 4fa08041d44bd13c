import Verif.Model.API
/-!
# Threads that query one list

The queries of the two list classes as programs that can be suspended: between a look at the object and the next one, or
before a write, another thread may run.  Queries write only to the positional index, which is built when it is first needed.

The programs are those of `Model/Core.lean`, `Model/SortedList.lean` and `Model/SortedKeyList.lean`, line for line.  One `Prog.get` stands for all
reads up to the next `Prog.get`; `self._index` and `self._offset` are written one after the other; what one call of a built-in function written in C does
(`reduce(iadd, ...)`) is one write.  A query that never writes is one look at the object.

All line numbers refer to /repo/src/sortedcontainers/sortedlist.py.
`Proofs/Threads.lean` shows that a program that runs alone does what the other models do.
-/

namespace Verif

/-- A program: it returns or raises, looks at the object and goes on, or writes to the object and goes on.
(Scaffolding of the model: no code of /repo.) -/
inductive Prog (σ β : Type) where
  | ret (x : Except PyErr β)
  | read (k : σ → Prog σ β)
  | write (f : σ → σ) (k : Prog σ β)

namespace Prog
variable {σ β γ : Type}

/-- `m`, then `f` with its result (Scaffolding of the model: no code of /repo.) -/
def bind : Prog σ β → (β → Prog σ γ) → Prog σ γ
  | ret (.ok b), f => f b
  | ret (.error e), _ => ret (.error e)
  | read k, f => read fun s => bind (k s) f
  | write g k, f => write g (bind k f)

/-- As a monad.  (Scaffolding of the model: no code of /repo.) -/
instance : Monad (Prog σ) where
  pure b := ret (.ok b)
  bind := bind

/-- Read the object.  (Scaffolding of the model: no code of /repo.) -/
def get : Prog σ σ := read fun s => ret (.ok s)
/-- A computation that does not touch the object.  (Scaffolding of the model: no code of /repo.) -/
def lift (x : Except PyErr β) : Prog σ β := ret x
/-- An exception.  (Scaffolding of the model: no code of /repo.) -/
def raise (e : PyErr) : Prog σ β := ret (.error e)
/-- Write to the object.  (Scaffolding of the model: no code of /repo.) -/
def modify (f : σ → σ) : Prog σ Unit := write f (ret (.ok ()))

/-- A computation that writes nothing, as one look at the object.  (Scaffolding of the model: no code of /repo.) -/
def look (m : Py σ β) : Prog σ β := read fun s => ret (m s).1

/-- `[f(x) for x in xs]` (Python's own, called by the code of /repo.) -/
def mapEach (f : β → Prog σ γ) : List β → Prog σ (List γ)
  | [] => pure []
  | x :: xs => do
    let y ← f x
    let ys ← mapEach f xs
    pure (y :: ys)

/-- `m`, whose exception is caught and becomes the result (Python's own, called by the code of /repo.) -/
def attempt : Prog σ β → Prog σ (Except PyErr β)
  | ret x => ret (.ok x)
  | read k => read fun s => attempt (k s)
  | write g k => write g (attempt k)

/-- The calls `step c` for all `c` in `cs`, one after the other, whether they raise or not; the result is what they returned or raised.
(Scaffolding of the model: no code of /repo.) -/
def calls (step : γ → Prog σ β) : List γ → Prog σ (List (Except PyErr β))
  | [] => pure []
  | c :: cs => do
    let x ← attempt (step c)
    let xs ← calls step cs
    pure (x :: xs)

/-- The program, if it runs alone.  (Scaffolding of the model: no code of /repo.) -/
def alone : Prog σ β → Py σ β
  | ret x => fun s => (x, s)
  | read k => fun s => alone (k s) s
  | write g k => fun s => alone k (g s)

end Prog

/-- An object that several threads use.  (Scaffolding of the model: no code of /repo.) -/
structure Pool (σ β : Type) where
  shared : σ
  threads : List (Prog σ β)

namespace Pool
variable {σ β : Type}

/-- Thread `i` has a turn: it looks at the object, or writes to it.  (Scaffolding of the model: no code of /repo.) -/
def turn (p : Pool σ β) (i : Nat) : Pool σ β :=
  match p.threads[i]? with
  | some (.read k) => { p with threads := p.threads.set i (k p.shared) }
  | some (.write f k) => { shared := f p.shared, threads := p.threads.set i k }
  | _ => p

/-- The threads have turns in the order of the schedule.  (Scaffolding of the model: no code of /repo.) -/
def run (p : Pool σ β) (schedule : List Nat) : Pool σ β := schedule.foldl turn p

end Pool

namespace Threads
open Core (pairSums growTree locLoop posLoop iter islicePos)
variable {α κ : Type}

/-- `_build_index` (sortedlist.py:626-692); see `Core.buildIndex`. -/
def buildIndex (ilog2 : Nat → Nat) : Prog (St α κ) Unit := do
  let s ← Prog.get
  let row0 := s.lists.map List.length
  if row0.length = 1 then
    Prog.modify fun s => { s with index := row0 }
    Prog.modify fun s => { s with offset := 0 }
  else
    let row1 := pairSums row0
    let row1 := if row0.length % 2 = 1 then row1 ++ row0.getLast?.toList else row1
    if row1.length = 1 then
      Prog.modify fun s => { s with index := row1 ++ row0 }
      Prog.modify fun s => { s with offset := 1 }
    else
      let size := 2 ^ (ilog2 (row1.length - 1) + 1)
      let row1 := row1 ++ List.replicate (size - row1.length) 0
      let tree := growTree [row0, row1] row1
      Prog.modify fun s => { s with index := s.index ++ tree.reverse.flatten }
      Prog.modify fun s => { s with offset := size * 2 - 1 }

/-- `if not _index: self._build_index()` (sortedlist.py:509-510, 606-607) -/
def ensureIndex (ilog2 : Nat → Nat) : Prog (St α κ) Unit := do
  let s ← Prog.get
  if s.index = [] then buildIndex ilog2 else pure ()

/-- `_loc` (sortedlist.py:454-531) -/
def loc (ilog2 : Nat → Nat) (pos idx : Nat) : Prog (St α κ) Nat := do
  if pos = 0 then pure idx
  else
    ensureIndex ilog2
    let s ← Prog.get
    let total ← Prog.lift (locLoop s.index (pos + s.offset) 0)
    pure (total + idx)

/-- `_pos` (sortedlist.py:601-624) -/
def posNonneg (ilog2 : Nat → Nat) (idx : Nat) : Prog (St α κ) (Nat × Nat) := do
  let s ← Prog.get
  let first ← Prog.lift (getItem s.lists 0)
  if idx < first.length then pure (0, idx)
  else
    ensureIndex ilog2
    let s ← Prog.get
    let (pos, idx) := posLoop s.index 0 1 idx
    if pos < s.offset then Prog.raise .modelGap
    else pure (pos - s.offset, idx)

/-- `_pos` (sortedlist.py:533-624) -/
def pos (ilog2 : Nat → Nat) (idx : Int) : Prog (St α κ) (Nat × Nat) := do
  let s ← Prog.get
  if idx < 0 then
    let last ← Prog.lift (lastItem s.lists)
    if -idx ≤ last.length then pure (s.lists.length - 1, ((last.length : Int) + idx).toNat)
    else
      let idx := idx + s.len
      if idx < 0 then Prog.raise .indexError
      else posNonneg ilog2 idx.toNat
  else if idx ≥ s.len then Prog.raise .indexError
  else posNonneg ilog2 idx.toNat

/-- `__getitem__` (sortedlist.py:813-831) -/
def getInt (ilog2 : Nat → Nat) (index : Int) : Prog (St α κ) α := do
  let s ← Prog.get
  if s.len ≠ 0 then
    if index = 0 then
      let l ← Prog.lift (getItem s.lists 0)
      Prog.lift (getItem l 0)
    else if index = -1 then
      let l ← Prog.lift (lastItem s.lists)
      Prog.lift (lastItem l)
    else
      let first ← Prog.lift (getItem s.lists 0)
      if 0 ≤ index ∧ index < first.length then Prog.lift (getItem first index.toNat)
      else
        let last ← Prog.lift (lastItem s.lists)
        if -(last.length : Int) < index ∧ index < 0 then
          Prog.lift (getItem last ((last.length : Int) + index).toNat)
        else
          let (pos, idx) ← pos ilog2 index
          let l ← Prog.lift (getItem s.lists pos)
          Prog.lift (getItem l idx)
  else Prog.raise .indexError

/-- `__getitem__` (sortedlist.py:776-800) -/
def getSliceFwd (ilog2 : Nat → Nat) (start stop : Int) : Prog (St α κ) (List α) := do
  let s ← Prog.get
  if start = 0 ∧ stop = s.len then pure (iter s)
  else
    let (startPos, startIdx) ← pos ilog2 start
    let startList ← Prog.lift (getItem s.lists startPos)
    let stopIdx := startIdx + (stop - start).toNat
    if stopIdx ≤ startList.length then pure (subList startList startIdx stopIdx)
    else
      let (stopPos, stopIdx) ←
        if stop = s.len then do
          let l ← Prog.lift (getItem s.lists (s.lists.length - 1))
          pure (s.lists.length - 1, l.length)
        else pos ilog2 stop
      let pre := startList.drop startIdx
      let middle := subList s.lists (startPos + 1) stopPos
      let lastList ← Prog.lift (getItem s.lists stopPos)
      pure (pre ++ middle.flatten ++ lastList.take stopIdx)

/-- `self._getitem(slice(start, stop))` (sortedlist.py:769-800, 811-812) -/
def getSliceStep1 (ilog2 : Nat → Nat) (start stop : Option Int) : Prog (St α κ) (List α) := do
  let s ← Prog.get
  let (start, stop, step) ← Prog.lift (PySlice.indices { start := start, stop := stop } s.len)
  if step = 1 ∧ start < stop then getSliceFwd ilog2 start stop
  else Prog.mapEach (getInt ilog2) (pyRange start stop step)

/-- `__getitem__` (sortedlist.py:769-812) -/
def getSlice (ilog2 : Nat → Nat) (sl : PySlice) : Prog (St α κ) (List α) := do
  let s ← Prog.get
  let (start, stop, step) ← Prog.lift (sl.indices s.len)
  if step = 1 ∧ start < stop then getSliceFwd ilog2 start stop
  else if step = -1 ∧ start > stop then
    let result ← getSliceStep1 ilog2 (some (stop + 1)) (some (start + 1))
    pure result.reverse
  else Prog.mapEach (getInt ilog2) (pyRange start stop step)

/-- `islice` (sortedlist.py:886-929) -/
def isliceWith {β : Type} (ret : St α κ → Nat → Nat → Nat → Nat → Bool → Except PyErr β) (empty : β) (ilog2 : Nat → Nat)
    (start stop : Option Int) (reverse : Bool) : Prog (St α κ) β := do
  let s ← Prog.get
  if s.len = 0 then pure empty
  else
    let (start, stop, _) ← Prog.lift (PySlice.indices { start := start, stop := stop } s.len)
    if start ≥ stop then pure empty
    else
      let (minPos, minIdx) ← pos ilog2 start
      let (maxPos, maxIdx) ←
        if stop = s.len then do
          let l ← Prog.lift (lastItem s.lists)
          pure (s.lists.length - 1, l.length)
        else pos ilog2 stop
      Prog.lift (ret s minPos minIdx maxPos maxIdx reverse)

/-- `islice` (sortedlist.py:886-929) -/
def islice (ilog2 : Nat → Nat) (start stop : Option Int) (reverse : Bool) : Prog (St α κ) (List α) :=
  isliceWith islicePos [] ilog2 start stop reverse

namespace SL

/-- `bisect_left` (sortedlist.py:1085-1114) -/
def bisect_left (E : Env α) (value : α) : Prog (St α α) Nat := do
  let s ← Prog.get
  if s.maxes = [] then pure 0
  else
    let pos ← Prog.lift (bisectLeft E.lt s.maxes value)
    if pos = s.maxes.length then pure s.len
    else
      let l ← Prog.lift (getItem s.lists pos)
      let idx ← Prog.lift (bisectLeft E.lt l value)
      loc E.ilog2 pos idx

/-- `bisect_right` (sortedlist.py:1116-1148) -/
def bisect_right (E : Env α) (value : α) : Prog (St α α) Nat := do
  let s ← Prog.get
  if s.maxes = [] then pure 0
  else
    let pos ← Prog.lift (bisectRight E.lt s.maxes value)
    if pos = s.maxes.length then pure s.len
    else
      let l ← Prog.lift (getItem s.lists pos)
      let idx ← Prog.lift (bisectRight E.lt l value)
      loc E.ilog2 pos idx

/-- `count` (sortedlist.py:1150-1187) -/
def count (E : Env α) (value : α) : Prog (St α α) Int := do
  let s ← Prog.get
  if s.maxes = [] then pure 0
  else
    let posLeft ← Prog.lift (bisectLeft E.lt s.maxes value)
    if posLeft = s.maxes.length then pure 0
    else
      let l ← Prog.lift (getItem s.lists posLeft)
      let idxLeft ← Prog.lift (bisectLeft E.lt l value)
      let posRight ← Prog.lift (bisectRight E.lt s.maxes value)
      if posRight = s.maxes.length then
        let left ← loc E.ilog2 posLeft idxLeft
        pure ((s.len : Int) - left)
      else
        let l ← Prog.lift (getItem s.lists posRight)
        let idxRight ← Prog.lift (bisectRight E.lt l value)
        if posLeft = posRight then pure ((idxRight : Int) - idxLeft)
        else
          let right ← loc E.ilog2 posRight idxRight
          let left ← loc E.ilog2 posLeft idxLeft
          pure ((right : Int) - left)

/-- `index` (sortedlist.py:1290-1364) -/
def index (E : Env α) (value : α) (start stop : Option Int) : Prog (St α α) Int := do
  let s ← Prog.get
  if s.len = 0 then Prog.raise .valueError
  else
    let (start, stop) := Verif.SL.indexBounds s.len start stop
    if stop ≤ start then Prog.raise .valueError
    else
      let posLeft ← Prog.lift (bisectLeft E.lt s.maxes value)
      if posLeft = s.maxes.length then Prog.raise .valueError
      else
        let l ← Prog.lift (getItem s.lists posLeft)
        let idxLeft ← Prog.lift (bisectLeft E.lt l value)
        let x ← Prog.lift (getItem l idxLeft)
        if ← Prog.lift (E.cmp .ne x value) then Prog.raise .valueError
        else
          let stop := stop - 1
          let left ← loc E.ilog2 posLeft idxLeft
          if start ≤ left then
            if (left : Int) ≤ stop then pure (left : Int)
            else Prog.raise .valueError
          else
            let right ← bisect_right E value
            if start ≤ (right : Int) - 1 then pure start
            else Prog.raise .valueError

/-- A query on a SortedList, as a program that can be suspended.  Other calls are not programs of readers; they are given as one look.
(Dispatch of the model: each call goes to the definition of its method, which cites its lines.) -/
def query (E : Env α) : Op α → Prog (St α α) (Out α)
  | .getInt i => .val <$> getInt E.ilog2 i
  | .getSlice sl => .vals <$> getSlice E.ilog2 sl
  | .bisectLeft v => (fun (n : Nat) => .int n) <$> bisect_left E v
  | .bisectRight v => (fun (n : Nat) => .int n) <$> bisect_right E v
  | .count v => .int <$> count E v
  | .index v start stop => .int <$> index E v start stop
  | .islice start stop reverse => .vals <$> islice E.ilog2 start stop reverse
  | op => Prog.look ((Verif.SL.api E).step op)

end SL

namespace SKL

/-- `bisect_key_left` (sortedlist.py:2174-2207) -/
def bisect_key_left (K : KEnv α κ) (key : κ) : Prog (St α κ) Nat := do
  let s ← Prog.get
  if s.maxes = [] then pure 0
  else
    let pos ← Prog.lift (bisectLeft K.lt s.maxes key)
    if pos = s.maxes.length then pure s.len
    else
      let ks ← Prog.lift (getItem s.keys pos)
      let idx ← Prog.lift (bisectLeft K.lt ks key)
      loc K.ilog2 pos idx

/-- `bisect_key_right` (sortedlist.py:2209-2243) -/
def bisect_key_right (K : KEnv α κ) (key : κ) : Prog (St α κ) Nat := do
  let s ← Prog.get
  if s.maxes = [] then pure 0
  else
    let pos ← Prog.lift (bisectRight K.lt s.maxes key)
    if pos = s.maxes.length then pure s.len
    else
      let ks ← Prog.lift (getItem s.keys pos)
      let idx ← Prog.lift (bisectRight K.lt ks key)
      loc K.ilog2 pos idx

/-- `bisect_left` (sortedlist.py:2130-2149) -/
def bisect_left (K : KEnv α κ) (value : α) : Prog (St α κ) Nat := do
  let key ← Prog.lift (K.key value)
  bisect_key_left K key

/-- `bisect_right` (sortedlist.py:2151-2172) -/
def bisect_right (K : KEnv α κ) (value : α) : Prog (St α κ) Nat := do
  let key ← Prog.lift (K.key value)
  bisect_key_right K key

/-- `index` (sortedlist.py:2367-2384) -/
def indexLoop (K : KEnv α κ) (lists : List (List α)) (keys : List (List κ)) (value : α) (key : κ)
    (start stop : Int) (pos idx lenSublist : Nat) : Prog (St α κ) Int :=
  match _h : getItem keys pos with
  | .error e => Prog.raise e
  | .ok ks =>
    match _h' : getItem ks idx with
    | .error e => Prog.raise e
    | .ok k =>
      match K.kcmp .ne k key with
      | .error e => Prog.raise e
      | .ok true => Prog.raise .valueError
      | .ok false =>
        match getItem lists pos with
        | .error e => Prog.raise e
        | .ok l =>
          match getItem l idx with
          | .error e => Prog.raise e
          | .ok x =>
            match K.vcmp .eq x value with
            | .error e => Prog.raise e
            | .ok b => do
              -- lines 2370-2375: `some r` stands for `return r`, `none` for falling through
              let r : Option Int ←
                if b then do
                  let loc ← loc K.ilog2 pos idx
                  if start ≤ (loc : Int) ∧ (loc : Int) ≤ stop then pure (some (loc : Int))
                  else if (loc : Int) > stop then Prog.raise .valueError
                  else pure none
                else pure none
              match r with
              | some r => pure r
              | none =>
                if idx + 1 = lenSublist then
                  if pos + 1 = keys.length then Prog.raise .valueError
                  else
                    match getItem keys (pos + 1) with
                    | .error e => Prog.raise e
                    | .ok ks' => indexLoop K lists keys value key start stop (pos + 1) 0 ks'.length
                else indexLoop K lists keys value key start stop pos (idx + 1) lenSublist
termination_by (keys.length - pos, (keys[pos]?.getD []).length - idx)
decreasing_by
  all_goals
    rw [getItem_ok_iff] at _h _h'
    have h1 := (List.getElem?_eq_some_iff.1 _h).1
    have h2 := (List.getElem?_eq_some_iff.1 _h').1
    first
    | (apply Prod.Lex.left; omega)
    | (apply Prod.Lex.right; simp only [_h, Option.getD_some]; omega)

/-- `index` (sortedlist.py:2302-2384) -/
def index (K : KEnv α κ) (value : α) (start stop : Option Int) : Prog (St α κ) Int := do
  let s ← Prog.get
  if s.len = 0 then Prog.raise .valueError
  else
    let (start, stop) := Verif.SL.indexBounds s.len start stop
    if stop ≤ start then Prog.raise .valueError
    else
      let key ← Prog.lift (K.key value)
      let pos ← Prog.lift (bisectLeft K.lt s.maxes key)
      if pos = s.maxes.length then Prog.raise .valueError
      else
        let ks ← Prog.lift (getItem s.keys pos)
        let idx ← Prog.lift (bisectLeft K.lt ks key)
        indexLoop K s.lists s.keys value key start (stop - 1) pos idx ks.length

/-- A query on a SortedKeyList, see `SL.query`.
(Dispatch of the model: each call goes to the definition of its method, which cites its lines.) -/
def query (K : KEnv α κ) : KOp α κ → Prog (St α κ) (Out α)
  | .op (.getInt i) => .val <$> getInt K.ilog2 i
  | .op (.getSlice sl) => .vals <$> getSlice K.ilog2 sl
  | .op (.bisectLeft v) => (fun (n : Nat) => .int n) <$> bisect_left K v
  | .op (.bisectRight v) => (fun (n : Nat) => .int n) <$> bisect_right K v
  | .op (.index v start stop) => .int <$> index K v start stop
  | .op (.islice start stop reverse) => .vals <$> islice K.ilog2 start stop reverse
  | .bisectKeyLeft k => (fun (n : Nat) => .int n) <$> bisect_key_left K k
  | .bisectKeyRight k => (fun (n : Nat) => .int n) <$> bisect_key_right K k
  | op => Prog.look (Verif.SKL.kstep K op)

end SKL
end Threads
end Verif
