import Verif.Model.SortedList
/-!
# SortedKeyList

All line numbers refer to /repo/src/sortedcontainers/sortedlist.py.
-/

namespace Verif

/-- What a SortedKeyList takes from outside: the key function, the comparison operators of keys
and of values, `sorted(·, key=key)`, and `int(math.log(·, 2))`.  All but the last may raise.
(Scaffolding of the model: no code of /repo.) -/
structure KEnv (α κ : Type) where
  key : α → Except PyErr κ
  kcmp : CmpOp → κ → κ → Except PyErr Bool
  vcmp : CmpOp → α → α → Except PyErr Bool
  sortedByKey : List α → Except PyErr (List α)
  ilog2 : Nat → Nat

/-- `a < b` on keys (The operator `<`, which `bisect` and the methods call.) -/
abbrev KEnv.lt {α κ : Type} (K : KEnv α κ) : κ → κ → Except PyErr Bool := K.kcmp .lt

namespace SKL
variable {α κ : Type}

/-- `clear` (sortedlist.py:1664-1676); unlike `SortedList.clear` it does not reset `_offset`. -/
def clear : Py (St α κ) Unit :=
  Py.modify fun s => { s with len := 0, lists := [], keys := [], maxes := [], index := [] }

/-- `_expand` (sortedlist.py:1721-1757) -/
def expand (pos : Nat) : Py (St α κ) Unit := do
  let s ← Py.get
  let keysPos ← Py.lift (getItem s.keys pos)
  if keysPos.length > s.load * 2 then
    let listsPos ← Py.lift (getItem s.lists pos)
    let half := listsPos.drop s.load
    let halfKeys := keysPos.drop s.load
    let listsPos := listsPos.take s.load
    let keysPos := keysPos.take s.load
    Py.modify fun s => { s with lists := s.lists.set pos listsPos }
    Py.modify fun s => { s with keys := s.keys.set pos keysPos }
    let m ← Py.lift (lastItem keysPos)
    let maxes ← Py.lift (setItem s.maxes pos m)
    Py.modify fun s => { s with maxes := maxes }
    Py.modify fun s => { s with lists := insertAt s.lists (pos + 1) half }
    Py.modify fun s => { s with keys := insertAt s.keys (pos + 1) halfKeys }
    let m ← Py.lift (lastItem halfKeys)
    Py.modify fun s => { s with maxes := insertAt s.maxes (pos + 1) m }
    Py.modify fun s => { s with index := [] }
  else
    Core.touchIndex Core.incr pos

/-- `add` (sortedlist.py:1678-1719) -/
def add (K : KEnv α κ) (value : α) : Py (St α κ) Unit := do
  let s ← Py.get
  let key ← Py.lift (K.key value)
  if s.maxes ≠ [] then
    let pos ← Py.lift (bisectRight K.lt s.maxes key)
    if pos = s.maxes.length then
      let pos := pos - 1
      let l ← Py.lift (getItem s.lists pos)
      Py.modify fun s => { s with lists := s.lists.set pos (l ++ [value]) }
      let ks ← Py.lift (getItem s.keys pos)
      Py.modify fun s => { s with keys := s.keys.set pos (ks ++ [key]) }
      Py.modify fun s => { s with maxes := s.maxes.set pos key }
      expand pos
    else
      let ks ← Py.lift (getItem s.keys pos)
      let idx ← Py.lift (bisectRight K.lt ks key)
      let l ← Py.lift (getItem s.lists pos)
      Py.modify fun s => { s with lists := s.lists.set pos (insertAt l idx value) }
      Py.modify fun s => { s with keys := s.keys.set pos (insertAt ks idx key) }
      expand pos
  else
    Py.modify fun s => { s with lists := s.lists ++ [[value]] }
    Py.modify fun s => { s with keys := s.keys ++ [[key]] }
    Py.modify fun s => { s with maxes := s.maxes ++ [key] }
  Py.modify fun s => { s with len := s.len + 1 }

/-- The tail of `update` (sortedlist.py:1790-1797).  The generator of line 1794 appends the key lists one by one, so
that an exception of the key function leaves the earlier ones in place. -/
def fill (K : KEnv α κ) (values : List α) : Py (St α κ) Unit := do
  let s ← Py.get
  let subs ← Py.lift (Core.chunks s.load values)
  Py.modify fun s => { s with lists := s.lists ++ subs }
  let s ← Py.get
  Py.forEach (fun l => do
    let ks ← Py.lift (mapE K.key l)
    Py.modify fun s => { s with keys := s.keys ++ [ks] }) s.lists
  let s ← Py.get
  let ms ← Py.lift (mapE lastItem s.keys)
  Py.modify fun s => { s with maxes := s.maxes ++ ms }
  Py.modify fun s => { s with len := values.length }
  Py.modify fun s => { s with index := [] }

/-- `update` (sortedlist.py:1759-1799) -/
def update (K : KEnv α κ) (iterable : List α) : Py (St α κ) Unit := do
  let values ← Py.lift (K.sortedByKey iterable)
  let s ← Py.get
  if s.maxes ≠ [] then
    if values.length * 4 ≥ s.len then
      Py.modify fun s => { s with lists := s.lists ++ [values] }
      let s ← Py.get
      let values ← Py.lift (K.sortedByKey (Core.iter s))
      clear
      fill K values
    else
      Py.forEach (add K) values
  else
    fill K values

/-- The loop `while True:` that `__contains__`, `discard` and `remove` share
(sortedlist.py:1836-1847, 1883-1895, 1935-1947): the position of the first value, from `(pos, idx)` on,
that has the given key and equals `value`, or `none` where the loop gives up. -/
def findLoop (K : KEnv α κ) (lists : List (List α)) (keys : List (List κ)) (value : α) (key : κ)
    (pos idx lenSublist : Nat) : Except PyErr (Option (Nat × Nat)) :=
  match _h : getItem keys pos with
  | .error e => .error e
  | .ok ks =>
    match _h' : getItem ks idx with
    | .error e => .error e
    | .ok k =>
      match K.kcmp .ne k key with
      | .error e => .error e
      | .ok true => .ok none
      | .ok false =>
        match getItem lists pos with
        | .error e => .error e
        | .ok l =>
          match getItem l idx with
          | .error e => .error e
          | .ok x =>
            match K.vcmp .eq x value with
            | .error e => .error e
            | .ok true => .ok (some (pos, idx))
            | .ok false =>
              if idx + 1 = lenSublist then
                if pos + 1 = keys.length then .ok none
                else
                  match getItem keys (pos + 1) with
                  | .error e => .error e
                  | .ok ks' => findLoop K lists keys value key (pos + 1) 0 ks'.length
              else findLoop K lists keys value key pos (idx + 1) lenSublist
termination_by (keys.length - pos, (keys[pos]?.getD []).length - idx)
decreasing_by
  all_goals
    rw [getItem_ok_iff] at _h _h'
    have h1 := (List.getElem?_eq_some_iff.1 _h).1
    have h2 := (List.getElem?_eq_some_iff.1 _h').1
    first
    | (apply Prod.Lex.left; omega)
    | (apply Prod.Lex.right; simp only [_h, Option.getD_some]; omega)

/-- The common first part of `__contains__`, `discard`, `remove`: locate the run of equal keys and
search it (sortedlist.py:1817-1834, 1866-1881, 1918-1933 and the loop). -/
def find (K : KEnv α κ) (value : α) : Py (St α κ) (Option (Nat × Nat)) := do
  let s ← Py.get
  if s.maxes = [] then pure none
  else
    let key ← Py.lift (K.key value)
    let pos ← Py.lift (bisectLeft K.lt s.maxes key)
    if pos = s.maxes.length then pure none
    else
      let ks ← Py.lift (getItem s.keys pos)
      let idx ← Py.lift (bisectLeft K.lt ks key)
      Py.lift (findLoop K s.lists s.keys value key pos idx ks.length)

/-- `__contains__` (sortedlist.py:1801-1847) -/
def contains (K : KEnv α κ) (value : α) : Py (St α κ) Bool := do
  match ← find K value with
  | none => pure false
  | some _ => pure true

/-- `_delete` (sortedlist.py:1949-2006) -/
def delete (pos idx : Nat) : Py (St α κ) Unit := do
  let s ← Py.get
  let keysPos ← Py.lift (getItem s.keys pos)
  let listsPos ← Py.lift (getItem s.lists pos)
  let keysPos ← Py.lift (delItem keysPos idx)
  Py.modify fun s => { s with keys := s.keys.set pos keysPos }
  let listsPos ← Py.lift (delItem listsPos idx)
  Py.modify fun s => { s with lists := s.lists.set pos listsPos }
  let len ← Py.lift (Core.decr s.len)
  Py.modify fun s => { s with len := len }
  if keysPos.length > s.load / 2 then
    let m ← Py.lift (lastItem keysPos)
    let maxes ← Py.lift (setItem s.maxes pos m)
    Py.modify fun s => { s with maxes := maxes }
    Core.touchIndex Core.decr pos
  else if s.keys.length > 1 then
    let pos := if pos = 0 then pos + 1 else pos
    let prev := pos - 1
    let s ← Py.get
    let ka ← Py.lift (getItem s.keys prev)
    let kb ← Py.lift (getItem s.keys pos)
    Py.modify fun s => { s with keys := s.keys.set prev (ka ++ kb) }
    let a ← Py.lift (getItem s.lists prev)
    let b ← Py.lift (getItem s.lists pos)
    Py.modify fun s => { s with lists := s.lists.set prev (a ++ b) }
    let m ← Py.lift (lastItem (ka ++ kb))
    let maxes ← Py.lift (setItem s.maxes prev m)
    Py.modify fun s => { s with maxes := maxes }
    let s ← Py.get
    let lists ← Py.lift (delItem s.lists pos)
    Py.modify fun s => { s with lists := lists }
    let keys ← Py.lift (delItem s.keys pos)
    Py.modify fun s => { s with keys := keys }
    let maxes ← Py.lift (delItem s.maxes pos)
    Py.modify fun s => { s with maxes := maxes }
    Py.modify fun s => { s with index := [] }
    expand prev
  else if keysPos.length ≠ 0 then
    let m ← Py.lift (lastItem keysPos)
    let maxes ← Py.lift (setItem s.maxes pos m)
    Py.modify fun s => { s with maxes := maxes }
  else
    let s ← Py.get
    let lists ← Py.lift (delItem s.lists pos)
    Py.modify fun s => { s with lists := lists }
    let keys ← Py.lift (delItem s.keys pos)
    Py.modify fun s => { s with keys := keys }
    let maxes ← Py.lift (delItem s.maxes pos)
    Py.modify fun s => { s with maxes := maxes }
    Py.modify fun s => { s with index := [] }

/-- `discard` (sortedlist.py:1849-1895) -/
def discard (K : KEnv α κ) (value : α) : Py (St α κ) Unit := do
  match ← find K value with
  | none => pure ()
  | some (pos, idx) => delete pos idx

/-- `remove` (sortedlist.py:1897-1947) -/
def remove (K : KEnv α κ) (value : α) : Py (St α κ) Unit := do
  match ← find K value with
  | none => Py.raise .valueError
  | some (pos, idx) => delete pos idx

/-- The virtual methods of a SortedKeyList.  (sortedlist.py:1664-2007: what SortedKeyList overrides.) -/
def methods (K : KEnv α κ) : Methods α κ :=
  { clear := clear, update := update K, delete := delete, ilog2 := K.ilog2 }

/-- The body of `irange_key` (sortedlist.py:2044-2128), with `ret` for the call of `_islice` that it ends with and `empty`
for `iter(())` (see `Core.isliceWith`). -/
def irange_keyWith {β : Type} (ret : St α κ → Nat → Nat → Nat → Nat → Bool → Except PyErr β) (empty : β)
    (K : KEnv α κ) (minKey maxKey : Option κ) (incMin incMax reverse : Bool) : Py (St α κ) β := do
  let s ← Py.get
  if s.maxes = [] then pure empty
  else
    -- lines 2083-2100; `none` stands for `return iter(())`
    let lo : Option (Nat × Nat) ←
      match minKey with
      | none => pure (some (0, 0))
      | some m => do
        let minPos ← Py.lift (if incMin then bisectLeft K.lt s.maxes m else bisectRight K.lt s.maxes m)
        if minPos = s.maxes.length then pure none
        else
          let ks ← Py.lift (getItem s.keys minPos)
          let minIdx ← Py.lift (if incMin then bisectLeft K.lt ks m else bisectRight K.lt ks m)
          pure (some (minPos, minIdx))
    match lo with
    | none => pure empty
    | some (minPos, minIdx) =>
      -- lines 2105-2124
      let (maxPos, maxIdx) ←
        match maxKey with
        | none => do
          let ks ← Py.lift (getItem s.keys (s.maxes.length - 1))
          pure (s.maxes.length - 1, ks.length)
        | some m => do
          let maxPos ← Py.lift (if incMax then bisectRight K.lt s.maxes m else bisectLeft K.lt s.maxes m)
          if maxPos = s.maxes.length then
            let ks ← Py.lift (getItem s.keys (maxPos - 1))
            pure (maxPos - 1, ks.length)
          else
            let ks ← Py.lift (getItem s.keys maxPos)
            let maxIdx ← Py.lift (if incMax then bisectRight K.lt ks m else bisectLeft K.lt ks m)
            pure (maxPos, maxIdx)
      Py.lift (ret s minPos minIdx maxPos maxIdx reverse)

/-- `irange_key` (sortedlist.py:2044-2128), as the list of values the iterator yields. -/
def irange_key (K : KEnv α κ) (minKey maxKey : Option κ) (incMin incMax reverse : Bool) : Py (St α κ) (List α) :=
  irange_keyWith Core.islicePos [] K minKey maxKey incMin incMax reverse

/-- `key(x) if x is not None else None` (sortedlist.py:2035-2036).  A key function returning `None`,
which `irange_key` would read as "no bound", is not modelled (`None` is not ordered with other keys). -/
def keyOpt (K : KEnv α κ) : Option α → Except PyErr (Option κ)
  | none => .ok none
  | some x =>
    match K.key x with
    | .error e => .error e
    | .ok k => .ok (some k)

/-- The body of `irange` (sortedlist.py:2008-2042); `ret`, `empty` as in `irange_keyWith`. -/
def irangeWith {β : Type} (ret : St α κ → Nat → Nat → Nat → Nat → Bool → Except PyErr β) (empty : β)
    (K : KEnv α κ) (minimum maximum : Option α) (incMin incMax reverse : Bool) : Py (St α κ) β := do
  let minKey ← Py.lift (keyOpt K minimum)
  let maxKey ← Py.lift (keyOpt K maximum)
  irange_keyWith ret empty K minKey maxKey incMin incMax reverse

/-- `irange` (sortedlist.py:2008-2042), as the list of values the iterator yields -/
def irange (K : KEnv α κ) (minimum maximum : Option α) (incMin incMax reverse : Bool) :
    Py (St α κ) (List α) :=
  irangeWith Core.islicePos [] K minimum maximum incMin incMax reverse

/-- `bisect_key_left` (sortedlist.py:2174-2207) -/
def bisect_key_left (K : KEnv α κ) (key : κ) : Py (St α κ) Nat := do
  let s ← Py.get
  if s.maxes = [] then pure 0
  else
    let pos ← Py.lift (bisectLeft K.lt s.maxes key)
    if pos = s.maxes.length then pure s.len
    else
      let ks ← Py.lift (getItem s.keys pos)
      let idx ← Py.lift (bisectLeft K.lt ks key)
      Core.loc K.ilog2 pos idx

/-- `bisect_key_right` / `bisect_key` (sortedlist.py:2209-2243) -/
def bisect_key_right (K : KEnv α κ) (key : κ) : Py (St α κ) Nat := do
  let s ← Py.get
  if s.maxes = [] then pure 0
  else
    let pos ← Py.lift (bisectRight K.lt s.maxes key)
    if pos = s.maxes.length then pure s.len
    else
      let ks ← Py.lift (getItem s.keys pos)
      let idx ← Py.lift (bisectRight K.lt ks key)
      Core.loc K.ilog2 pos idx

/-- `bisect_left` (sortedlist.py:2130-2149) -/
def bisect_left (K : KEnv α κ) (value : α) : Py (St α κ) Nat := do
  let key ← Py.lift (K.key value)
  bisect_key_left K key

/-- `bisect_right` / `bisect` (sortedlist.py:2151-2172) -/
def bisect_right (K : KEnv α κ) (value : α) : Py (St α κ) Nat := do
  let key ← Py.lift (K.key value)
  bisect_key_right K key

/-- The loop of `count` (sortedlist.py:2277-2288). -/
def countLoop (K : KEnv α κ) (lists : List (List α)) (keys : List (List κ)) (value : α) (key : κ)
    (pos idx lenSublist total : Nat) : Except PyErr Nat :=
  match _h : getItem keys pos with
  | .error e => .error e
  | .ok ks =>
    match _h' : getItem ks idx with
    | .error e => .error e
    | .ok k =>
      match K.kcmp .ne k key with
      | .error e => .error e
      | .ok true => .ok total
      | .ok false =>
        match getItem lists pos with
        | .error e => .error e
        | .ok l =>
          match getItem l idx with
          | .error e => .error e
          | .ok x =>
            match K.vcmp .eq x value with
            | .error e => .error e
            | .ok b =>
              let total := if b then total + 1 else total
              if idx + 1 = lenSublist then
                if pos + 1 = keys.length then .ok total
                else
                  match getItem keys (pos + 1) with
                  | .error e => .error e
                  | .ok ks' => countLoop K lists keys value key (pos + 1) 0 ks'.length total
              else countLoop K lists keys value key pos (idx + 1) lenSublist total
termination_by (keys.length - pos, (keys[pos]?.getD []).length - idx)
decreasing_by
  all_goals
    rw [getItem_ok_iff] at _h _h'
    have h1 := (List.getElem?_eq_some_iff.1 _h).1
    have h2 := (List.getElem?_eq_some_iff.1 _h').1
    first
    | (apply Prod.Lex.left; omega)
    | (apply Prod.Lex.right; simp only [_h, Option.getD_some]; omega)

/-- `count` (sortedlist.py:2245-2288) -/
def count (K : KEnv α κ) (value : α) : Py (St α κ) Nat := do
  let s ← Py.get
  if s.maxes = [] then pure 0
  else
    let key ← Py.lift (K.key value)
    let pos ← Py.lift (bisectLeft K.lt s.maxes key)
    if pos = s.maxes.length then pure 0
    else
      let ks ← Py.lift (getItem s.keys pos)
      let idx ← Py.lift (bisectLeft K.lt ks key)
      Py.lift (countLoop K s.lists s.keys value key pos idx ks.length 0)

/-- The loop of `index` (sortedlist.py:2367-2384); `stop` has already been decremented. -/
def indexLoop (K : KEnv α κ) (lists : List (List α)) (keys : List (List κ)) (value : α) (key : κ)
    (start stop : Int) (pos idx lenSublist : Nat) : Py (St α κ) Int :=
  match _h : getItem keys pos with
  | .error e => Py.raise e
  | .ok ks =>
    match _h' : getItem ks idx with
    | .error e => Py.raise e
    | .ok k =>
      match K.kcmp .ne k key with
      | .error e => Py.raise e
      | .ok true => Py.raise .valueError
      | .ok false =>
        match getItem lists pos with
        | .error e => Py.raise e
        | .ok l =>
          match getItem l idx with
          | .error e => Py.raise e
          | .ok x =>
            match K.vcmp .eq x value with
            | .error e => Py.raise e
            | .ok b => do
              -- lines 2370-2375: `some r` stands for `return r`, `none` for falling through
              let r : Option Int ←
                if b then do
                  let loc ← Core.loc K.ilog2 pos idx
                  if start ≤ (loc : Int) ∧ (loc : Int) ≤ stop then pure (some (loc : Int))
                  else if (loc : Int) > stop then Py.raise .valueError
                  else pure none
                else pure none
              match r with
              | some r => pure r
              | none =>
                if idx + 1 = lenSublist then
                  if pos + 1 = keys.length then Py.raise .valueError
                  else
                    match getItem keys (pos + 1) with
                    | .error e => Py.raise e
                    | .ok ks' => indexLoop K lists keys value key start stop (pos + 1) 0 ks'.length
                else indexLoop K lists keys value key start stop pos (idx + 1) lenSublist
termination_by (keys.length - pos, (keys[pos]?.getD []).length - idx)
decreasing_by
  all_goals
    rw [getItem_ok_iff] at _h _h'
    have h1 := (List.getElem?_eq_some_iff.1 _h).1
    have h2 := (List.getElem?_eq_some_iff.1 _h').1
    first
    | (apply Prod.Lex.left; omega)
    | (apply Prod.Lex.right; simp only [_h, Option.getD_some]; omega)

/-- `index` (sortedlist.py:2302-2384), a Python integer. -/
def index (K : KEnv α κ) (value : α) (start stop : Option Int) : Py (St α κ) Int := do
  let s ← Py.get
  if s.len = 0 then Py.raise .valueError
  else
    let (start, stop) := SL.indexBounds s.len start stop
    if stop ≤ start then Py.raise .valueError
    else
      let key ← Py.lift (K.key value)
      let pos ← Py.lift (bisectLeft K.lt s.maxes key)
      if pos = s.maxes.length then Py.raise .valueError
      else
        let ks ← Py.lift (getItem s.keys pos)
        let idx ← Py.lift (bisectLeft K.lt ks key)
        indexLoop K s.lists s.keys value key start (stop - 1) pos idx ks.length

/-! ## Construction -/

/-- `SortedKeyList(iterable, key)` (sortedlist.py:1620-1657); `K.key` is the key function. -/
def new (K : KEnv α κ) (iterable : Option (List α)) : Except PyErr (St α κ) :=
  match iterable with
  | none => .ok St.empty
  | some xs =>
    match update K xs St.empty with
    | (.ok (), s) => .ok s
    | (.error e, _) => .error e

/-- `copy` (sortedlist.py:2290-2300) -/
def copy (K : KEnv α κ) (s : St α κ) : Except PyErr (St α κ) := new K (some (Core.iter s))

/-- `__add__`, `__radd__` (sortedlist.py:2386-2409) -/
def concat (K : KEnv α κ) (other : List α) (s : St α κ) : Except PyErr (St α κ) :=
  new K (some (Core.iter s ++ other))

/-- `__mul__` (sortedlist.py:2411-2428) -/
def mul (K : KEnv α κ) (num : Int) (s : St α κ) : Except PyErr (St α κ) :=
  new K (some (repeatList (Core.iter s) num))

/-- `__rmul__` (sortedlist.py:1411-1429): SortedKeyList inherits `SortedList.__rmul__`, which is `SortedList.__mul__`:
`self.__class__(values)`, that is `SortedKeyList(values)` with the default key `identity`
(lines 1589-1591, 1620).  `Kid` is the environment with that key: keys are the values themselves. -/
def rmul (Kid : KEnv α α) (num : Int) (s : St α κ) : Except PyErr (St α α) :=
  new Kid (some (repeatList (Core.iter s) num))

/-- The values in the `__reduce__` tuple (sortedlist.py:2430-2432); the other component is the key function. -/
def reduceArgs (s : St α κ) : List α := Core.iter s

/-! ## The self-audit -/

open SL (assert assertE allE checkSorted checkIndex)

/-- `_check` (sortedlist.py:2446-2526); the diagnostic output is not modelled. -/
def check (K : KEnv α κ) (s : St α κ) : Except PyErr Unit := do
  assert (s.load ≥ 4)
  assert (s.maxes.length == s.lists.length && s.lists.length == s.keys.length)
  assert (s.len == (s.lists.map List.length).sum)
  allE (checkSorted K.kcmp) s.keys
  allE (fun pos => do
    let p ← getItem s.keys (pos - 1)
    let a ← lastItem p
    let q ← getItem s.keys pos
    let b ← getItem q 0
    assertE (K.kcmp .le a b)) (Core.natRange 1 s.keys.length)
  allE (fun (p : List α × List κ) => do
    assert (p.1.length == p.2.length)
    allE (fun (q : α × κ) => do
      let k ← K.key q.1
      assertE (K.kcmp .eq k q.2)) (p.1.zip p.2)) (s.lists.zip s.keys)
  allE (fun pos => do
    let m ← getItem s.maxes pos
    let l ← getItem s.keys pos
    let x ← lastItem l
    assertE (K.kcmp .eq m x)) (Core.natRange 0 s.maxes.length)
  assert (s.lists.all fun l => l.length ≤ s.load * 2)
  allE (fun pos => do
    let l ← getItem s.lists pos
    assert (l.length ≥ s.load / 2)) (Core.natRange 0 (s.lists.length - 1))
  checkIndex s

end SKL
end Verif
