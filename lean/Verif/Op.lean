import Verif.Py
/-!
# The vocabulary of calls and answers

`Op` is a call a client can make on a SortedList or SortedKeyList, `Out` what it can get back.
Both the model and the specification interpret this vocabulary.
-/

namespace Verif

/-- The methods that exist only to be refused:
`__setitem__`, `reverse`, `append`, `extend`, `insert`
(sortedlist.py:835-845, 869-884, 1201-1229). -/
inductive Unsupported (α : Type) where
  | setitem (index : Int) (value : α)
  | setslice (index : PySlice) (values : List α)
  | reverse
  | append (value : α)
  | extend (values : List α)
  | insert (index : Int) (value : α)

/-- A call.  `concat xs` is `sl + xs` or `xs + sl`, `mul n` is `sl * n`, `iadd`/`imul` their in-place forms,
`reset load` is `_reset(load)`, `compare op other` is `sl op other` with a sequence `other`. -/
inductive Op (α : Type) where
  | add (v : α)
  | update (xs : List α)
  | clear
  | contains (v : α)
  | discard (v : α)
  | remove (v : α)
  | getInt (i : Int)
  | getSlice (sl : PySlice)
  | delInt (i : Int)
  | delSlice (sl : PySlice)
  | pop (i : Int)
  | bisectLeft (v : α)
  | bisectRight (v : α)
  | count (v : α)
  | index (v : α) (start stop : Option Int)
  | irange (lo hi : Option α) (incMin incMax reverse : Bool)
  | islice (start stop : Option Int) (reverse : Bool)
  | iter
  | reversed
  | len
  | compare (op : CmpOp) (other : List α)
  | iadd (xs : List α)
  | imul (n : Int)
  | reset (load : Nat)
  | copy
  | concat (xs : List α)
  | mul (n : Int)
  | unsupported (u : Unsupported α)

/-- The only restriction on arguments: load factors are at least 1. -/
def Op.Valid {α : Type} : Op α → Prop
  | .reset load => 1 ≤ load
  | _ => True

/-- The calls that are queries: they should not change the container. -/
def Op.isQuery {α : Type} : Op α → Bool
  | .contains _ | .getInt _ | .getSlice _ | .bisectLeft _ | .bisectRight _ | .count _ | .index .. | .irange ..
  | .islice .. | .iter | .reversed | .len | .compare .. | .copy | .concat _ | .mul _ => true
  | _ => false

/-- The calls that rebuild the container from many values at once. -/
def Op.bulk {α : Type} : Op α → Bool
  | .update _ | .iadd _ | .imul _ | .delSlice _ | .reset _ => true
  | _ => false

/-- A call on a SortedKeyList: those it shares with SortedList, and the searches by key. -/
inductive KOp (α κ : Type) where
  | op (o : Op α)
  | bisectKeyLeft (k : κ)
  | bisectKeyRight (k : κ)
  | irangeKey (lo hi : Option κ) (incMin incMax reverse : Bool)

def KOp.Valid {α κ : Type} : KOp α κ → Prop
  | .op o => o.Valid
  | _ => True

def KOp.isQuery {α κ : Type} : KOp α κ → Bool
  | .op o => o.isQuery
  | _ => true

/-- The values that a call adds to the list, in the order in which it adds them (`sl *= n` is not counted as adding). -/
def Op.inserted {α : Type} : Op α → List α
  | .add v => [v]
  | .update xs | .iadd xs => xs
  | _ => []

def KOp.inserted {α κ : Type} : KOp α κ → List α
  | .op o => o.inserted
  | _ => []

/-- The calls that remove nothing: queries, `add`, `update`, `+=`, `_reset`. -/
def KOp.keeps {α κ : Type} : KOp α κ → Bool
  | .op (.add _) | .op (.update _) | .op (.iadd _) | .op (.reset _) => true
  | o => o.isQuery

/-! ## SortedSet -/

/-- A call on a SortedSet.  The methods that take any number of iterables get a list of lists; `compare op values` is
`ss op other` for a set `other` with the given values. -/
inductive SSOp (α : Type) where
  | add (v : α)
  | discard (v : α)
  | remove (v : α)
  | pop (i : Int)
  | delInt (i : Int)
  | delSlice (sl : PySlice)
  | clear
  | update (xss : List (List α))
  | differenceUpdate (xss : List (List α))
  | intersectionUpdate (xss : List (List α))
  | symmetricDifferenceUpdate (xs : List α)
  | getInt (i : Int)
  | getSlice (sl : PySlice)
  | bisectLeft (v : α)
  | bisectRight (v : α)
  | index (v : α) (start stop : Option Int)
  | irange (lo hi : Option α) (incMin incMax reverse : Bool)
  | islice (start stop : Option Int) (reverse : Bool)
  | reset (load : Nat)
  | contains (v : α)
  | len
  | iter
  | reversed
  | count (v : α)
  | isdisjoint (xs : List α)
  | issubset (xs : List α)
  | issuperset (xs : List α)
  | compare (op : CmpOp) (values : List α)
  | copy
  | union (xss : List (List α))
  | intersection (xss : List (List α))
  | difference (xss : List (List α))
  | symmetricDifference (xs : List α)

def SSOp.Valid {α : Type} : SSOp α → Prop
  | .reset load => 1 ≤ load
  | _ => True

/-- The calls on a sorted set that read it as a sequence, as calls on the list of its values. -/
def SSOp.asSequence {α : Type} : SSOp α → Option (Op α)
  | .getInt i => some (.getInt i)
  | .getSlice sl => some (.getSlice sl)
  | .bisectLeft v => some (.bisectLeft v)
  | .bisectRight v => some (.bisectRight v)
  | .index v start stop => some (.index v start stop)
  | .irange lo hi incMin incMax reverse => some (.irange lo hi incMin incMax reverse)
  | .islice start stop reverse => some (.islice start stop reverse)
  | .contains v => some (.contains v)
  | .len => some .len
  | .iter => some .iter
  | .reversed => some .reversed
  | .count v => some (.count v)
  | _ => none

/-! ## SortedDict -/

/-- The arguments of `update` and of the constructor.  `dict items` is a single dict argument (subclasses included),
given by its items in iteration order.  `pairs items fail` is anything else that `dict(...)` accepts, keyword arguments
included: the pairs in the order in which they arrive, and the exception that ends them, if any (an element that is not a
pair, an iterator that raises). -/
inductive DictArg (κ ν : Type) where
  | dict (items : List (κ × ν))
  | pairs (items : List (κ × ν)) (fail : Option PyErr)

/-- The pairs that arrive. -/
def DictArg.items {κ ν : Type} : DictArg κ ν → List (κ × ν)
  | .dict items => items
  | .pairs items _ => items

/-- The exception that ends them. -/
def DictArg.fail {κ ν : Type} : DictArg κ ν → Option PyErr
  | .dict _ => none
  | .pairs _ fail => fail

/-- A call on a SortedDict.  `keysAt`, `itemsAt`, `valuesAt` are `sd.keys()[i]` etc., `keysSlice` etc. their slices,
`viewDelInt` and `viewDelSlice` are `del view[i]` for any of the three views; `or other` is `sd | other`, `ror other` is
`other | sd` with a mapping `other` given by its items. -/
inductive SDOp (κ ν : Type) where
  | setitem (k : κ) (v : ν)
  | delitem (k : κ)
  | clear
  | pop (k : κ) (default : Option ν)
  | popitem (i : Int)
  | peekitem (i : Int)
  | setdefault (k : κ) (v : ν)
  | update (arg : DictArg κ ν)
  | getitem (k : κ)
  | get (k : κ)
  | contains (k : κ)
  | len
  | iter
  | reversed
  | items
  | values
  | keysAt (i : Int)
  | keysSlice (sl : PySlice)
  | itemsAt (i : Int)
  | itemsSlice (sl : PySlice)
  | valuesAt (i : Int)
  | valuesSlice (sl : PySlice)
  | viewDelInt (i : Int)
  | viewDelSlice (sl : PySlice)
  | bisectLeft (k : κ)
  | bisectRight (k : κ)
  | index (k : κ) (start stop : Option Int)
  | irange (lo hi : Option κ) (incMin incMax reverse : Bool)
  | islice (start stop : Option Int) (reverse : Bool)
  | reset (load : Nat)
  | copy
  | or (other : List (κ × ν))
  | ror (other : List (κ × ν))

/-- Load factors are at least 1, and the pairs given to `update` are pairs. -/
def SDOp.Valid {κ ν : Type} : SDOp κ ν → Prop
  | .reset load => 1 ≤ load
  | .update arg => arg.fail = none
  | _ => True

/-- What a call on a SortedDict returns. -/
inductive DOut (κ ν : Type) where
  | none
  | bool (b : Bool)
  | int (n : Int)
  | key (k : κ)
  | keys (l : List κ)
  | val (v : ν)
  | vals (l : List ν)
  | item (k : κ) (v : ν)
  | items (l : List (κ × ν))
deriving DecidableEq, Repr

/-- What a call returns; a returned list, iterator or new sorted list is given by its values. -/
inductive Out (α : Type) where
  | none
  | bool (b : Bool)
  | int (n : Int)
  | val (v : α)
  | vals (l : List α)
deriving DecidableEq, Repr

/-- A history: the calls are made one after the other, exceptions are caught by the client.
`runHist step ops s` lists all answers and the final state. -/
def runHist {σ α β : Type} (step : β → Py σ α) : List β → σ → List (Except PyErr α) × σ
  | [], s => ([], s)
  | op :: ops, s =>
    let r := step op s
    let rest := runHist step ops r.2
    (r.1 :: rest.1, rest.2)

end Verif
