import Verif.Model.Threads
import Verif.Model.SortedSet
import Verif.Model.SortedDict
/-!
# Threads that query one sorted set or dict

The queries of SortedSet and SortedDict as programs that can be suspended, see `Model/Threads.lean`.  They are those of `Model/SortedSet.lean` and
`Model/SortedDict.lean`, line for line.  No query writes to the built-in set or dict; the calls on `_list` may build its positional
index.  A query that calls no method of `_list` which does so is one look at the object.
-/

namespace Verif

/-- A program on a part of the object.  (Scaffolding of the model: no code of /repo.) -/
def Prog.zoom {σ ρ β : Type} (part : ρ → σ) (put : σ → ρ → ρ) : Prog σ β → Prog ρ β
  | ret x => ret x
  | read k => read fun r => zoom part put (k (part r))
  | write f k => write (fun r => put (f (part r)) r) (zoom part put k)

/-- The methods of `_list` that may write, and that the queries of a SortedSet or SortedDict call.
(sortedset.py:140-155, sorteddict.py:140-168: the references to `_list` and its methods.) -/
structure QListAPI (σ α : Type) where
  getInt : Int → Prog σ α
  getSlice : PySlice → Prog σ (List α)
  bisectLeft : α → Prog σ Nat
  bisectRight : α → Prog σ Nat
  index : α → Option Int → Option Int → Prog σ Int
  islice : Option Int → Option Int → Bool → Prog σ (List α)

namespace Threads

/-- A SortedList (sortedlist.py:36-1586). -/
def SL.api {α : Type} (E : Env α) : QListAPI (St α α) α where
  getInt := Threads.getInt E.ilog2
  getSlice := Threads.getSlice E.ilog2
  bisectLeft := bisect_left E
  bisectRight := bisect_right E
  index := index E
  islice := Threads.islice E.ilog2

/-- A SortedKeyList (sortedlist.py:1594-2526). -/
def SKL.api {α κ : Type} (K : KEnv α κ) : QListAPI (St α κ) α where
  getInt := Threads.getInt K.ilog2
  getSlice := Threads.getSlice K.ilog2
  bisectLeft := bisect_left K
  bisectRight := bisect_right K
  index := index K
  islice := Threads.islice K.ilog2

/-! ## SortedSet

All line numbers refer to /repo/src/sortedcontainers/sortedset.py. -/

namespace SS
variable {τ σ α β : Type}

/-- A call of a method of `_list`.  (sortedset.py:140-155, sorteddict.py:140-168: the references to `_list` and its methods.) -/
def onList (m : Prog σ β) : Prog (SS τ σ) β := m.zoom (·.list) fun l s => { s with list := l }

variable (S : SetOps τ α) (Q : QListAPI σ α) (L : ListAPI σ α)

/-- `__getitem__` with an integer (sortedset.py:197-219) -/
def getInt (i : Int) : Prog (SS τ σ) α := onList (Q.getInt i)

/-- `__getitem__` with a slice (sortedset.py:197-219) -/
def getSlice (sl : PySlice) : Prog (SS τ σ) (List α) := onList (Q.getSlice sl)

/-- A query, as a program that can be suspended; `bisect_left`, `bisect_right`, `index` and `islice` are the methods of `_list` (sortedset.py:142-147).
Other calls are not programs of readers; they are given as one look. -/
def query : SSOp α → Prog (SS τ σ) (Out α)
  | .getInt i => .val <$> getInt Q i
  | .getSlice sl => .vals <$> getSlice Q sl
  | .bisectLeft v => (fun (n : Nat) => .int n) <$> onList (Q.bisectLeft v)
  | .bisectRight v => (fun (n : Nat) => .int n) <$> onList (Q.bisectRight v)
  | .index v a b => .int <$> onList (Q.index v a b)
  | .islice a b r => .vals <$> onList (Q.islice a b r)
  | op => Prog.look (Verif.SS.step S L op)

end SS

/-! ## SortedDict

All line numbers refer to /repo/src/sortedcontainers/sorteddict.py. -/

namespace SD
variable {κ ν σ β : Type}

/-- A call of a method of `_list`.  (sortedset.py:140-155, sorteddict.py:140-168: the references to `_list` and its methods.) -/
def onList (m : Prog σ β) : Prog (SD κ ν σ) β := m.zoom (·.list) fun l s => { s with list := l }

variable (eqv : κ → κ → Bool) (Q : QListAPI σ κ) (L : ListAPI σ κ)

/-- `self[key]`, inherited from dict (Inherited from `dict`, sorteddict.py:27.) -/
def getitem (k : κ) : Prog (SD κ ν σ) ν := do
  let s ← Prog.get
  Prog.lift (PyDict.getitem eqv s.dict k)

/-- `peekitem` (sorteddict.py:427-455); also `sd.items()[i]` (`SortedItemsView.__getitem__`, 685-693) -/
def peekitem (i : Int) : Prog (SD κ ν σ) (κ × ν) := do
  let key ← onList (Q.getInt i)
  let value ← getitem eqv key
  pure (key, value)

/-- `sd.keys()[i]` (`SortedKeysView.__getitem__`, sorteddict.py:611-638) -/
def keysAt (i : Int) : Prog (SD κ ν σ) κ := onList (Q.getInt i)

/-- `sd.keys()[a:b:c]` (sorteddict.py:611-638) -/
def keysSlice (sl : PySlice) : Prog (SD κ ν σ) (List κ) := onList (Q.getSlice sl)

/-- `sd.items()[a:b:c]` (`SortedItemsView.__getitem__`, sorteddict.py:685-690) -/
def itemsSlice (sl : PySlice) : Prog (SD κ ν σ) (List (κ × ν)) := do
  let keys ← onList (Q.getSlice sl)
  Prog.mapEach (fun k => do
    let v ← getitem eqv k
    pure (k, v)) keys

/-- `sd.values()[i]` (`SortedValuesView.__getitem__`, sorteddict.py:736-744) -/
def valuesAt (i : Int) : Prog (SD κ ν σ) ν := do
  let key ← onList (Q.getInt i)
  getitem eqv key

/-- `sd.values()[a:b:c]` (sorteddict.py:736-741) -/
def valuesSlice (sl : PySlice) : Prog (SD κ ν σ) (List ν) := do
  let keys ← onList (Q.getSlice sl)
  Prog.mapEach (getitem eqv) keys

/-- A query, as a program that can be suspended; `bisect_left`, `bisect_right`, `index` and `islice` are the methods of `_list` (sorteddict.py:155-160).
Other calls are not programs of readers; they are given as one look. -/
def query : SDOp κ ν → Prog (SD κ ν σ) (DOut κ ν)
  | .peekitem i => (fun p => .item p.1 p.2) <$> peekitem eqv Q i
  | .keysAt i => .key <$> keysAt Q i
  | .keysSlice sl => .keys <$> keysSlice Q sl
  | .itemsAt i => (fun p => .item p.1 p.2) <$> peekitem eqv Q i
  | .itemsSlice sl => .items <$> itemsSlice eqv Q sl
  | .valuesAt i => .val <$> valuesAt eqv Q i
  | .valuesSlice sl => .vals <$> valuesSlice eqv Q sl
  | .bisectLeft k => (fun (n : Nat) => .int n) <$> onList (Q.bisectLeft k)
  | .bisectRight k => (fun (n : Nat) => .int n) <$> onList (Q.bisectRight k)
  | .index k a b => .int <$> onList (Q.index k a b)
  | .islice a b r => .keys <$> onList (Q.islice a b r)
  | op => Prog.look (Verif.SD.step eqv L op)

end SD
end Threads

/-- The queries of the class that may write, as programs that can be suspended.
(sortedset.py:140-155, sorteddict.py:140-168: the references to `_list` and its methods.) -/
def ListClass.threaded {α : Type} : (c : ListClass α) → QListAPI c.State α
  | .plain E => Threads.SL.api E
  | .keyed K => Threads.SKL.api K

end Verif
