import Verif.Model.SortedSet
import Verif.Model.SortedDict
/-!
# Arguments that use the container they are passed to

`sl.update(f(sl, x) for x in xs)`: the argument is a generator, and its body may call methods of the container that is
consuming it.  A generator is modelled by what it does next: it ends, raises, yields a value, or calls a method of the
container and goes on depending on the answer.  A call inside a generator is one whole call; an iterator of the container
that stays open between two yields is written as a call of `__iter__` (the values it goes through are those of that
moment) or as calls of `__getitem__`.  Generators that never end are not modelled.
-/

namespace Verif

/-- A generator that yields values of type `β` and makes calls of type `C`, which answer with an `R` or an exception.
(Scaffolding of the model: no code of /repo.) -/
inductive Gen (C R β : Type) where
  /-- StopIteration -/
  | done
  /-- it raises -/
  | fail (e : PyErr)
  /-- `yield v` -/
  | yield (v : β) (rest : Gen C R β)
  /-- `try: r = container.op(...) ...`: `k` is what it does next, for each outcome -/
  | call (op : C) (k : Except PyErr R → Gen C R β)

namespace Gen
variable {C R β σ : Type}

/-- Every call that the generator may ever make satisfies `P`.  (Scaffolding of the model: no code of /repo.) -/
def Calls (P : C → Prop) : Gen C R β → Prop
  | .done => True
  | .fail _ => True
  | .yield _ rest => rest.Calls P
  | .call op k => P op ∧ ∀ r, (k r).Calls P

/-- The generator of the values of a list.  (Scaffolding of the model: no code of /repo.) -/
def ofList : List β → Gen C R β
  | [] => .done
  | v :: vs => .yield v (ofList vs)

/-- `list(gen)`: everything it yields, with `step` for the calls that it makes.  This is how `sorted`, `set`, `dict` and
`list.extend` of CPython consume an iterator: nothing else happens to the container meanwhile.
(Python's own, called by the code of /repo.) -/
def drain (step : C → Py σ R) : Gen C R β → Py σ (List β)
  | .done => pure []
  | .fail e => Py.raise e
  | .yield v rest => do
    let vs ← rest.drain step
    pure (v :: vs)
  | .call op k => fun s =>
    let r := step op s
    (k r.1).drain step r.2

/-- `list(chain(*gens))` (Python's own, called by the code of /repo.) -/
def drainAll (step : C → Py σ R) (gs : List (Gen C R β)) : Py σ (List (List β)) := Py.mapEach (drain step) gs

/-- `f` is done with every value when it arrives.  (Scaffolding of the model: no code of /repo.) -/
def each (step : C → Py σ R) (f : β → Py σ Unit) : Gen C R β → Py σ Unit
  | .done => pure ()
  | .fail e => Py.raise e
  | .yield v rest => do
    f v
    rest.each step f
  | .call op k => fun s =>
    let r := step op s
    (k r.1).each step f r.2

/-- What is yielded if all calls are answered by `ans`.  (Scaffolding of the model: no code of /repo.) -/
def listed (ans : C → Except PyErr R) : Gen C R β → Except PyErr (List β)
  | .done => .ok []
  | .fail e => .error e
  | .yield v rest => do
    let vs ← rest.listed ans
    pure (v :: vs)
  | .call op k => (k (ans op)).listed ans

end Gen

/-! ## Sorted lists -/

namespace ListAPI
variable {σ α C R : Type} (L : ListAPI σ α) (step : C → Py σ R)

/-- `update` (sortedlist.py:261-296; SortedKeyList 1759-1797): `sorted(iterable)` lists the values first.  `_lists` and
`_maxes` are looked up before that, but no method ever replaces these two lists. -/
def updateFrom (g : Gen C R α) : Py σ Unit := do
  let values ← g.drain step
  L.update values

/-- `sl + iterable` (`__add__`, sortedlist.py:1384-1386; SortedKeyList 2404-2406): the contents are copied, then the
argument is appended to the copy. -/
def concatFrom (g : Gen C R α) : Py σ (List α) := do
  let s ← Py.get
  let other ← g.drain step
  match L.new (some (L.iter s ++ other)) with
  | .ok s' => pure (L.iter s')
  | .error e => Py.raise e

end ListAPI

/-- A call on a sorted list; `update g` is `sl.update(g)` or `sl += g`, `concat g` is `sl + g` (the answer is what the new
list yields).  (Scaffolding of the model: no code of /repo.) -/
inductive GenOp (C α : Type) where
  | plain (op : C)
  | update (g : Gen C (Out α) α)
  | concat (g : Gen C (Out α) α)

/-- All calls, and all that the generators may make, satisfy `P`.  (Scaffolding of the model: no code of /repo.) -/
def GenOp.Calls {C α : Type} (P : C → Prop) : GenOp C α → Prop
  | .plain op => P op
  | .update g => g.Calls P
  | .concat g => g.Calls P

/-- One call, with the model of the calls without generators given by `step`.
(sortedlist.py:261-298, 1366-1409, 1759-1799, 2386-2409.) -/
def ListAPI.genStep {σ α C : Type} (L : ListAPI σ α) (step : C → Py σ (Out α)) : GenOp C α → Py σ (Out α)
  | .plain op => step op
  | .update g => Spec.out (fun _ => .none) (L.updateFrom step g)
  | .concat g => Spec.out .vals (L.concatFrom step g)

/-! ## Sorted sets -/

namespace SS
variable {τ σ α C R : Type} (S : SetOps τ α) (L : ListAPI σ α)

/-- A generator that uses a SortedSet.  (Scaffolding of the model: no code of /repo.) -/
abbrev Arg (α : Type) := Gen (SSOp α) (Out α) α

/-- `update` (sortedset.py:645-657): `set(chain(*iterables))` comes first. -/
def updateFrom (gs : List (Arg α)) : Py (SS τ σ) Unit := do
  let xss ← Gen.drainAll (step S L) gs
  update S L xss

/-- `difference_update` (sortedset.py:491-502): `set(chain(*iterables))` comes first. -/
def differenceUpdateFrom (gs : List (Arg α)) : Py (SS τ σ) Unit := do
  let xss ← Gen.drainAll (step S L) gs
  differenceUpdate S L xss

/-- `symmetric_difference_update` (sortedset.py:600-605): `set.symmetric_difference_update` of CPython makes a set of an
argument that is not one, before anything else. -/
def symmetricDifferenceUpdateFrom (g : Arg α) : Py (SS τ σ) Unit := do
  let xs ← g.drain (step S L)
  symmetricDifferenceUpdate S L xs

/-- The values yielded that are in the set when they arrive (`set_intersection` of CPython looks every value up in the
set itself, Objects/setobject.c).  (Python's own, called by the code of /repo.) -/
def hits : Arg α → Py (SS τ σ) (List α)
  | .done => pure []
  | .fail e => Py.raise e
  | .yield v rest => do
    let s ← Py.get
    let vs ← hits rest
    pure (if S.mem v s.set then v :: vs else vs)
  | .call op k => fun s =>
    let r := step S L op s
    hits (k r.1) r.2

/-- `intersection_update` (sortedset.py:548-553) with one argument: the intersection is computed into a new set, which
then replaces the contents of `_set`. -/
def intersectionUpdateFrom (g : Arg α) : Py (SS τ σ) Unit := do
  let vs ← hits S L g
  onSet fun _ => S.ofList vs
  rebuild S L

end SS

/-- A call on a sorted set, with generators as arguments of the methods that change it.
(Scaffolding of the model: no code of /repo.) -/
inductive SSGenOp (α : Type) where
  | plain (op : SSOp α)
  | update (gs : List (SS.Arg α))
  | differenceUpdate (gs : List (SS.Arg α))
  | symmetricDifferenceUpdate (g : SS.Arg α)
  | intersectionUpdate (g : SS.Arg α)

/-- All calls, and all that the generators may make, satisfy `P`.  (Scaffolding of the model: no code of /repo.) -/
def SSGenOp.Calls {α : Type} (P : SSOp α → Prop) : SSGenOp α → Prop
  | .plain op => P op
  | .update gs => ∀ g ∈ gs, g.Calls P
  | .differenceUpdate gs => ∀ g ∈ gs, g.Calls P
  | .symmetricDifferenceUpdate g => g.Calls P
  | .intersectionUpdate g => g.Calls P

/-- One call.  (sortedset.py:475-659; the other calls as without generators.) -/
def SS.genStep {τ σ α : Type} (S : SetOps τ α) (L : ListAPI σ α) : SSGenOp α → Py (SS τ σ) (Out α)
  | .plain op => SS.step S L op
  | .update gs => Spec.out (fun _ => .none) (SS.updateFrom S L gs)
  | .differenceUpdate gs => Spec.out (fun _ => .none) (SS.differenceUpdateFrom S L gs)
  | .symmetricDifferenceUpdate g => Spec.out (fun _ => .none) (SS.symmetricDifferenceUpdateFrom S L g)
  | .intersectionUpdate g => Spec.out (fun _ => .none) (SS.intersectionUpdateFrom S L g)

/-! ## Sorted dicts -/

namespace SD
variable {κ ν σ : Type} (eqv : κ → κ → Bool) (L : ListAPI σ κ)

/-- A generator of pairs that uses a SortedDict.  (Scaffolding of the model: no code of /repo.) -/
abbrev Arg (κ ν : Type) := Gen (SDOp κ ν) (DOut κ ν) (κ × ν)

/-- Lines 510-516 of `update`, with the dict `pairs` -/
def storePairs (pairs : List (κ × ν)) : Py (SD κ ν σ) Unit := do
  let s ← Py.get
  if 10 * pairs.length > s.dict.length then
    dictUpdate eqv (.dict pairs)
    onList L.clear
    let s ← Py.get
    onList (L.update (PyDict.keys s.dict))
  else
    Py.forEach (fun p => setitem eqv L p.1 p.2) pairs

/-- `update` (sorteddict.py:500-516) with a generator of pairs.  If the dict is empty, `dict.update` stores every pair in
the dict as it arrives (`PyDict_MergeFromSeq2`), and the list of keys is filled at the end; otherwise `dict(gen)` comes
first. -/
def updateFrom (g : Arg κ ν) : Py (SD κ ν σ) Unit := do
  let s ← Py.get
  if s.dict.length = 0 then
    g.each (step eqv L) fun p => onDict fun d => PyDict.set eqv d p.1 p.2
    let s ← Py.get
    onList (L.update (PyDict.keys s.dict))
  else
    let items ← g.drain (step eqv L)
    storePairs eqv L (PyDict.ofPairs eqv items)

end SD
end Verif
