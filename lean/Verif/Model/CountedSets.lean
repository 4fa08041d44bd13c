import Verif.Model.CountedAPI
import Verif.Model.CountedBulk
import Verif.Model.SortedSet
import Verif.Model.SortedDict
/-!
# Metered sorted sets and dicts

`SS` and `SD` take the class of their sorted list as a parameter.  Here they are given the metered methods of
`Model/Counted.lean`, on lists that carry their meter with them.  Methods that have no metered program raise `modelGap`, so
that a call that uses one of them does not agree with the unmetered call.  The work on the built-in set or dict is not
counted.
-/

namespace Verif

/-- The metered methods of a SortedList (sortedlist.py:36-1586). -/
def Counted.SL.api {α : Type} (E : Env α) : ListAPI (St α α × Calls) α where
  new := fun _ => .error .modelGap
  iter := fun s => Core.iter s.1
  reversed := fun s => Core.reversed s.1
  len := fun s => Core.length s.1
  add := SL.add E.metered
  update := SL.update E.metered
  clear := CPy.free SL.clear
  contains := SL.contains E.metered
  discard := SL.discard E.metered
  remove := SL.remove E.metered
  getInt := getInt E.ilog2
  getSlice := fun _ => Py.raise .modelGap
  delInt := delInt SL.delete E.ilog2
  delSlice := fun _ => Py.raise .modelGap
  pop := pop SL.delete E.ilog2
  bisectLeft := SL.bisect_left E.metered
  bisectRight := SL.bisect_right E.metered
  count := SL.count E.metered
  index := SL.index E.metered
  irange := SL.irange E.metered
  islice := fun _ _ _ => Py.raise .modelGap
  compare := fun _ _ _ => .error .modelGap
  iadd := fun _ => Py.raise .modelGap
  imul := fun _ => Py.raise .modelGap
  reset := fun _ => Py.raise .modelGap
  copy := fun _ => .error .modelGap
  concat := fun _ _ => .error .modelGap
  mul := fun _ _ => .error .modelGap
  reduceArgs := fun s => SL.reduceArgs s.1
  unsupported := fun _ => Py.raise .modelGap
  keyCall := fun _ => False

/-- The metered methods of a SortedKeyList (sortedlist.py:1594-2526). -/
def Counted.SKL.api {α κ : Type} (K : KEnv α κ) : ListAPI (St α κ × Calls) α where
  new := fun _ => .error .modelGap
  iter := fun s => Core.iter s.1
  reversed := fun s => Core.reversed s.1
  len := fun s => Core.length s.1
  add := SKL.add K.metered
  update := SKL.update K.metered
  clear := CPy.free SKL.clear
  contains := SKL.contains K.metered
  discard := SKL.discard K.metered
  remove := SKL.remove K.metered
  getInt := getInt K.ilog2
  getSlice := fun _ => Py.raise .modelGap
  delInt := delInt SKL.delete K.ilog2
  delSlice := fun _ => Py.raise .modelGap
  pop := pop SKL.delete K.ilog2
  bisectLeft := SKL.bisect_left K.metered
  bisectRight := SKL.bisect_right K.metered
  count := fun v => do
    let n ← SKL.count K.metered v
    pure (n : Int)
  index := SKL.index K.metered
  irange := SKL.irange K.metered
  islice := fun _ _ _ => Py.raise .modelGap
  compare := fun _ _ _ => .error .modelGap
  iadd := fun _ => Py.raise .modelGap
  imul := fun _ => Py.raise .modelGap
  reset := fun _ => Py.raise .modelGap
  copy := fun _ => .error .modelGap
  concat := fun _ _ => .error .modelGap
  mul := fun _ _ => .error .modelGap
  reduceArgs := fun s => SKL.reduceArgs s.1
  unsupported := fun _ => Py.raise .modelGap
  keyCall := fun _ => False

/-- The metered methods of a class.  (Scaffolding of the model: no code of /repo.) -/
def ListClass.metered {α : Type} : (c : ListClass α) → ListAPI (c.State × Calls) α
  | .plain E => Counted.SL.api E
  | .keyed K => Counted.SKL.api K

/-- A call on a sorted set whose list carries a meter, as a metered call.  (Scaffolding of the model: no code of /repo.) -/
def SS.metering {τ σ β : Type} (m : Py (SS τ (σ × Calls)) β) : CPy (SS τ σ) β := fun p =>
  let r := m { set := p.1.set, list := (p.1.list, p.2) }
  (r.1, { set := r.2.set, list := r.2.list.1 }, r.2.list.2)

/-- A call on a sorted dict whose list carries a meter, as a metered call.  (Scaffolding of the model: no code of /repo.) -/
def SD.metering {κ ν σ β : Type} (m : Py (SD κ ν (σ × Calls)) β) : CPy (SD κ ν σ) β := fun p =>
  let r := m { dict := p.1.dict, list := (p.1.list, p.2) }
  (r.1, { dict := r.2.dict, list := r.2.list.1 }, r.2.list.2)

/-- The calls that add at most one value, that delete at most one value, and that search, on a sorted set.
(Scaffolding of the model: no code of /repo.) -/
def SSOp.adds {α : Type} : SSOp α → Bool
  | .add _ => true
  | _ => false
/-- The calls that delete at most one value.  (Scaffolding of the model: no code of /repo.) -/
def SSOp.deletes {α : Type} : SSOp α → Bool
  | .discard _ | .remove _ | .pop _ | .delInt _ => true
  | _ => false
/-- The searches.  (Scaffolding of the model: no code of /repo.) -/
def SSOp.search {α : Type} : SSOp α → Bool
  | .contains _ | .len | .iter | .reversed | .count _ | .isdisjoint _ | .issubset _ | .issuperset _ | .compare .. | .getInt _
  | .bisectLeft _ | .bisectRight _ | .index .. | .irange .. => true
  | _ => false

/-- The same for a sorted dict.  (Scaffolding of the model: no code of /repo.) -/
def SDOp.adds {κ ν : Type} : SDOp κ ν → Bool
  | .setitem .. | .setdefault .. => true
  | _ => false
/-- The calls that delete at most one item.  (Scaffolding of the model: no code of /repo.) -/
def SDOp.deletes {κ ν : Type} : SDOp κ ν → Bool
  | .delitem _ | .pop .. | .popitem _ | .viewDelInt _ => true
  | _ => false
/-- The searches.  (Scaffolding of the model: no code of /repo.) -/
def SDOp.search {κ ν : Type} : SDOp κ ν → Bool
  | .getitem _ | .get _ | .contains _ | .len | .iter | .reversed | .items | .values | .peekitem _ | .keysAt _ | .itemsAt _
  | .valuesAt _ | .bisectLeft _ | .bisectRight _ | .index .. | .irange .. => true
  | _ => false

end Verif
