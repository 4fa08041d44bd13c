import Verif.Spec
import Verif.PyDict
/-!
# Specification of SortedDict: a plain dict, and `sorted(d, key=key)` whenever an order is asked for

The state is the list of items of a plain dict in insertion order.  Nothing here mentions the sorted list of the
implementation.
-/

namespace Verif
namespace DictSpec
variable {κ ν : Type} (eqv : κ → κ → Bool) (O : Spec.Order κ)

open PyDict

/-- `sorted(d, key=key)` -/
def sortedKeys (d : List (κ × ν)) : List κ := Spec.insertAll O [] (keys d)

/-- `[(k, d[k]) for k in sorted(d, key=key)]` -/
def sortedItems (d : List (κ × ν)) : List (κ × ν) :=
  (sortedKeys O d).filterMap fun k => (lookup eqv d k).map fun v => (k, v)

/-- `[d[k] for k in sorted(d, key=key)]` -/
def sortedValues (d : List (κ × ν)) : List ν := (sortedItems eqv O d).map Prod.snd

/-- Ask the sorted list of keys. -/
def onKeys {β : Type} (f : Py (List κ) β) : Py (List (κ × ν)) β := fun d => ((f (sortedKeys O d)).1, d)

/-- Ask the sorted list of items. -/
def onItems {β : Type} (f : Py (List (κ × ν)) β) : Py (List (κ × ν)) β := fun d => ((f (sortedItems eqv O d)).1, d)

/-- Ask the list of values, sorted by key. -/
def onValues {β : Type} (f : Py (List ν) β) : Py (List (κ × ν)) β := fun d => ((f (sortedValues eqv O d)).1, d)

/-- Remove the items with the given keys. -/
def eraseAll (ks : List κ) (d : List (κ × ν)) : List (κ × ν) := ks.foldl (erase eqv) d

/-- A call that returns `f d` and changes nothing. -/
def query {β : Type} (f : List (κ × ν) → Except PyErr β) : Py (List (κ × ν)) β := fun d => (f d, d)

/-- A call that replaces the dict. -/
def assign (f : List (κ × ν) → List (κ × ν)) : Py (List (κ × ν)) Unit := fun d => (.ok (), f d)

def delitem (k : κ) : Py (List (κ × ν)) Unit := fun d =>
  if has eqv d k then (.ok (), erase eqv d k) else (.error .keyError, d)

def pop (k : κ) (default : Option ν) : Py (List (κ × ν)) ν := fun d =>
  match lookup eqv d k, default with
  | some v, _ => (.ok v, erase eqv d k)
  | none, some v => (.ok v, d)
  | none, none => (.error .keyError, d)

/-- The item at position `i` in key order is removed; an empty dict is a KeyError. -/
def popitem (i : Int) : Py (List (κ × ν)) (κ × ν) := fun d =>
  if d.length = 0 then (.error .keyError, d)
  else
    match (Spec.getInt i (sortedItems eqv O d)).1 with
    | .ok p => (.ok p, erase eqv d p.1)
    | .error e => (.error e, d)

def setdefault (k : κ) (v : ν) : Py (List (κ × ν)) ν := fun d =>
  match lookup eqv d k with
  | some w => (.ok w, d)
  | none => (.ok v, set eqv d k v)

/-- `for k in sorted(d)[i]: del d[k]` -/
def viewDelInt (i : Int) : Py (List (κ × ν)) Unit := fun d =>
  match (Spec.getInt i (sortedKeys O d)).1 with
  | .ok k => (.ok (), erase eqv d k)
  | .error e => (.error e, d)

/-- `for k in sorted(d)[a:b:c]: del d[k]` -/
def viewDelSlice (sl : PySlice) : Py (List (κ × ν)) Unit := fun d =>
  match (Spec.getSlice sl (sortedKeys O d)).1 with
  | .ok ks => (.ok (), eraseAll eqv ks d)
  | .error e => (.error e, d)

/-- Wrap the result of a call. -/
def out {τ β : Type} (f : β → DOut κ ν) (m : Py τ β) : Py τ (DOut κ ν) := do
  let b ← m
  pure (f b)

/-- One call. -/
def step : SDOp κ ν → Py (List (κ × ν)) (DOut κ ν)
  | .setitem k v => out (fun _ => .none) (assign fun d => set eqv d k v)
  | .delitem k => out (fun _ => .none) (delitem eqv k)
  | .clear => out (fun _ => .none) (assign fun _ => [])
  | .pop k default => out .val (pop eqv k default)
  | .popitem i => out (fun p => .item p.1 p.2) (popitem eqv O i)
  | .peekitem i => out (fun p => .item p.1 p.2) (onItems eqv O (Spec.getInt i))
  | .setdefault k v => out .val (setdefault eqv k v)
  | .update arg => out (fun _ => .none) (assign fun d => PyDict.update eqv d arg.items)
  | .getitem k => out .val (query fun d => PyDict.getitem eqv d k)
  | .get k => out (fun o => o.elim .none .val) (query fun d => .ok (lookup eqv d k))
  | .contains k => out .bool (query fun d => .ok (has eqv d k))
  | .len => out (fun (n : Nat) => .int n) (query fun d => .ok d.length)
  | .iter => out .keys (query fun d => .ok (sortedKeys O d))
  | .reversed => out .keys (query fun d => .ok (sortedKeys O d).reverse)
  | .items => out .items (query fun d => .ok (sortedItems eqv O d))
  | .values => out .vals (query fun d => .ok (sortedValues eqv O d))
  | .keysAt i => out .key (onKeys O (Spec.getInt i))
  | .keysSlice sl => out .keys (onKeys O (Spec.getSlice sl))
  | .itemsAt i => out (fun p => .item p.1 p.2) (onItems eqv O (Spec.getInt i))
  | .itemsSlice sl => out .items (onItems eqv O (Spec.getSlice sl))
  | .valuesAt i => out .val (onValues eqv O (Spec.getInt i))
  | .valuesSlice sl => out .vals (onValues eqv O (Spec.getSlice sl))
  | .viewDelInt i => out (fun _ => .none) (viewDelInt eqv O i)
  | .viewDelSlice sl => out (fun _ => .none) (viewDelSlice eqv O sl)
  | .bisectLeft k => out (fun (n : Nat) => .int n) (onKeys O (Spec.bisectLeft O k))
  | .bisectRight k => out (fun (n : Nat) => .int n) (onKeys O (Spec.bisectRight O k))
  | .index k a b => out .int (onKeys O (Spec.index O k a b))
  | .irange lo hi a b r => out .keys (onKeys O (Spec.irange O lo hi a b r))
  | .islice a b r => out .keys (onKeys O (Spec.islice a b r))
  | .reset _ => out (fun _ => .none) (assign fun d => d)
  | .copy => out .items (query fun d => .ok (sortedItems eqv O d))
  | .or other => out .items (query fun d => .ok (sortedItems eqv O (PyDict.update eqv d other)))
  | .ror other => out .items (query fun d => .ok (sortedItems eqv O (PyDict.update eqv (ofPairs eqv other) d)))

end DictSpec
end Verif
