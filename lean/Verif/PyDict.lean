import Verif.Py
/-!
# The built-in `dict`

An insertion-ordered list of items, as Python documents `dict` since 3.7.  `eqv` is `==` of keys; keys are hashable and
their `==` does not raise.  Nothing here is specific to sortedcontainers; the specification of SortedDict uses it too.
-/

namespace Verif
namespace PyDict
variable {κ ν : Type} (eqv : κ → κ → Bool)

/-- The keys, in insertion order. -/
def keys (d : List (κ × ν)) : List κ := d.map Prod.fst

/-- `k in d` -/
def has (d : List (κ × ν)) (k : κ) : Bool := d.any fun p => eqv p.1 k

/-- The value stored for `k`, if any. -/
def lookup (d : List (κ × ν)) (k : κ) : Option ν := (d.find? fun p => eqv p.1 k).map Prod.snd

/-- `d[k]` -/
def getitem (d : List (κ × ν)) (k : κ) : Except PyErr ν :=
  match lookup eqv d k with
  | some v => .ok v
  | none => .error .keyError

/-- `d[k] = v`: an existing item keeps its place and its key object, a new one goes to the end. -/
def set (d : List (κ × ν)) (k : κ) (v : ν) : List (κ × ν) :=
  if has eqv d k then d.map fun p => if eqv p.1 k then (p.1, v) else p else d ++ [(k, v)]

/-- `d` without the item for `k`. -/
def erase (d : List (κ × ν)) (k : κ) : List (κ × ν) := d.filter fun p => !eqv p.1 k

/-- `d.update(pairs)`: later pairs override earlier ones. -/
def update (d : List (κ × ν)) (pairs : List (κ × ν)) : List (κ × ν) := pairs.foldl (fun d p => set eqv d p.1 p.2) d

/-- `dict(pairs)` -/
def ofPairs (pairs : List (κ × ν)) : List (κ × ν) := update eqv [] pairs

/-- `a == b` for dicts (`dict_equal` of CPython): same length, and every item of `a` is in `b`. -/
def equal (veq : ν → ν → Bool) (a b : List (κ × ν)) : Bool :=
  a.length == b.length && a.all fun p => (lookup eqv b p.1).any fun w => veq p.2 w

end PyDict
end Verif
