import Verif.ClientSpec
import Verif.Model.API
import Verif.SetSpec
import Verif.DictSpec
import Verif.IterSpec
import Verif.Linear
/-!
# Code of the client that queries the sorted set or sorted dict it is called for

The sorted list inside a sorted set or dict calls comparison operators and the key function; these may query the whole set or dict.

A method of a sorted set changes the built-in set first and then the sorted list, so such a query, asked during `add`, `discard` or
`remove`, is answered as of after the call if it is answered by the built-in set, and as of before the call otherwise
(`SetSpec.during`).  For a sorted dict see `DictSpec.during`.
-/

namespace Verif
variable {α κ ν Q R : Type}

/-! ## The code -/

/-- The comparison operators of values, as code of the client: see `SL.Clients`. -/
structure ValueCode (Q R α : Type) where
  cmp : Nat → CmpOp → α → α → Seen Q R → Client Q R Bool
  pairs : List α → List (α × α)

/-- The key function and the comparison operators of keys and values, as code of the client: see `SKL.Clients`. -/
structure KeyCode (Q R α κ : Type) where
  key : Nat → α → Seen Q R → Client Q R κ
  kcmp : Nat → CmpOp → κ → κ → Seen Q R → Client Q R Bool
  vcmp : Nat → CmpOp → α → α → Seen Q R → Client Q R Bool
  pairs : List κ → List (κ × κ)

/-- The code that a list of the class calls. -/
def ListClass.Code (Q R : Type) : ListClass α → Type
  | .plain _ => ValueCode Q R α
  | .keyed (κ := κ) _ => KeyCode Q R α κ

/-- The code is right if its queries are answered by `ans`: it compares, and computes keys, as the class does. -/
def ListClass.Right : (c : ListClass α) → c.Code Q R → (Q → Except PyErr R) → Prop
  | .plain E => fun (C : ValueCode Q R α) ans => ∀ d op a b w, (C.cmp d op a b w).says ans = E.cmp op a b
  | .keyed (κ := κ) K => fun (C : KeyCode Q R α κ) ans => (∀ d a w, (C.key d a w).says ans = K.key a) ∧
      (∀ d op a b w, (C.kcmp d op a b w).says ans = K.kcmp op a b) ∧ ∀ d op a b w, (C.vcmp d op a b w).says ans = K.vcmp op a b

/-- The code is right whatever it is told. -/
def ListClass.Steadfast : (c : ListClass α) → c.Code Q R → Prop
  | .plain E => fun (C : ValueCode Q R α) => ∀ d op a b w, (C.cmp d op a b w).Always (E.cmp op a b)
  | .keyed (κ := κ) K => fun (C : KeyCode Q R α κ) => (∀ d a w, (C.key d a w).Always (K.key a)) ∧
      (∀ d op a b w, (C.kcmp d op a b w).Always (K.kcmp op a b)) ∧ ∀ d op a b w, (C.vcmp d op a b w).Always (K.vcmp op a b)

/-- Calls nest at most `D` deep: at depth `D` nothing is asked. -/
def ListClass.Quiet : (c : ListClass α) → c.Code Q R → Nat → Prop
  | .plain _ => fun (C : ValueCode Q R α) D => ∀ op a b w, ∃ r, C.cmp D op a b w = .done r
  | .keyed (κ := κ) _ => fun (C : KeyCode Q R α κ) D => (∀ a w, ∃ r, C.key D a w = .done r) ∧
      (∀ op a b w, ∃ r, C.kcmp D op a b w = .done r) ∧ ∀ op a b w, ∃ r, C.vcmp D op a b w = .done r

/-! ## Sorted sets -/

/-- The queries of a sorted set. -/
def SSQuery (α : Type) : Type := { op : SSOp α // op.isQuery = true }

/-- The calls that rebuild the sorted list, or change it value by value. -/
def SSOp.bulk : SSOp α → Bool
  | .delSlice _ | .update _ | .differenceUpdate _ | .intersectionUpdate _ | .symmetricDifferenceUpdate _ | .reset _ => true
  | _ => false

/-- The answer to the query `q`, asked by a comparison or key function during the call `op` on a set with the values `l`: as after
the call, if the built-in set answers it, else as before the call. -/
def SetSpec.during [DecidableEq α] (O : Spec.Order α) (op : SSOp α) (l : List α) (q : SSQuery α) : Except PyErr (Out α) :=
  (SetSpec.step O q.1 (if q.1.asksStore then (SetSpec.step O op l).2 else l)).1

/-- The code is right if it is told what the set tells during calls that do not rebuild it. -/
def ListClass.HonestSet [DecidableEq α] (c : ListClass α) (C : c.Code (SSQuery α) (Out α)) (O : Spec.Order α) : Prop :=
  ∀ op l, op.bulk = false → Sorted O.lt l → l.Nodup → c.Right C (SetSpec.during O op l)

/-! ## Sorted dicts -/

/-- The queries of a sorted dict. -/
def SDQuery (κ ν : Type) : Type := { op : SDOp κ ν // op.isQuery = true }

/-- The calls that rebuild the sorted list, or change it key by key. -/
def SDOp.bulk : SDOp κ ν → Bool
  | .update _ | .viewDelSlice _ | .reset _ => true
  | _ => false

/-- The keys whose values a query needs, in a dict whose keys, sorted, are `ks`. -/
def SDOp.valuesOf (ks : List κ) : SDOp κ ν → List κ
  | .peekitem i | .itemsAt i | .valuesAt i =>
    match (Spec.getInt i ks).1 with
    | .ok k => [k]
    | .error _ => []
  | .itemsSlice sl | .valuesSlice sl =>
    match (Spec.getSlice sl ks).1 with
    | .ok ks => ks
    | .error _ => []
  | .items | .values | .copy | .or _ | .ror _ => ks
  | _ => []

/-- The answer to the query `q`, asked by a comparison or key function during the call `op` on a dict with the items `d`.  `sd[k] = v` and
`pop` change the sorted list first, so all is as before the call.  `setdefault` and `del sd[k]` change the built-in dict first:
lookups are answered as after the call, and queries about the order of the keys as before it.  During `del sd[k]`, a query that is
about the order and needs the value of `k` is a KeyError. -/
def DictSpec.during (eqv : κ → κ → Bool) (O : Spec.Order κ) (op : SDOp κ ν) (d : List (κ × ν)) (q : SDQuery κ ν) :
    Except PyErr (DOut κ ν) :=
  match op with
  | .setdefault .. =>
    (DictSpec.step eqv O q.1 (if q.1.asksStore then (DictSpec.step eqv O op d).2 else d)).1
  | .delitem k =>
    if q.1.asksStore then (DictSpec.step eqv O q.1 (PyDict.erase eqv d k)).1
    else if (q.1.valuesOf (DictSpec.sortedKeys O d)).any fun x => eqv x k then .error .keyError
    else (DictSpec.step eqv O q.1 d).1
  | _ => (DictSpec.step eqv O q.1 d).1

/-- The code is right if it is told what the dict tells during calls that do not rebuild it. -/
def ListClass.HonestDict (c : ListClass κ) (C : c.Code (SDQuery κ ν) (DOut κ ν)) (eqv : κ → κ → Bool) (O : Spec.Order κ) : Prop :=
  ∀ op d, op.bulk = false → ((PyDict.keys d).Pairwise fun a b => eqv a b = false) → c.Right C (DictSpec.during eqv O op d)

end Verif
