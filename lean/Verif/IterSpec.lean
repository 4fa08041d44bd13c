import Verif.SetSpec
import Verif.DictSpec
/-!
# Specification of iterators

A client creates iterators, asks any of them for its next value, and makes other calls, in any order.  The specification:
an iterator is the list of the values still to come, made when the iterator is created.  A call that may change what
there is to iterate over ends all that is promised about the iterators created before it.
-/

namespace Verif

/-- The calls that return an iterator. -/
inductive IterKind (α : Type) where
  | iter
  | reversed
  | islice (start stop : Option Int) (reverse : Bool)
  | irange (lo hi : Option α) (incMin incMax reverse : Bool)

/-- The same for a SortedKeyList. -/
inductive KIterKind (α κ : Type) where
  | kind (k : IterKind α)
  | irangeKey (lo hi : Option κ) (incMin incMax reverse : Bool)

/-- The same for a SortedDict: iterators of its keys (of `sd`, `reversed(sd)`, `sd.keys()`, `sd.islice`, `sd.irange`), and
those of `sd.values()` and `sd.items()`. -/
inductive DIterKind (κ : Type) where
  | keys (k : IterKind κ)
  | values
  | items

/-- What a client does next: create an iterator, ask the `j`-th iterator it created for its next value, or make another
call on the container. -/
inductive Event (K C : Type) where
  | opens (k : K)
  | next (j : Nat)
  | call (op : C)

/-- The calls among the events are valid. -/
def Event.Valid {K C : Type} (V : C → Prop) : Event K C → Prop
  | .call op => V op
  | _ => True

/-- What the client gets. -/
inductive EvOut (β R : Type) where
  | opened
  | value (b : β)
  /-- StopIteration -/
  | stop
  /-- the client has not created that many iterators -/
  | noIterator
  | result (r : R)
deriving DecidableEq

/-- The calls that are queries: they should not change the set. -/
def SSOp.isQuery {α : Type} : SSOp α → Bool
  | .getInt _ | .getSlice _ | .bisectLeft _ | .bisectRight _ | .index .. | .irange .. | .islice .. | .contains _ | .len
  | .iter | .reversed | .count _ | .isdisjoint _ | .issubset _ | .issuperset _ | .compare .. | .copy | .union _
  | .intersection _ | .difference _ | .symmetricDifference _ => true
  | _ => false

/-- The calls that are queries: they should not change the dict. -/
def SDOp.isQuery {κ ν : Type} : SDOp κ ν → Bool
  | .peekitem _ | .getitem _ | .get _ | .contains _ | .len | .iter | .reversed | .items | .values | .keysAt _
  | .keysSlice _ | .itemsAt _ | .itemsSlice _ | .valuesAt _ | .valuesSlice _ | .bisectLeft _ | .bisectRight _
  | .index .. | .irange .. | .islice .. | .copy | .or _ | .ror _ => true
  | _ => false

/-- What the specification of iterators depends on.  `τ`: the contents of the container. -/
structure IterSpec (τ α β K C R : Type) where
  /-- the values that an iterator goes through -/
  values : K → τ → List α
  /-- what it yields for a value -/
  view : K → α → τ → Except PyErr β
  call : C → Py τ R
  /-- the call may be made while iterating -/
  quiet : C → τ → Bool

/-- The contents, and for every iterator the values to come; `none` if nothing is promised about it any more. -/
abbrev IterSpec.State (τ α K : Type) := τ × List (Option (K × List α))

/-- One event; the answer is `none` where nothing is promised. -/
def IterSpec.step {τ α β K C R : Type} (B : IterSpec τ α β K C R) :
    Event K C → Py (IterSpec.State τ α K) (Option (EvOut β R))
  | .opens k => fun (t, its) => (.ok (some .opened), t, its ++ [some (k, B.values k t)])
  | .next j => fun (t, its) =>
    match its[j]? with
    | none => (.ok (some .noIterator), t, its)
    | some none => (.ok none, t, its)
    | some (some (_, [])) => (.ok (some .stop), t, its)
    | some (some (k, v :: vs)) =>
      match B.view k v t with
      | .ok b => (.ok (some (.value b)), t, its.set j (some (k, vs)))
      | .error e => (.error e, t, its.set j (some (k, vs)))
  | .call op => fun (t, its) =>
    let its' := if B.quiet op t then its else its.map fun _ => none
    match B.call op t with
    | (.ok r, t') => (.ok (some (.result r)), t', its')
    | (.error e, t') => (.error e, t', its')

/-- The answers to the requests for a value of the `j`-th iterator. -/
def answersOf {K C A : Type} (j : Nat) : List (Event K C) → List A → List A
  | .next i :: evs, a :: as => if i = j then a :: answersOf j evs as else answersOf j evs as
  | _ :: evs, _ :: as => answersOf j evs as
  | _, _ => []

/-- The answer is as specified. -/
def Meets {β : Type} : Except PyErr (Option β) → Except PyErr β → Prop
  | .ok none, _ => True
  | .ok (some b), r => r = .ok b
  | .error e, r => r = .error e

/-- The values that an iterator of a sorted list goes through. -/
def Spec.iterValues {α : Type} (O : Spec.Order α) (k : IterKind α) (l : List α) : List α :=
  match k with
  | .iter => l
  | .reversed => l.reverse
  | .islice a b r => (Spec.islice a b r l).1.toOption.getD []
  | .irange lo hi a b r => (Spec.irange O lo hi a b r l).1.toOption.getD []

/-- Iterators of a sorted list. -/
def Spec.iterSpec {α : Type} (O : Spec.Order α) : IterSpec (List α) α α (IterKind α) (Op α) (Out α) where
  values := Spec.iterValues O
  view := fun _ v _ => .ok v
  call := Spec.step O
  quiet := fun op _ => op.isQuery

/-- Iterators of a sorted list with key function. -/
def Spec.kiterSpec {α κ : Type} (key : α → κ) (klt : κ → κ → Bool) (O : Spec.Order α) :
    IterSpec (List α) α α (KIterKind α κ) (KOp α κ) (Out α) where
  values := fun k l =>
    match k with
    | .kind k => Spec.iterValues O k l
    | .irangeKey lo hi a b r => (Spec.irangeKey key klt lo hi a b r l).1.toOption.getD []
  view := fun _ v _ => .ok v
  call := Spec.kstep key klt O
  quiet := fun op _ => op.isQuery

/-- Iterators of a sorted set.  While iterating one may also add a value that is present and discard one that is not. -/
def SetSpec.iterSpec {α : Type} [DecidableEq α] (O : Spec.Order α) :
    IterSpec (List α) α α (IterKind α) (SSOp α) (Out α) where
  values := Spec.iterValues O
  view := fun _ v _ => .ok v
  call := SetSpec.step O
  quiet := fun op l =>
    match op with
    | .add v => decide (v ∈ l)
    | .discard v => decide (v ∉ l)
    | op => op.isQuery

/-- Iterators of a sorted dict.  While iterating one may also give a key that is present a new value. -/
def DictSpec.iterSpec {κ ν : Type} (eqv : κ → κ → Bool) (O : Spec.Order κ) :
    IterSpec (List (κ × ν)) κ (DOut κ ν) (DIterKind κ) (SDOp κ ν) (DOut κ ν) where
  values := fun k d =>
    match k with
    | .keys k => Spec.iterValues O k (DictSpec.sortedKeys O d)
    | .values | .items => DictSpec.sortedKeys O d
  view := fun k key d =>
    match k with
    | .keys _ => .ok (.key key)
    | .values => (PyDict.getitem eqv d key).map .val
    | .items => (PyDict.getitem eqv d key).map (.item key)
  call := DictSpec.step eqv O
  quiet := fun op d =>
    match op with
    | .setitem k _ | .setdefault k _ => PyDict.has eqv d k
    | op => op.isQuery

end Verif
