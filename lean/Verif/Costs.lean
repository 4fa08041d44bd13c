import Verif.Model.CountedSets
/-!
# What calls on sorted sets and dicts may cost

The tables of C67.  `n` is the number of values (keys) and `r v` the number of those whose keys compare equal to that of
`v`; calls that are not listed make no comparison, do not call the key function, and do not look at the positional index.
-/

namespace Verif

/-- The calls that C67 is about. -/
def SDOp.metered {κ ν : Type} (op : SDOp κ ν) : Prop := (op.adds || op.deletes || op.search) = true
def SSOp.metered {α : Type} (op : SSOp α) : Prop := (op.adds || op.deletes || op.search) = true

/-- There is a key function. -/
def ListClass.hasKey {α : Type} : ListClass α → Bool
  | .plain _ => false
  | .keyed _ => true

/-- With a key function, how many of the values have a key that compares equal to that of `v` (`lt` compares the keys). -/
def ListClass.alike {α : Type} (c : ListClass α) (lt : α → α → Bool) (l : List α) (v : α) : Nat :=
  if c.hasKey then l.countP fun w => equiv lt w v else 0

/-- `int(log(n, 2))` is not rounded up. -/
def ListClass.Tight {α : Type} : ListClass α → Prop
  | .plain E => ∀ n, 1 ≤ n → 2 ^ E.ilog2 n ≤ n
  | .keyed K => ∀ n, 1 ≤ n → 2 ^ K.ilog2 n ≤ n

/-- The attribute `_index` of the list. -/
def ListClass.index {α : Type} : (c : ListClass α) → c.State → List Nat
  | .plain _ => St.index
  | .keyed _ => St.index

/-- Comparisons. -/
def SDOp.cmps {κ ν : Type} (n : Nat) (r : κ → Nat) : SDOp κ ν → Nat
  | .setitem .. | .setdefault .. | .bisectLeft _ | .bisectRight _ => Nat.log2 n + 6
  | .delitem k | .pop k _ => Nat.log2 n + 7 + 2 * r k
  | .index k .. => 2 * Nat.log2 n + 13 + 2 * r k
  | .irange .. => 2 * Nat.log2 n + 12
  | _ => 0

/-- Calls of the key function, if there is one. -/
def SDOp.keyCalls {κ ν : Type} : SDOp κ ν → Nat
  | .setitem .. | .setdefault .. | .delitem _ | .pop .. | .bisectLeft _ | .bisectRight _ | .index .. => 1
  | .irange .. => 2
  | _ => 0

/-- Nodes of the positional index. -/
def SDOp.nodes {κ ν : Type} (n : Nat) (r : κ → Nat) : SDOp κ ν → Nat
  | .setitem .. | .setdefault .. | .delitem _ | .pop .. => Nat.log2 n + 2
  | .peekitem _ | .keysAt _ | .itemsAt _ | .valuesAt _ | .bisectLeft _ | .bisectRight _ => Nat.log2 n + 1
  | .popitem _ | .viewDelInt _ => 2 * Nat.log2 n + 3
  | .index k .. => (Nat.log2 n + 1) * max 2 (r k)
  | _ => 0

/-- The calls that build the positional index if there is none. -/
def SDOp.indexes {κ ν : Type} : SDOp κ ν → Bool
  | .popitem _ | .viewDelInt _ | .peekitem _ | .keysAt _ | .itemsAt _ | .valuesAt _ | .bisectLeft _ | .bisectRight _
  | .index .. => true
  | _ => false

/-- Comparisons. -/
def SSOp.cmps {α : Type} (n : Nat) (r : α → Nat) : SSOp α → Nat
  | .add _ | .bisectLeft _ | .bisectRight _ => Nat.log2 n + 6
  | .discard v | .remove v => Nat.log2 n + 7 + 2 * r v
  | .index v .. => 2 * Nat.log2 n + 13 + 2 * r v
  | .irange .. => 2 * Nat.log2 n + 12
  | _ => 0

/-- Calls of the key function, if there is one. -/
def SSOp.keyCalls {α : Type} : SSOp α → Nat
  | .add _ | .discard _ | .remove _ | .bisectLeft _ | .bisectRight _ | .index .. => 1
  | .irange .. => 2
  | _ => 0

/-- Nodes of the positional index. -/
def SSOp.nodes {α : Type} (n : Nat) (r : α → Nat) : SSOp α → Nat
  | .add _ | .discard _ | .remove _ => Nat.log2 n + 2
  | .getInt _ | .bisectLeft _ | .bisectRight _ => Nat.log2 n + 1
  | .pop _ => 2 * Nat.log2 n + 3
  | .delInt _ => 3 * Nat.log2 n + 4
  | .index v .. => (Nat.log2 n + 1) * max 2 (r v)
  | _ => 0

/-- The calls that build the positional index if there is none. -/
def SSOp.indexes {α : Type} : SSOp α → Bool
  | .getInt _ | .pop _ | .delInt _ | .bisectLeft _ | .bisectRight _ | .index .. => true
  | _ => false

/-- The calls on a sorted dict that are settled by the built-in dict. -/
def SDOp.byHash {κ ν σ : Type} (eqv : κ → κ → Bool) (s : SD κ ν σ) : SDOp κ ν → Prop
  | .getitem _ | .get _ | .contains _ | .len => True
  | .setitem k _ | .setdefault k _ => SD.contains eqv k s = true
  | .delitem k | .pop k _ => SD.contains eqv k s = false
  | _ => False

/-- The calls on a sorted set that are settled by the built-in set. -/
def SSOp.byHash {τ α σ : Type} (S : SetOps τ α) (s : SS τ σ) : SSOp α → Prop
  | .contains _ | .len | .count _ | .isdisjoint _ | .issubset _ | .issuperset _ | .compare .. => True
  | .add v => SS.contains S v s = true
  | .discard v | .remove v => SS.contains S v s = false
  | _ => False

end Verif
