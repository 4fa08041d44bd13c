import Verif.Model.API
/-!
# Threads that query one object: which queries need no positions
-/

namespace Verif

/-- Membership, iteration, ranges by value, length, comparison, copies: the queries that do not count positions. -/
def Op.plain {α : Type} : Op α → Bool
  | .contains _ | .irange .. | .iter | .reversed | .len | .compare .. | .copy | .concat _ | .mul _ => true
  | _ => false

/-- The same for a SortedKeyList; its `count` needs no positions either. -/
def KOp.plain {α κ : Type} : KOp α κ → Bool
  | .op (.count _) => true
  | .op o => o.plain
  | .irangeKey .. => true
  | _ => false

/-- What a thread may do with a list that other threads query: add and remove values, clear the list; and of the queries membership, iteration, ranges by value
and copies, which need neither positions nor the length. -/
def Op.byValue {α : Type} : Op α → Bool
  | .add _ | .discard _ | .remove _ | .clear | .contains _ | .irange .. | .iter | .reversed | .copy | .concat _ | .mul _ => true
  | _ => false

/-- The same for a SortedKeyList. -/
def KOp.byValue {α κ : Type} : KOp α κ → Bool
  | .op (.count _) => true
  | .op o => o.byValue
  | .irangeKey .. => true
  | _ => false

/-- The same for a SortedSet: all queries but indexing, slicing, `bisect_left`, `bisect_right`, `index` and `islice`. -/
def SSOp.plain {α : Type} : SSOp α → Bool
  | .irange .. | .contains _ | .len | .iter | .reversed | .count _ | .isdisjoint _ | .issubset _ | .issuperset _ | .compare .. | .copy | .union _
  | .intersection _ | .difference _ | .symmetricDifference _ => true
  | _ => false

/-- The same for a SortedDict: all queries but `peekitem`, indexing and slicing of the views, `bisect_left`, `bisect_right`, `index` and `islice`. -/
def SDOp.plain {κ ν : Type} : SDOp κ ν → Bool
  | .getitem _ | .get _ | .contains _ | .len | .iter | .reversed | .items | .values | .irange .. | .copy | .or _ | .ror _ => true
  | _ => false

/-- The positional index is there. -/
def ListClass.Indexed {α : Type} : (c : ListClass α) → c.State → Prop
  | .plain _ => fun (s : St α α) => s.index ≠ []
  | .keyed (κ := κ) _ => fun (s : St α κ) => s.index ≠ []

end Verif
