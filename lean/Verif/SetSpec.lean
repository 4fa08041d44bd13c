import Verif.Spec
/-!
# Specification of SortedSet: a plain sorted list without repetitions

For values that are equal only if they are identical (`DecidableEq`), in an order that tells different values apart.
Nothing here mentions the built-in set or the sorted list of the implementation.
-/

namespace Verif
namespace SetSpec
variable {α : Type} [DecidableEq α] (O : Spec.Order α)

/-- Insert `v` at its place unless it is there. -/
def insertNew (l : List α) (v : α) : List α := if v ∈ l then l else Spec.insert O l v

/-- Insert all values, one after the other. -/
def insertAll (l xs : List α) : List α := xs.foldl (insertNew O) l

def add (v : α) : Py (List α) Unit := fun l => (.ok (), insertNew O l v)

def discard (v : α) : Py (List α) Unit := fun l => (.ok (), l.erase v)

def remove (v : α) : Py (List α) Unit := fun l =>
  if v ∈ l then (.ok (), l.erase v) else (.error .keyError, l)

def union (xss : List (List α)) (l : List α) : List α := insertAll O l xss.flatten

def difference (xss : List (List α)) (l : List α) : List α := l.filter fun x => x ∉ xss.flatten

def intersection (xss : List (List α)) (l : List α) : List α := l.filter fun x => xss.all fun xs => x ∈ xs

def symmetricDifference (xs : List α) (l : List α) : List α :=
  insertAll O (l.filter fun x => x ∉ xs) (xs.filter fun x => x ∉ l)

def subset (l r : List α) : Bool := l.all fun x => x ∈ r

def compare (op : CmpOp) (r l : List α) : Bool :=
  match op with
  | .eq => subset l r && subset r l
  | .ne => !(subset l r && subset r l)
  | .le => subset l r
  | .ge => subset r l
  | .lt => subset l r && !subset r l
  | .gt => subset r l && !subset l r

/-- A call that returns `f l` and changes nothing. -/
def query {β : Type} (f : List α → β) : Py (List α) β := fun l => (.ok (f l), l)

/-- A call that replaces the list. -/
def assign (f : List α → List α) : Py (List α) Unit := fun l => (.ok (), f l)

/-- One call. -/
def step : SSOp α → Py (List α) (Out α)
  | .add v => Spec.out (fun _ => .none) (add O v)
  | .discard v => Spec.out (fun _ => .none) (discard v)
  | .remove v => Spec.out (fun _ => .none) (remove v)
  | .pop i => Spec.out .val (Spec.pop i)
  | .delInt i => Spec.out (fun _ => .none) (Spec.delInt i)
  | .delSlice sl => Spec.out (fun _ => .none) (Spec.delSlice sl)
  | .clear => Spec.out (fun _ => .none) Spec.clear
  | .update xss => Spec.out (fun _ => .none) (assign (union O xss))
  | .differenceUpdate xss => Spec.out (fun _ => .none) (assign (difference xss))
  | .intersectionUpdate xss => Spec.out (fun _ => .none) (assign (intersection xss))
  | .symmetricDifferenceUpdate xs => Spec.out (fun _ => .none) (assign (symmetricDifference O xs))
  | .getInt i => Spec.out .val (Spec.getInt i)
  | .getSlice sl => Spec.out .vals (Spec.getSlice sl)
  | .bisectLeft v => Spec.out (fun (n : Nat) => .int n) (Spec.bisectLeft O v)
  | .bisectRight v => Spec.out (fun (n : Nat) => .int n) (Spec.bisectRight O v)
  | .index v a b => Spec.out .int (Spec.index O v a b)
  | .irange lo hi a b r => Spec.out .vals (Spec.irange O lo hi a b r)
  | .islice a b r => Spec.out .vals (Spec.islice a b r)
  | .reset load => Spec.out (fun _ => .none) (Spec.reset load)
  | .contains v => Spec.out .bool (query fun l => decide (v ∈ l))
  | .len => Spec.out (fun (n : Nat) => .int n) (query List.length)
  | .iter => Spec.out .vals (query id)
  | .reversed => Spec.out .vals (query List.reverse)
  | .count v => Spec.out (fun (n : Nat) => .int n) (query fun l => l.count v)
  | .isdisjoint xs => Spec.out .bool (query fun l => l.all fun x => x ∉ xs)
  | .issubset xs => Spec.out .bool (query fun l => subset l xs)
  | .issuperset xs => Spec.out .bool (query fun l => subset xs l)
  | .compare op values => Spec.out .bool (query (compare op values))
  | .copy => Spec.out .vals (query id)
  | .union xss => Spec.out .vals (query (union O xss))
  | .intersection xss => Spec.out .vals (query (intersection xss))
  | .difference xss => Spec.out .vals (query (difference xss))
  | .symmetricDifference xs => Spec.out .vals (query (symmetricDifference O xs))

end SetSpec
end Verif
