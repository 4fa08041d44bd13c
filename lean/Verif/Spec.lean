import Verif.Op
/-!
# Specification: a plain Python list that is kept sorted

Every call is described by what it does to an ordinary list.  Nothing here mentions the
sublists, maxima or positional index of the implementation.
-/

namespace Verif

/-! ## Orders -/

/-- `<` is a strict weak order: what the documentation calls a total ordering of the values,
where different values may compare equal (`1 == 1.0`). -/
structure StrictWeakOrder {α : Type} (lt : α → α → Bool) : Prop where
  asymm : ∀ a b, lt a b = true → lt b a = false
  negtrans : ∀ a b c, lt a b = false → lt b c = false → lt a c = false

/-- Two values that `<` does not tell apart. -/
def equiv {α : Type} (lt : α → α → Bool) (a b : α) : Bool := !lt a b && !lt b a

/-- In nondecreasing order. -/
def Sorted {α : Type} (lt : α → α → Bool) (l : List α) : Prop :=
  l.Pairwise fun a b => lt b a = false

/-- `ys` is the stable sort of `xs`: a rearrangement, in nondecreasing order, in which equivalent
values keep their relative order. -/
structure IsStableSort {α : Type} (lt : α → α → Bool) (xs ys : List α) : Prop where
  perm : ys.Perm xs
  sorted : Sorted lt ys
  stable : ∀ v, ys.filter (equiv lt v) = xs.filter (equiv lt v)

/-- The operator given by a strict order: `a == b` iff neither is less, `a <= b` iff not `b < a`. -/
def CmpOp.ofLt {α : Type} (lt : α → α → Bool) (op : CmpOp) (a b : α) : Bool :=
  match op with
  | .eq => equiv lt a b
  | .ne => !equiv lt a b
  | .lt => lt a b
  | .gt => lt b a
  | .le => !lt b a
  | .ge => !lt a b

/-! ## Sequences compared lexicographically -/

/-- Same length, equal values. -/
inductive SeqEq {α : Type} (lt : α → α → Bool) : List α → List α → Prop
  | nil : SeqEq lt [] []
  | cons {a b as bs} : equiv lt a b = true → SeqEq lt as bs → SeqEq lt (a :: as) (b :: bs)

/-- Lexicographically smaller. -/
inductive SeqLt {α : Type} (lt : α → α → Bool) : List α → List α → Prop
  | nil {b bs} : SeqLt lt [] (b :: bs)
  | head {a b as bs} : lt a b = true → SeqLt lt (a :: as) (b :: bs)
  | tail {a b as bs} : equiv lt a b = true → SeqLt lt as bs → SeqLt lt (a :: as) (b :: bs)

/-- The six comparisons of sequences. -/
def SeqCmp {α : Type} (lt : α → α → Bool) (op : CmpOp) (l r : List α) : Prop :=
  match op with
  | .eq => SeqEq lt l r
  | .ne => ¬ SeqEq lt l r
  | .lt => SeqLt lt l r
  | .gt => SeqLt lt r l
  | .le => SeqLt lt l r ∨ SeqEq lt l r
  | .ge => SeqLt lt r l ∨ SeqEq lt l r

namespace Spec

/-- What the specification of a sorted list depends on. -/
structure Order (α : Type) where
  /-- the order the list is kept in (on values, or on their keys) -/
  lt : α → α → Bool
  /-- `same x v`: the stored value `x` is one that `remove(v)` may remove -/
  same : α → α → Bool
  /-- the comparison operators of values, used to compare whole sequences -/
  cmp : CmpOp → α → α → Except PyErr Bool

/-- Sorting values directly. -/
def Order.ofValues {α : Type} (lt : α → α → Bool) : Order α :=
  { lt := lt, same := equiv lt, cmp := fun op a b => .ok (op.ofLt lt a b) }

/-- Sorting by a key: the same value means equal and with the same key. -/
def Order.ofKey {α κ : Type} (key : α → κ) (klt : κ → κ → Bool) (veq : α → α → Bool)
    (cmp : CmpOp → α → α → Except PyErr Bool) : Order α :=
  { lt := fun a b => klt (key a) (key b)
    same := fun x v => equiv klt (key x) (key v) && veq x v
    cmp := cmp }

variable {α : Type} (O : Order α)

/-- Insert `v` after all values that are not greater. -/
def insert (l : List α) (v : α) : List α :=
  l.takeWhile (fun x => !O.lt v x) ++ v :: l.dropWhile (fun x => !O.lt v x)

/-- Insert all values, one after the other. -/
def insertAll (l : List α) (vs : List α) : List α := vs.foldl (insert O) l

def add (v : α) : Py (List α) Unit := fun l => (.ok (), insert O l v)

def update (xs : List α) : Py (List α) Unit := fun l => (.ok (), insertAll O l xs)

def clear : Py (List α) Unit := fun _ => (.ok (), [])

def contains (v : α) : Py (List α) Bool := fun l => (.ok (l.any (O.same · v)), l)

/-- Drop the first value that is `v`, if any. -/
def discard (v : α) : Py (List α) Unit := fun l => (.ok (), l.eraseP (O.same · v))

def remove (v : α) : Py (List α) Unit := fun l =>
  if l.any (O.same · v) then (.ok (), l.eraseP (O.same · v)) else (.error .valueError, l)

/-- The position that the Python subscript `i` denotes in a list of the given length. -/
def position (len : Nat) (i : Int) : Option Nat :=
  if 0 ≤ i ∧ i < len then some i.toNat
  else if -(len : Int) ≤ i ∧ i < 0 then some (i + len).toNat
  else none

/-- `l[i]` -/
def getInt (i : Int) : Py (List α) α := fun l =>
  match (position l.length i).bind (l[·]?) with
  | some v => (.ok v, l)
  | none => (.error .indexError, l)

/-- The positions that a slice denotes, in the order of the slice. -/
def slicePositions (sl : PySlice) (len : Nat) : Except PyErr (List Nat) :=
  match sl.indices len with
  | .error e => .error e
  | .ok (start, stop, step) => .ok ((pyRange start stop step).map Int.toNat)

/-- `l[a:b:c]` -/
def getSlice (sl : PySlice) : Py (List α) (List α) := fun l =>
  match slicePositions sl l.length with
  | .error e => (.error e, l)
  | .ok ps => (.ok (ps.filterMap (l[·]?)), l)

/-- `del l[i]` -/
def delInt (i : Int) : Py (List α) Unit := fun l =>
  match position l.length i with
  | some p => (.ok (), l.eraseIdx p)
  | none => (.error .indexError, l)

/-- What is left of `l` when the given positions are deleted. -/
def deletePositions (ps : List Nat) (l : List α) : List α :=
  (l.zipIdx.filter fun x => !ps.contains x.2).map Prod.fst

/-- `del l[a:b:c]` -/
def delSlice (sl : PySlice) : Py (List α) Unit := fun l =>
  match slicePositions sl l.length with
  | .error e => (.error e, l)
  | .ok ps => (.ok (), deletePositions ps l)

def pop (i : Int) : Py (List α) α := fun l =>
  match position l.length i with
  | none => (.error .indexError, l)
  | some p =>
    match l[p]? with
    | some v => (.ok v, l.eraseIdx p)
    | none => (.error .indexError, l)

/-- The number of values less than `v`. -/
def bisectLeft (v : α) : Py (List α) Nat := fun l => (.ok (l.countP (O.lt · v)), l)

/-- The number of values not greater than `v`. -/
def bisectRight (v : α) : Py (List α) Nat := fun l => (.ok (l.countP (fun x => !O.lt v x)), l)

def count (v : α) : Py (List α) Int := fun l => (.ok (l.countP (O.same · v)), l)

/-- A bound of `index`: absent, or counted from the end if negative (and then at least 0). -/
def indexBound (len : Nat) (default : Int) : Option Int → Int
  | none => default
  | some i => if i < 0 then max (i + len) 0 else i

/-- The least position in the window whose value is `v`. -/
def index (v : α) (start stop : Option Int) : Py (List α) Int := fun l =>
  let lo := indexBound l.length 0 start
  let hi := indexBound l.length l.length stop
  match (List.range l.length).find? fun (i : Nat) =>
      decide (lo ≤ (i : Int)) && decide ((i : Int) < hi) && (l[i]?.any (O.same · v)) with
  | some i => (.ok (i : Int), l)
  | none => (.error .valueError, l)

/-- `x` respects the lower bound. -/
def above (lo : Option α) (inclusive : Bool) (x : α) : Bool :=
  match lo with
  | none => true
  | some m => if inclusive then !O.lt x m else O.lt m x

/-- `x` respects the upper bound. -/
def below (hi : Option α) (inclusive : Bool) (x : α) : Bool :=
  match hi with
  | none => true
  | some m => if inclusive then !O.lt m x else O.lt x m

def reverseIf (b : Bool) (l : List α) : List α := if b then l.reverse else l

/-- The values between the bounds. -/
def irange (lo hi : Option α) (incMin incMax reverse : Bool) : Py (List α) (List α) := fun l =>
  (.ok (reverseIf reverse (l.filter fun x => above O lo incMin x && below O hi incMax x)), l)

/-- `l[start:stop]`, reversed if asked. -/
def islice (start stop : Option Int) (reverse : Bool) : Py (List α) (List α) := fun l =>
  match (getSlice { start := start, stop := stop } l).1 with
  | .ok r => (.ok (reverseIf reverse r), l)
  | .error e => (.error e, l)

def iter : Py (List α) (List α) := fun l => (.ok l, l)

def reversed : Py (List α) (List α) := fun l => (.ok l.reverse, l)

def len : Py (List α) Nat := fun l => (.ok l.length, l)

/-- The comparison of two Python lists (`list_richcompare` of CPython) once the lengths are known not to
settle the matter: the first position with different values decides, else the lengths. -/
def compareFrom (cmp : CmpOp → α → α → Except PyErr Bool) (op : CmpOp) (n m : Nat) :
    List (α × α) → Except PyErr Bool
  | [] => .ok (op.onNat n m)
  | (a, b) :: rest =>
    match cmp .ne a b with
    | .error e => .error e
    | .ok true => cmp op a b
    | .ok false => compareFrom cmp op n m rest

/-- `l op other` for Python lists. -/
def compare (op : CmpOp) (other : List α) : Py (List α) Bool := fun l =>
  if l.length ≠ other.length ∧ op = .eq then (.ok false, l)
  else if l.length ≠ other.length ∧ op = .ne then (.ok true, l)
  else (compareFrom O.cmp op l.length other.length (l.zip other), l)

/-- `sl *= n` -/
def imul (n : Int) : Py (List α) Unit := fun l => (.ok (), insertAll O [] (repeatList l n))

/-- The load factor does not exist for a plain list. -/
def reset (_load : Nat) : Py (List α) Unit := fun l => (.ok (), l)

def copy : Py (List α) (List α) := fun l => (.ok l, l)

/-- `l + xs` or `xs + l`, sorted. -/
def concat (xs : List α) : Py (List α) (List α) := fun l => (.ok (insertAll O l xs), l)

/-- `l * n`, sorted. -/
def mul (n : Int) : Py (List α) (List α) := fun l => (.ok (insertAll O [] (repeatList l n)), l)

def unsupported (_ : Unsupported α) : Py (List α) Unit := fun l => (.error .notImplementedError, l)

/-- Wrap the result of a call. -/
def out {σ β : Type} (f : β → Out α) (m : Py σ β) : Py σ (Out α) := fun s =>
  match m s with
  | (.ok b, s') => (.ok (f b), s')
  | (.error e, s') => (.error e, s')

/-- One call on the plain list. -/
def step : Op α → Py (List α) (Out α)
  | .add v => out (fun _ => .none) (add O v)
  | .update xs => out (fun _ => .none) (update O xs)
  | .clear => out (fun _ => .none) clear
  | .contains v => out .bool (contains O v)
  | .discard v => out (fun _ => .none) (discard O v)
  | .remove v => out (fun _ => .none) (remove O v)
  | .getInt i => out .val (getInt i)
  | .getSlice sl => out .vals (getSlice sl)
  | .delInt i => out (fun _ => .none) (delInt i)
  | .delSlice sl => out (fun _ => .none) (delSlice sl)
  | .pop i => out .val (pop i)
  | .bisectLeft v => out (fun (n : Nat) => .int n) (bisectLeft O v)
  | .bisectRight v => out (fun (n : Nat) => .int n) (bisectRight O v)
  | .count v => out .int (count O v)
  | .index v start stop => out .int (index O v start stop)
  | .irange lo hi incMin incMax reverse => out .vals (irange O lo hi incMin incMax reverse)
  | .islice start stop reverse => out .vals (islice start stop reverse)
  | .iter => out .vals iter
  | .reversed => out .vals reversed
  | .len => out (fun (n : Nat) => .int n) len
  | .compare op other => out .bool (compare O op other)
  | .iadd xs => out (fun _ => .none) (update O xs)
  | .imul n => out (fun _ => .none) (imul O n)
  | .reset load => out (fun _ => .none) (reset load)
  | .copy => out .vals copy
  | .concat xs => out .vals (concat O xs)
  | .mul n => out .vals (mul O n)
  | .unsupported u => out (fun _ => .none) (unsupported u)

/-! ## Searching by key -/

section Key
variable {κ : Type} (key : α → κ) (klt : κ → κ → Bool)

/-- The number of values whose key is less than `k`. -/
def bisectKeyLeft (k : κ) : Py (List α) Nat := fun l => (.ok (l.countP fun x => klt (key x) k), l)

/-- The number of values whose key is not greater than `k`. -/
def bisectKeyRight (k : κ) : Py (List α) Nat := fun l => (.ok (l.countP fun x => !klt k (key x)), l)

def aboveKey (lo : Option κ) (inclusive : Bool) (k : κ) : Bool :=
  match lo with
  | none => true
  | some m => if inclusive then !klt k m else klt m k

def belowKey (hi : Option κ) (inclusive : Bool) (k : κ) : Bool :=
  match hi with
  | none => true
  | some m => if inclusive then !klt m k else klt k m

/-- The values whose key lies between the bounds. -/
def irangeKey (lo hi : Option κ) (incMin incMax reverse : Bool) : Py (List α) (List α) := fun l =>
  (.ok (reverseIf reverse
    (l.filter fun x => aboveKey klt lo incMin (key x) && belowKey klt hi incMax (key x))), l)

/-- One call on the plain list sorted by key. -/
def kstep (O : Order α) : KOp α κ → Py (List α) (Out α)
  | .op o => step O o
  | .bisectKeyLeft k => out (fun (n : Nat) => .int n) (bisectKeyLeft key klt k)
  | .bisectKeyRight k => out (fun (n : Nat) => .int n) (bisectKeyRight key klt k)
  | .irangeKey lo hi incMin incMax reverse => out .vals (irangeKey key klt lo hi incMin incMax reverse)

end Key

end Spec
end Verif
