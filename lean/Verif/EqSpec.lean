import Verif.Spec
/-!
# Specification: values whose `==` does not follow from `<`

The values (or keys) are ordered by `<`, but `==` and `!=` are something else: identity, say, while `<` compares priorities.  They may also raise.
The calls that use them look at the following values only.
-/

namespace Verif.EqSpec
variable {α κ : Type}

/-! ## SortedList -/

section
variable (lt : α → α → Bool) (cmp : CmpOp → α → α → Except PyErr Bool)

/-- `v in l`: the first value that is not less than `v` decides. -/
def contains (v : α) : Py (List α) Bool := fun l =>
  match l.dropWhile (lt · v) with
  | [] => (.ok false, l)
  | x :: _ => (cmp .eq x v, l)

/-- `l.discard(v)`: the first value that is not less than `v` is removed, if it is equal to `v`. -/
def discard (v : α) : Py (List α) Unit := fun l =>
  match l.dropWhile (lt · v) with
  | [] => (.ok (), l)
  | x :: rest =>
    match cmp .eq x v with
    | .ok true => (.ok (), l.takeWhile (lt · v) ++ rest)
    | .ok false => (.ok (), l)
    | .error e => (.error e, l)

/-- `l.remove(v)`: likewise, but ValueError if nothing is removed. -/
def remove (v : α) : Py (List α) Unit := fun l =>
  match l.dropWhile (lt · v) with
  | [] => (.error .valueError, l)
  | x :: rest =>
    match cmp .eq x v with
    | .ok true => (.ok (), l.takeWhile (lt · v) ++ rest)
    | .ok false => (.error .valueError, l)
    | .error e => (.error e, l)

/-- `l.index(v, start, stop)`: ValueError if the window is empty, or if the first value that is not less than `v` is different from `v`; else the
least position in the window that is the position of that value, or of a value that `<` does not tell apart from `v`. -/
def index (v : α) (start stop : Option Int) : Py (List α) Int := fun l =>
  let lo := Spec.indexBound l.length 0 start
  let hi := min (Spec.indexBound l.length l.length stop) l.length
  if hi ≤ lo then (.error .valueError, l)
  else
    match l.dropWhile (lt · v) with
    | [] => (.error .valueError, l)
    | x :: _ =>
      match cmp .ne x v with
      | .error e => (.error e, l)
      | .ok true => (.error .valueError, l)
      | .ok false =>
        match (List.range l.length).find? fun (i : Nat) => decide (lo ≤ (i : Int)) && decide ((i : Int) < hi) &&
            (decide (i = (l.takeWhile (lt · v)).length) || l[i]?.any (equiv lt · v)) with
        | some i => (.ok (i : Int), l)
        | none => (.error .valueError, l)

/-- One call.  All others use `<` only, or compare whole sequences. -/
def step : Op α → Py (List α) (Out α)
  | .contains v => Spec.out .bool (contains lt cmp v)
  | .discard v => Spec.out (fun _ => .none) (discard lt cmp v)
  | .remove v => Spec.out (fun _ => .none) (remove lt cmp v)
  | .index v start stop => Spec.out .int (index lt cmp v start stop)
  | op => Spec.step { lt := lt, same := equiv lt, cmp := cmp } op

end

/-! ## SortedKeyList -/

/-- Go through the values until one is `ne`; the position of the first that is `eq`. -/
def seek (ne eq : α → Except PyErr Bool) : List α → Except PyErr (Option Nat)
  | [] => .ok none
  | x :: xs =>
    match ne x with
    | .error e => .error e
    | .ok true => .ok none
    | .ok false =>
      match eq x with
      | .error e => .error e
      | .ok true => .ok (some 0)
      | .ok false =>
        match seek ne eq xs with
        | .error e => .error e
        | .ok r => .ok (r.map (· + 1))

/-- Go through the values until one is `ne`; the number of those that are `eq`. -/
def tally (ne eq : α → Except PyErr Bool) : List α → Except PyErr Nat
  | [] => .ok 0
  | x :: xs =>
    match ne x with
    | .error e => .error e
    | .ok true => .ok 0
    | .ok false =>
      match eq x with
      | .error e => .error e
      | .ok b =>
        match tally ne eq xs with
        | .error e => .error e
        | .ok n => .ok (n + if b then 1 else 0)

/-- Go through the values, whose positions are `i`, `i + 1`, ..., until one is `ne`; the first position in the window whose value is `eq`.
ValueError if there is none; nothing is looked at after a value that is `eq` and lies beyond the window. -/
def locate (ne eq : α → Except PyErr Bool) (lo hi : Int) : Nat → List α → Except PyErr Int
  | _, [] => .error .valueError
  | i, x :: xs =>
    match ne x with
    | .error e => .error e
    | .ok true => .error .valueError
    | .ok false =>
      match eq x with
      | .error e => .error e
      | .ok false => locate ne eq lo hi (i + 1) xs
      | .ok true =>
        if hi ≤ i then .error .valueError
        else if lo ≤ i then .ok i
        else locate ne eq lo hi (i + 1) xs

section
variable (key : α → κ) (klt : κ → κ → Bool) (kcmp : CmpOp → κ → κ → Except PyErr Bool) (vcmp : CmpOp → α → α → Except PyErr Bool)

/-- Where `v` is found: among the values from the first whose key is not less than that of `v`, up to the first whose key is `!=` to it, the
first that is `==` to `v`. -/
def keyFind (v : α) (l : List α) : Except PyErr (Option Nat) :=
  match seek (fun x => kcmp .ne (key x) (key v)) (vcmp .eq · v) (l.dropWhile fun x => klt (key x) (key v)) with
  | .error e => .error e
  | .ok r => .ok (r.map (· + (l.takeWhile fun x => klt (key x) (key v)).length))

def keyContains (v : α) : Py (List α) Bool := fun l =>
  match keyFind key klt kcmp vcmp v l with
  | .error e => (.error e, l)
  | .ok r => (.ok r.isSome, l)

def keyDiscard (v : α) : Py (List α) Unit := fun l =>
  match keyFind key klt kcmp vcmp v l with
  | .error e => (.error e, l)
  | .ok none => (.ok (), l)
  | .ok (some i) => (.ok (), l.eraseIdx i)

def keyRemove (v : α) : Py (List α) Unit := fun l =>
  match keyFind key klt kcmp vcmp v l with
  | .error e => (.error e, l)
  | .ok none => (.error .valueError, l)
  | .ok (some i) => (.ok (), l.eraseIdx i)

/-- `l.count(v)`: of these values, the number of those that are `==` to `v`. -/
def keyCount (v : α) : Py (List α) Int := fun l =>
  match tally (fun x => kcmp .ne (key x) (key v)) (vcmp .eq · v) (l.dropWhile fun x => klt (key x) (key v)) with
  | .error e => (.error e, l)
  | .ok n => (.ok n, l)

/-- `l.index(v, start, stop)` -/
def keyIndex (v : α) (start stop : Option Int) : Py (List α) Int := fun l =>
  let lo := Spec.indexBound l.length 0 start
  let hi := min (Spec.indexBound l.length l.length stop) l.length
  if hi ≤ lo then (.error .valueError, l)
  else (locate (fun x => kcmp .ne (key x) (key v)) (vcmp .eq · v) lo hi (l.takeWhile fun x => klt (key x) (key v)).length
    (l.dropWhile fun x => klt (key x) (key v)), l)

/-- One call.  All others use `<` only, or compare whole sequences. -/
def kstep : KOp α κ → Py (List α) (Out α)
  | .op (.contains v) => Spec.out .bool (keyContains key klt kcmp vcmp v)
  | .op (.discard v) => Spec.out (fun _ => .none) (keyDiscard key klt kcmp vcmp v)
  | .op (.remove v) => Spec.out (fun _ => .none) (keyRemove key klt kcmp vcmp v)
  | .op (.count v) => Spec.out .int (keyCount key klt kcmp vcmp v)
  | .op (.index v start stop) => Spec.out .int (keyIndex key klt kcmp vcmp v start stop)
  | op => Spec.kstep key klt { lt := fun a b => klt (key a) (key b), same := fun _ _ => false, cmp := vcmp } op

end
end Verif.EqSpec

