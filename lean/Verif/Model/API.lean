import Verif.Model.SortedKeyList
import Verif.Spec
/-!
# The two list classes behind one interface, and histories of calls

SortedSet and SortedDict hold a SortedList or a SortedKeyList (`SortedList.__new__`,
sortedlist.py:118-146, chooses by `key`); they are modelled over this interface.
-/

namespace Verif

/-- The methods of a sorted list object of state type `σ`.  (sortedlist.py:30-1586, 1594-2529: the public methods, by class.) -/
structure ListAPI (σ α : Type) where
  new : Option (List α) → Except PyErr σ
  iter : σ → List α
  reversed : σ → List α
  len : σ → Nat
  add : α → Py σ Unit
  update : List α → Py σ Unit
  clear : Py σ Unit
  contains : α → Py σ Bool
  discard : α → Py σ Unit
  remove : α → Py σ Unit
  getInt : Int → Py σ α
  getSlice : PySlice → Py σ (List α)
  delInt : Int → Py σ Unit
  delSlice : PySlice → Py σ Unit
  pop : Int → Py σ α
  bisectLeft : α → Py σ Nat
  bisectRight : α → Py σ Nat
  count : α → Py σ Int
  index : α → Option Int → Option Int → Py σ Int
  irange : Option α → Option α → Bool → Bool → Bool → Py σ (List α)
  islice : Option Int → Option Int → Bool → Py σ (List α)
  compare : CmpOp → List α → σ → Except PyErr Bool
  iadd : List α → Py σ Unit
  imul : Int → Py σ Unit
  reset : Nat → Py σ Unit
  copy : σ → Except PyErr σ
  concat : List α → σ → Except PyErr σ
  mul : Int → σ → Except PyErr σ
  reduceArgs : σ → List α
  unsupported : Unsupported α → Py σ Unit
  /-- the calls of the methods that exist only with a key function: `bisect_key_left`, `bisect_key_right`, `irange_key` -/
  keyCall : Py σ (Out α) → Prop

/-- A SortedList (sortedlist.py:36-1586). -/
def SL.api {α : Type} (E : Env α) : ListAPI (St α α) α where
  new := SL.new E
  iter := Core.iter
  reversed := Core.reversed
  len := Core.length
  add := SL.add E
  update := SL.update E
  clear := SL.clear
  contains := SL.contains E
  discard := SL.discard E
  remove := SL.remove E
  getInt := Core.getInt E.ilog2
  getSlice := Core.getSlice E.ilog2
  delInt := Core.delInt (SL.methods E)
  delSlice := Core.delSlice (SL.methods E)
  pop := Core.pop (SL.methods E)
  bisectLeft := SL.bisect_left E
  bisectRight := SL.bisect_right E
  count := SL.count E
  index := SL.index E
  irange := SL.irange E
  islice := Core.islice E.ilog2
  compare := Core.compare E.cmp
  iadd := Core.iadd (SL.methods E)
  imul := Core.imul (SL.methods E)
  reset := Core.reset (SL.methods E)
  copy := SL.copy E
  concat := SL.concat E
  mul := SL.mul E
  reduceArgs := SL.reduceArgs
  unsupported := Core.unsupported
  keyCall := fun _ => False

/-- A SortedKeyList (sortedlist.py:1594-2526). -/
def SKL.api {α κ : Type} (K : KEnv α κ) : ListAPI (St α κ) α where
  new := SKL.new K
  iter := Core.iter
  reversed := Core.reversed
  len := Core.length
  add := SKL.add K
  update := SKL.update K
  clear := SKL.clear
  contains := SKL.contains K
  discard := SKL.discard K
  remove := SKL.remove K
  getInt := Core.getInt K.ilog2
  getSlice := Core.getSlice K.ilog2
  delInt := Core.delInt (SKL.methods K)
  delSlice := Core.delSlice (SKL.methods K)
  pop := Core.pop (SKL.methods K)
  bisectLeft := SKL.bisect_left K
  bisectRight := SKL.bisect_right K
  count := fun v => do
    let n ← SKL.count K v
    pure (n : Int)
  index := SKL.index K
  irange := SKL.irange K
  islice := Core.islice K.ilog2
  compare := Core.compare K.vcmp
  iadd := Core.iadd (SKL.methods K)
  imul := Core.imul (SKL.methods K)
  reset := Core.reset (SKL.methods K)
  copy := SKL.copy K
  concat := SKL.concat K
  mul := SKL.mul K
  reduceArgs := SKL.reduceArgs
  unsupported := Core.unsupported
  keyCall := fun m => (∃ k, m = Spec.out (fun (n : Nat) => .int n) (SKL.bisect_key_left K k)) ∨
    (∃ k, m = Spec.out (fun (n : Nat) => .int n) (SKL.bisect_key_right K k)) ∨
    ∃ lo hi incMin incMax reverse, m = Spec.out .vals (SKL.irange_key K lo hi incMin incMax reverse)

namespace ListAPI
variable {σ α : Type} (L : ListAPI σ α)

/-- A call that only reads the object.  (Scaffolding of the model: no code of /repo.) -/
def read {β : Type} (f : σ → Except PyErr β) : Py σ β := fun s => (f s, s)

/-- The values of a newly created object.  (Scaffolding of the model: no code of /repo.) -/
def valuesOf (f : σ → Except PyErr σ) : Py σ (List α) := fun s =>
  match f s with
  | .ok s' => (.ok (L.iter s'), s)
  | .error e => (.error e, s)

/-- One call of the API.  (Dispatch of the model: each call goes to the definition of its method, which cites its lines.) -/
def step : Op α → Py σ (Out α)
  | .add v => Spec.out (fun _ => .none) (L.add v)
  | .update xs => Spec.out (fun _ => .none) (L.update xs)
  | .clear => Spec.out (fun _ => .none) L.clear
  | .contains v => Spec.out .bool (L.contains v)
  | .discard v => Spec.out (fun _ => .none) (L.discard v)
  | .remove v => Spec.out (fun _ => .none) (L.remove v)
  | .getInt i => Spec.out .val (L.getInt i)
  | .getSlice sl => Spec.out .vals (L.getSlice sl)
  | .delInt i => Spec.out (fun _ => .none) (L.delInt i)
  | .delSlice sl => Spec.out (fun _ => .none) (L.delSlice sl)
  | .pop i => Spec.out .val (L.pop i)
  | .bisectLeft v => Spec.out (fun (n : Nat) => .int n) (L.bisectLeft v)
  | .bisectRight v => Spec.out (fun (n : Nat) => .int n) (L.bisectRight v)
  | .count v => Spec.out .int (L.count v)
  | .index v start stop => Spec.out .int (L.index v start stop)
  | .irange lo hi incMin incMax reverse => Spec.out .vals (L.irange lo hi incMin incMax reverse)
  | .islice start stop reverse => Spec.out .vals (L.islice start stop reverse)
  | .iter => Spec.out .vals (read fun s => .ok (L.iter s))
  | .reversed => Spec.out .vals (read fun s => .ok (L.reversed s))
  | .len => Spec.out (fun (n : Nat) => .int n) (read fun s => .ok (L.len s))
  | .compare op other => Spec.out .bool (read (L.compare op other))
  | .iadd xs => Spec.out (fun _ => .none) (L.iadd xs)
  | .imul n => Spec.out (fun _ => .none) (L.imul n)
  | .reset load => Spec.out (fun _ => .none) (L.reset load)
  | .copy => Spec.out .vals (L.valuesOf L.copy)
  | .concat xs => Spec.out .vals (L.valuesOf (L.concat xs))
  | .mul n => Spec.out .vals (L.valuesOf (L.mul n))
  | .unsupported u => Spec.out (fun _ => .none) (L.unsupported u)

/-- The states an object can reach: construct it from an iterable, then call methods with valid arguments,
catching exceptions.  (Scaffolding of the model: no code of /repo.) -/
inductive Reachable : σ → Prop where
  | new {xs s} : L.new xs = .ok s → Reachable s
  | step {s} (op : Op α) : op.Valid → Reachable s → Reachable (L.step op s).2

end ListAPI

/-- One call on a SortedKeyList, searches by key included.
(Dispatch of the model: each call goes to the definition of its method, which cites its lines.) -/
def SKL.kstep {α κ : Type} (K : KEnv α κ) : KOp α κ → Py (St α κ) (Out α)
  | .op o => (SKL.api K).step o
  | .bisectKeyLeft k => Spec.out (fun (n : Nat) => .int n) (SKL.bisect_key_left K k)
  | .bisectKeyRight k => Spec.out (fun (n : Nat) => .int n) (SKL.bisect_key_right K k)
  | .irangeKey lo hi incMin incMax reverse => Spec.out .vals (SKL.irange_key K lo hi incMin incMax reverse)

/-- The states a SortedKeyList can reach: construct it from an iterable, then call methods with valid arguments, catching
exceptions.  (Scaffolding of the model: no code of /repo.) -/
inductive SKL.Reachable {α κ : Type} (K : KEnv α κ) : St α κ → Prop where
  | new {xs s} : SKL.new K xs = .ok s → SKL.Reachable K s
  | step {s} (op : KOp α κ) : op.Valid → SKL.Reachable K s → SKL.Reachable K (SKL.kstep K op s).2

/-! ## Well-behaved environments -/

/-- Comparisons do not raise and come from a strict weak order; `sorted` is the stable sort; `int(log(n, 2))` is not too
small (it may be too large by rounding: `2**(int(log(n, 2)) + 1)` exceeds `n`).  (Scaffolding of the model: no code of /repo.) -/
structure Env.Lawful {α : Type} (E : Env α) (lt : α → α → Bool) : Prop where
  order : StrictWeakOrder lt
  cmp : ∀ op a b, E.cmp op a b = .ok (op.ofLt lt a b)
  sorted : ∀ xs, ∃ ys, E.sorted xs = .ok ys ∧ IsStableSort lt xs ys
  ilog2 : ∀ n, 1 ≤ n → n < 2 ^ (E.ilog2 n + 1)

/-- The key function and the comparisons of keys do not raise, keys are ordered by a strict weak order, `==` of values
does not raise and gives `veq`, and `!=` is its negation; `sorted` sorts stably by key.
Nothing is assumed about the other comparison operators of values.  (Scaffolding of the model: no code of /repo.) -/
structure KEnv.Lawful {α κ : Type} (K : KEnv α κ) (key : α → κ) (klt : κ → κ → Bool)
    (veq : α → α → Bool) : Prop where
  order : StrictWeakOrder klt
  key_ok : ∀ a, K.key a = .ok (key a)
  kcmp_ok : ∀ op a b, K.kcmp op a b = .ok (op.ofLt klt a b)
  veq_ok : ∀ a b, K.vcmp .eq a b = .ok (veq a b)
  vne_ok : ∀ a b, K.vcmp .ne a b = .ok (!veq a b)
  sorted : ∀ xs, ∃ ys, K.sortedByKey xs = .ok ys ∧ IsStableSort (fun a b => klt (key a) (key b)) xs ys
  ilog2 : ∀ n, 1 ≤ n → n < 2 ^ (K.ilog2 n + 1)

/-! ## The class that `SortedList(iterable, key)` creates -/

/-- `SortedList.__new__` (sortedlist.py:118-146): a SortedList without key function, a SortedKeyList with one. -/
inductive ListClass (α : Type) : Type 1 where
  | plain (E : Env α)
  | keyed {κ : Type} (K : KEnv α κ)

/-- The attributes of an object of the class.  (sortedlist.py:89-116, 1620-1654.) -/
def ListClass.State {α : Type} : ListClass α → Type
  | .plain _ => St α α
  | .keyed (κ := κ) _ => St α κ

/-- The methods of the class.  (sortedlist.py:118-145, which of the two classes the constructor makes.) -/
def ListClass.api {α : Type} : (c : ListClass α) → ListAPI c.State α
  | .plain E => SL.api E
  | .keyed K => SKL.api K

/-- `_check` of the class (sortedlist.py:1515-1586, 2446-2526). -/
def ListClass.check {α : Type} : (c : ListClass α) → c.State → Except PyErr Unit
  | .plain E => SL.check E
  | .keyed K => SKL.check K

/-- The class sorts values by `lt` and takes `eqv` for equality of values.  Without key function: `lt` is a strict weak
order and values are equal if neither is less than the other.  With a key function: `lt` compares keys, and equal values
have keys that compare equal.  (Scaffolding of the model: no code of /repo.) -/
inductive ListClass.Orders {α : Type} : ListClass α → (lt eqv : α → α → Bool) → Prop where
  | plain {E : Env α} {lt eqv : α → α → Bool} : E.Lawful lt → (∀ a b, eqv a b = equiv lt a b) →
      ListClass.Orders (.plain E) lt eqv
  | keyed {κ : Type} {K : KEnv α κ} {key : α → κ} {klt : κ → κ → Bool} {veq : α → α → Bool} :
      K.Lawful key klt veq → (∀ a b, veq a b = true → equiv klt (key a) (key b) = true) →
      ListClass.Orders (.keyed K) (fun a b => klt (key a) (key b)) veq

end Verif
