import Verif.Proofs.API
/-!
# Concrete objects

Lawful environments and reachable objects with several sublists and a built positional index.  They show that the
hypotheses of the theorems in this directory are met by non-trivial cases.
-/

namespace Verif
namespace Demo

deriving instance DecidableEq for Except

def ilt (a b : Int) : Bool := decide (a < b)

theorem ilt_order : StrictWeakOrder ilt :=
  ⟨fun a b h => by simp [ilt] at *; omega, fun a b c h1 h2 => by simp [ilt] at *; omega⟩

theorem log2_ok (n : Nat) (_ : 1 ≤ n) : n < 2 ^ (Nat.log2 n + 1) := Nat.lt_log2_self

/-- Integers with the usual comparisons. -/
def intEnv : Env Int where
  cmp op a b := .ok (op.ofLt ilt a b)
  sorted xs := .ok (Spec.insertAll (Spec.Order.ofValues ilt) [] xs)
  ilog2 := Nat.log2

theorem intEnv_lawful : intEnv.Lawful ilt where
  order := ilt_order
  cmp _ _ _ := rfl
  sorted xs := ⟨_, rfl, by
    exact Spec.insertAll_isStableSort (O := Spec.Order.ofValues ilt) ilt_order Spec.sorted_nil xs⟩
  ilog2 := log2_ok

/-- Pairs `(k, tag)` compared by `k` only: `<` and `==` do not see the tag, as with `1 == 1.0`. -/
def plt (a b : Int × Nat) : Bool := ilt a.1 b.1

theorem plt_order : StrictWeakOrder plt := ilt_order.comap Prod.fst

def pairEnv : Env (Int × Nat) where
  cmp op a b := .ok (op.ofLt plt a b)
  sorted xs := .ok (Spec.insertAll (Spec.Order.ofValues plt) [] xs)
  ilog2 := Nat.log2

theorem pairEnv_lawful : pairEnv.Lawful plt where
  order := plt_order
  cmp _ _ _ := rfl
  sorted xs := ⟨_, rfl, by
    exact Spec.insertAll_isStableSort (O := Spec.Order.ofValues plt) plt_order Spec.sorted_nil xs⟩
  ilog2 := log2_ok

/-- Integers sorted by `key = -x`. -/
def negEnv : KEnv Int Int where
  key a := .ok (-a)
  kcmp op a b := .ok (op.ofLt ilt a b)
  vcmp op a b := .ok (op.ofLt ilt a b)
  sortedByKey xs := .ok (Spec.insertAll (Spec.Order.ofKey (fun a => -a) ilt (equiv ilt) fun _ _ _ => .ok true) [] xs)
  ilog2 := Nat.log2

theorem negEnv_lawful : negEnv.Lawful (fun a => -a) ilt (equiv ilt) where
  order := ilt_order
  key_ok _ := rfl
  kcmp_ok _ _ _ := rfl
  veq_ok _ _ := rfl
  vne_ok _ _ := rfl
  sorted xs := ⟨_, rfl, by
    exact Spec.insertAll_isStableSort
      (O := Spec.Order.ofKey (fun a => -a) ilt (equiv ilt) fun _ _ _ => .ok true) (ilt_order.comap _)
      Spec.sorted_nil xs⟩
  ilog2 := log2_ok

/-- Integers sorted by the default key of SortedKeyList, the identity. -/
def idEnv : KEnv Int Int where
  key a := .ok a
  kcmp op a b := .ok (op.ofLt ilt a b)
  vcmp op a b := .ok (op.ofLt ilt a b)
  sortedByKey xs := .ok (Spec.insertAll (Spec.Order.ofKey id ilt (equiv ilt) fun _ _ _ => .ok true) [] xs)
  ilog2 := Nat.log2

theorem idEnv_lawful : idEnv.Lawful id ilt (equiv ilt) where
  order := ilt_order
  key_ok _ := rfl
  kcmp_ok _ _ _ := rfl
  veq_ok _ _ := rfl
  vne_ok _ _ := rfl
  sorted xs := ⟨_, rfl, by
    exact Spec.insertAll_isStableSort
      (O := Spec.Order.ofKey id ilt (equiv ilt) fun _ _ _ => .ok true) (ilt_order.comap _)
      Spec.sorted_nil xs⟩
  ilog2 := log2_ok

/-- Integers sorted by `key = x // 10`: many values share a key. -/
def tensEnv : KEnv Int Int where
  key a := .ok (a / 10)
  kcmp op a b := .ok (op.ofLt ilt a b)
  vcmp op a b := .ok (op.ofLt ilt a b)
  sortedByKey xs := .ok (Spec.insertAll (Spec.Order.ofKey (fun a => a / 10) ilt (equiv ilt) fun _ _ _ => .ok true) [] xs)
  ilog2 := Nat.log2

theorem tensEnv_lawful : tensEnv.Lawful (fun a => a / 10) ilt (equiv ilt) where
  order := ilt_order
  key_ok _ := rfl
  kcmp_ok _ _ _ := rfl
  veq_ok _ _ := rfl
  vne_ok _ _ := rfl
  sorted xs := ⟨_, rfl, by
    exact Spec.insertAll_isStableSort
      (O := Spec.Order.ofKey (fun a => a / 10) ilt (equiv ilt) fun _ _ _ => .ok true) (ilt_order.comap _)
      Spec.sorted_nil xs⟩
  ilog2 := log2_ok

/-- `sl = SortedList([5, 1, 3, 3, 9, 7, 4]); sl._reset(1); sl.add(3); del sl[0]; sl.add(8); sl[4]` -/
def ops : List (Op Int) := [.reset 1, .add 3, .delInt 0, .add 8, .getInt 4]

theorem ops_valid : ∀ op ∈ ops, op.Valid := by simp [ops, Op.Valid]

def start : St Int Int := (SL.update intEnv [5, 1, 3, 3, 9, 7, 4] St.empty).2

theorem start_new : (SL.api intEnv).new (some [5, 1, 3, 3, 9, 7, 4]) = .ok start := by rfl

def sl : St Int Int := (runHist (SL.api intEnv).step ops start).2

theorem sl_reachable : (SL.api intEnv).Reachable sl :=
  ListAPI.reachable_iff.2 ⟨_, _, _, start_new, ops_valid, rfl⟩

/-- The object has six sublists and a built index. -/
example : sl.lists = [[3], [3], [3, 4], [5], [7], [8, 9]] ∧ sl.maxes = [3, 3, 4, 5, 7, 9] ∧ sl.offset = 7 ∧
    sl.index = [8, 5, 3, 2, 3, 3, 0, 1, 1, 2, 1, 1, 2] := by decide +kernel

def kops : List (KOp Int Int) :=
  [.op (.reset 1), .op (.add 33), .op (.delInt 0), .op (.add 38), .op (.getInt 4), .bisectKeyLeft 3]

theorem kops_valid : ∀ op ∈ kops, op.Valid := by simp [kops, KOp.Valid, Op.Valid]

def kstart : St Int Int := (SKL.update tensEnv [52, 10, 31, 35, 97, 31, 44] St.empty).2

theorem kstart_new : SKL.new tensEnv (some [52, 10, 31, 35, 97, 31, 44]) = .ok kstart := by rfl

def skl : St Int Int := (runHist (SKL.kstep tensEnv) kops kstart).2

theorem skl_reachable : SKL.Reachable tensEnv skl := SKL.reachable_hist kstart_new kops kops_valid

/-- The run of values with key 3 spans several sublists. -/
example : skl.lists = [[31], [35], [31], [33], [38, 44], [52], [97]] := by decide +kernel

end Demo
end Verif
