import Verif.Props.Demo
import Verif.Props.DemoSet
import Verif.Model.SortedDict
import Verif.Wild
/-!
# Concrete environments whose values do not compare well
-/

namespace Verif
namespace Demo

theorem insertAll_perm {α : Type} (O : Spec.Order α) (l vs : List α) : (Spec.insertAll O l vs).Perm (l ++ vs) := by
  induction vs generalizing l with
  | nil => simp [Spec.insertAll]
  | cons v vs ih =>
    refine (ih _).trans (((Spec.insert_perm (O := O) l v).append_right vs).trans ?_)
    simp

/-- Two kinds of values, like integers and strings: values `>= 0` and values `< 0`.  Comparing values of different kinds
with `<` raises TypeError. -/
def mixedEnv : Env Int where
  cmp op a b :=
    match op with
    | .eq => .ok (a == b)
    | .ne => .ok (a != b)
    | _ => if decide (a < 0) = decide (b < 0) then .ok (op.ofLt ilt a b) else .error .typeError
  sorted xs :=
    if xs.all (fun x => decide (x < 0)) || xs.all (fun x => decide (0 ≤ x)) then
      .ok (Spec.insertAll (Spec.Order.ofValues ilt) [] xs)
    else .error .typeError
  ilog2 := Nat.log2

theorem mixedEnv_sane : mixedEnv.Sane where
  perm xs ys e := by
    simp only [mixedEnv] at e
    split at e
    · cases e; simpa using insertAll_perm (Spec.Order.ofValues ilt) [] xs
    · cases e
  ilog2 := log2_ok

/-- Integers of which 0 behaves like `nan`: every comparison with it is `False`, except `!=`. -/
def nanlt (a b : Int) : Bool := decide (a ≠ 0 ∧ b ≠ 0 ∧ a < b)

def nanEnv : Env Int where
  cmp op a b :=
    if a = 0 ∨ b = 0 then .ok (op == .ne) else .ok (op.ofLt ilt a b)
  sorted xs := .ok (Spec.insertAll (Spec.Order.ofValues nanlt) [] xs)
  ilog2 := Nat.log2

theorem nanEnv_sane : nanEnv.Sane where
  perm xs ys e := by cases e; simpa using insertAll_perm (Spec.Order.ofValues nanlt) [] xs
  ilog2 := log2_ok

/-- The same two kinds of values as keys. -/
def mixedKEnv : KEnv Int Int where
  key a := if a = 7 then .error (.other 7) else .ok (a / 10)
  kcmp := mixedEnv.cmp
  vcmp := mixedEnv.cmp
  sortedByKey xs :=
    if xs.any (fun x => x == 7) then .error (.other 7)
    else if xs.all (fun x => decide (x / 10 < 0)) || xs.all (fun x => decide (0 ≤ x / 10)) then
      .ok (Spec.insertAll (Spec.Order.ofKey (fun a => a / 10) ilt (equiv ilt) fun _ _ _ => .ok true) [] xs)
    else .error .typeError
  ilog2 := Nat.log2

theorem mixedKEnv_sane : mixedKEnv.Sane where
  perm xs ys e := by
    simp only [mixedKEnv] at e
    split at e
    · cases e
    · split at e
      · cases e
        simpa using insertAll_perm (Spec.Order.ofKey (fun a => a / 10) ilt (equiv ilt) fun _ _ _ => .ok true) [] xs
      · cases e
  ilog2 := log2_ok

/-- `sl = SortedList([5, 1, 3]); sl._reset(1); sl.add(9)` with `mixedEnv` -/
def mops : List (Op Int) := [.reset 1, .add 9, .getInt 2]

def mixed : St Int Int := (runHist (SL.api mixedEnv).step mops (SL.update mixedEnv [5, 1, 3] St.empty).2).2

theorem mixed_reachable : (SL.api mixedEnv).Reachable mixed :=
  .step _ trivial (.step _ trivial (.step _ (Nat.le_refl 1) (.new (xs := some [5, 1, 3]) (by rfl))))

theorem mixed_wild : SL.Wild mixed :=
  .step (E := mixedEnv) _ mixedEnv_sane trivial (.step (E := mixedEnv) _ mixedEnv_sane trivial
    (.step (E := mixedEnv) _ mixedEnv_sane (Nat.le_refl 1) (.new (E := mixedEnv) (xs := some [5, 1, 3]) mixedEnv_sane (by rfl))
      fun _ => .inl ⟨.none, by decide +kernel⟩) nofun) nofun

example : mixed.lists = [[1], [3], [5, 9]] := by decide +kernel

/-- `sl = SortedList([5, nan, 3]); sl._reset(1); sl.add(4); sl.add(nan)` -/
def nans : St Int Int :=
  (runHist (SL.api nanEnv).step [.reset 1, .add 4, .add 0, .getInt 3] (SL.update nanEnv [5, 0, 3] St.empty).2).2

theorem nans_wild : SL.Wild nans :=
  .step (E := nanEnv) _ nanEnv_sane trivial (.step (E := nanEnv) _ nanEnv_sane trivial (.step (E := nanEnv) _ nanEnv_sane trivial
    (.step (E := nanEnv) _ nanEnv_sane (Nat.le_refl 1) (.new (E := nanEnv) (xs := some [5, 0, 3]) nanEnv_sane (by rfl))
      fun _ => .inl ⟨.none, by decide +kernel⟩) nofun) nofun) nofun

/-- The list is not sorted where the `nan`s are. -/
example : nans.lists = [[3], [4, 5], [0, 0]] := by decide +kernel

def mixedK : St Int Int :=
  (runHist (SKL.kstep mixedKEnv) [.op (.reset 1), .op (.add 94), .op (.getInt 2), .bisectKeyLeft 3]
    (SKL.update mixedKEnv [52, 10, 31] St.empty).2).2

theorem mixedK_reachable : SKL.Reachable mixedKEnv mixedK :=
  .step _ trivial (.step _ trivial (.step _ trivial (.step (.op (.reset 1)) (Nat.le_refl 1) (.new (xs := some [52, 10, 31]) (by rfl)))))

theorem mixedK_wild : SKL.Wild mixedK :=
  .query (K := mixedKEnv) (.bisectKeyLeft 3) mixedKEnv_sane rfl (.step (K := mixedKEnv) _ mixedKEnv_sane trivial
    (.step (K := mixedKEnv) _ mixedKEnv_sane trivial (.step (K := mixedKEnv) _ mixedKEnv_sane (Nat.le_refl 1)
      (.new (K := mixedKEnv) (xs := some [52, 10, 31]) mixedKEnv_sane (by rfl)) fun _ => .inl ⟨.none, by decide +kernel⟩) nofun) nofun)

example : mixedK.lists = [[10], [31], [52, 94]] := by decide +kernel

theorem beq_equiv : IsEquiv (fun a b : Int => a == b) :=
  ⟨fun a => by simp, fun a b => by rw [Bool.eq_iff_iff]; simp; exact eq_comm, fun a b c h1 h2 => by simp_all⟩

/-- `ss = SortedSet([3, 1])` with `mixedEnv` -/
def mixedSet : SS { l : List Int // Distinct (fun a b : Int => a == b) l } (St Int Int) :=
  { set := ⟨[3, 1], by unfold Distinct; decide⟩,
    list := ((SL.api mixedEnv).step (.update [3, 1]) ((SL.api mixedEnv).step .clear St.empty).2).2 }

theorem mixedSet_new : SS.new (listSet (fun a b : Int => a == b) beq_equiv false) (SL.api mixedEnv) (some [3, 1]) =
    .ok mixedSet := by rfl

theorem mixedSet_reachable : SS.Reachable (listSet (fun a b : Int => a == b) beq_equiv false) (SL.api mixedEnv) mixedSet :=
  .new mixedSet_new

theorem mixedSet_wild : SL.Wild mixedSet.list :=
  .step (E := mixedEnv) _ mixedEnv_sane trivial (.step (E := mixedEnv) .clear mixedEnv_sane trivial
    (.new (E := mixedEnv) (xs := none) mixedEnv_sane rfl) nofun) fun _ => .inl ⟨.none, by decide +kernel⟩

/-- `sd = SortedDict([(3, 30), (1, 10)])` with `mixedEnv` -/
def mixedDict : SD Int Nat (St Int Int) :=
  { dict := [(3, 30), (1, 10)], list := ((SL.api mixedEnv).step (.update [3, 1]) St.empty).2 }

theorem mixedDict_reachable : SD.Reachable (fun a b : Int => a == b) (SL.api mixedEnv) mixedDict :=
  .new (arg := .pairs [(3, 30), (1, 10)] none) rfl rfl

theorem mixedDict_wild : SL.Wild mixedDict.list :=
  .step (E := mixedEnv) _ mixedEnv_sane trivial (.new (E := mixedEnv) (xs := none) mixedEnv_sane rfl)
    fun _ => .inl ⟨.none, by decide +kernel⟩

end Demo
end Verif
