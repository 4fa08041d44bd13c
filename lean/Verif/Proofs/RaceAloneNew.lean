import Verif.Proofs.RaceAloneIndex
import Verif.Proofs.RobustAPI
/-!
Comparisons and new lists, run alone: the same steps as the methods of the sequential model (continued from `RaceAloneIndex`).
-/
namespace Verif
namespace Race
variable {α κ : Type}

theorem onLen_nat (op : CmpOp) (n m : Nat) : onLen op n m = op.onNat n m := by
  have e : ((n : Int) == (m : Int)) = (n == m) := by
    rw [Bool.eq_iff_iff]; simp only [beq_iff_eq]; omega
  cases op <;> simp [onLen, CmpOp.onNat, bne, e]

/-- The values that an iterator has yet to yield. -/
def Shared.rest (s : Shared α κ) (c : Cursor) : List α :=
  match c.inner with
  | none => (s.lists.drop c.outer).flatMap s.cell
  | some (a, i) => (s.cell a).drop i ++ (s.lists.drop c.outer).flatMap s.cell

theorem seek_spec (s : Shared α κ) : ∀ (as : List Nat) (i : Nat), s.lists.drop i = as →
    match s.seek as i with
    | none => as.flatMap s.cell = []
    | some (v, c) => as.flatMap s.cell = v :: s.rest c
  | [], i, _ => rfl
  | a :: as, i, h => by
    have ht : s.lists.drop (i + 1) = as := by
      rw [← List.drop_drop, h]; rfl
    unfold Shared.seek
    cases hc : s.cell a with
    | nil =>
      have := seek_spec s as (i + 1) ht
      simpa [hc] using this
    | cons v l => simp [Shared.rest, hc, ht]

theorem next_spec (s : Shared α κ) (c : Cursor) :
    match s.next c with
    | none => s.rest c = []
    | some (v, c') => s.rest c = v :: s.rest c' := by
  have hs := seek_spec s _ c.outer rfl
  unfold Shared.next
  cases hc : c.inner with
  | none => simpa [Shared.rest, hc] using hs
  | some p =>
    obtain ⟨a, i⟩ := p
    dsimp only
    cases hx : (s.cell a)[i]? with
    | none =>
      have : (s.cell a).drop i = [] := List.drop_eq_nil_of_le (List.getElem?_eq_none_iff.1 hx)
      simpa [Shared.rest, hc, this] using hs
    | some v =>
      obtain ⟨hi, hv⟩ := List.getElem?_eq_some_iff.1 hx
      simp only [Shared.rest, hc]
      rw [List.drop_eq_getElem_cons hi, hv]; rfl

theorem alone_compareLoop {s : Shared α κ} (cmp : CmpOp → α → α → Except PyErr Bool) (op : CmpOp) (n m : Nat) : ∀ (ys : List α) (c : Cursor),
    (compareLoop cmp op n m ys c : Run α κ Bool).alone s = some (Core.cmpLoop cmp op n m (s.rest c) ys, s)
  | [], c => by
    have e : Core.cmpLoop cmp op n m (s.rest c) [] = .ok (op.onNat n m) := by cases s.rest c <;> rfl
    rw [e, ← onLen_nat]; rfl
  | y :: ys, c => by
    have hn := next_spec s c
    unfold compareLoop
    rw [Task.alone_bind', alone_see]
    cases hx : s.next c with
    | none =>
      rw [hx] at hn
      dsimp only at hn ⊢
      rw [hn]
      show some (Except.ok (onLen op n m), s) = _
      rw [onLen_nat]; rfl
    | some p =>
      obtain ⟨x, c'⟩ := p
      rw [hx] at hn
      dsimp only at hn ⊢
      rw [hn, Task.alone_bind', Task.alone_lift]
      cases hne : cmp .ne x y with
      | error e => simp only [Core.cmpLoop, hne]; rfl
      | ok ne =>
        cases ne with
        | true =>
          show some (cmp op x y, s) = some (Core.cmpLoop cmp op n m (x :: s.rest c') (y :: ys), s)
          rw [Core.cmpLoop, hne]; rfl
        | false =>
          show (compareLoop cmp op n m ys c' : Run α κ Bool).alone s = some (Core.cmpLoop cmp op n m (x :: s.rest c') (y :: ys), s)
          rw [alone_compareLoop cmp op n m ys c', Core.cmpLoop, hne]; rfl

theorem alone_compare {s : Shared α κ} {t : St α κ} (cmp : CmpOp → α → α → Except PyErr Bool) (op : CmpOp) (other : List α) (hM : Mirrors s t) :
    (compare cmp op other : Run α κ Bool).alone s = some (Core.compare cmp op other t, s) := by
  have hr : s.rest ⟨0, none⟩ = Core.iter t := by
    rw [← hM.contents]; rfl
  unfold compare Core.compare
  rw [Task.alone_bind', alone_see]
  dsimp only
  rw [hM.len]
  have he : ((t.len : Int) ≠ (other.length : Int)) = (t.len ≠ other.length) := by
    simp only [ne_eq, eq_iff_iff]; omega
  simp only [he]
  split
  · rfl
  · split
    · rfl
    · rw [alone_compareLoop, hr]

namespace Agrees
variable {s : Shared α κ} {t : St α κ}

theorem compare (cmp : CmpOp → α → α → Except PyErr Bool) (op : CmpOp) (other : List α) (hM : Mirrors s t) :
    Agrees id (Race.compare cmp op other) s (ListAPI.read (Core.compare cmp op other)) t :=
  .inr ⟨s, by rw [alone_compare _ _ _ hM]; show _ = some ((Core.compare cmp op other t).map id, s); cases Core.compare cmp op other t <;> rfl, hM⟩

theorem valuesOf {L : ListAPI (St α κ) α} {m : Run α κ (List α)} {f : St α κ → Except PyErr (St α κ)} (hM : Mirrors s t) (h : m.alone s = some (L.iter <$> f t, s)) :
    Agrees id m s (L.valuesOf f) t := by
  unfold Agrees ListAPI.valuesOf
  cases hf : f t with
  | error e => exact .inr ⟨s, by rw [h, hf]; rfl, hM⟩
  | ok t' => exact .inr ⟨s, by rw [h, hf]; rfl, hM⟩

section SKL
variable {K : KEnv α κ}
theorem SKL_copy (hM : Mirrors s t) : Agrees id (Race.SKL.copy K) s ((Verif.SKL.api K).valuesOf (Verif.SKL.api K).copy) t :=
  valuesOf hM (by show some (Core.iter <$> Verif.SKL.new K (some s.contents), s) = _; rw [hM.contents]; rfl)
theorem SKL_concat (xs : List α) (hM : Mirrors s t) : Agrees id (Race.SKL.concat K xs) s ((Verif.SKL.api K).valuesOf ((Verif.SKL.api K).concat xs)) t :=
  valuesOf hM (by show some (Core.iter <$> Verif.SKL.new K (some (s.contents ++ xs)), s) = _; rw [hM.contents]; rfl)
theorem SKL_mul (n : Int) (hM : Mirrors s t) : Agrees id (Race.SKL.mul K n) s ((Verif.SKL.api K).valuesOf ((Verif.SKL.api K).mul n)) t :=
  valuesOf hM (by show some (Core.iter <$> Verif.SKL.new K (some (repeatList s.contents n)), s) = _; rw [hM.contents]; rfl)
theorem SKL_imul {key : α → κ} {klt : κ → κ → Bool} {veq : α → α → Bool} (hK : K.Lawful key klt veq) {fuel : Nat} (n : Int) (hM : Mirrors s t) (h : Inv key klt true t) (hf : (Core.iter t).length * 2 ^ n.toNat < fuel - 1) :
    Agrees id (Race.SKL.imul K fuel n) s (Core.imul (Verif.SKL.methods K) n) t := by
  unfold Race.SKL.imul Core.imul
  refine see (get ?_)
  rw [hM.contents]
  refine (SKL_clear hM).bind fun _ s' t' e _ hM' => ?_
  obtain ⟨t0, e0, hi, h0⟩ := Verif.SKL.clear_inv key klt (s := t) h.load_pos
  rw [e] at e0; cases e0
  refine SKL_update hK hM' hi ?_
  have : (repeatList (Core.iter t) n).length ≤ (Core.iter t).length * 2 ^ n.toNat := by
    rw [show (repeatList (Core.iter t) n).length = n.toNat * (Core.iter t).length by simp [repeatList, List.length_flatten], Nat.mul_comm]
    exact Nat.mul_le_mul_left _ (Nat.le_of_lt Nat.lt_two_pow_self)
  rw [h0, List.length_nil]; omega

theorem SKL_reset {key : α → κ} {klt : κ → κ → Bool} {veq : α → α → Bool} (hK : K.Lawful key klt veq) {fuel load : Nat} (hl : 1 ≤ load) (hM : Mirrors s t) (h : Inv key klt true t) (hf : (Core.iter t).length < fuel - 1) :
    Agrees id (Race.SKL.reset K fuel load) s (Core.reset (Verif.SKL.methods K) load) t := by
  unfold Race.SKL.reset Core.reset
  refine see (get ?_)
  rw [hM.contents]
  refine (SKL_clear hM).bind fun _ s' t' e _ hM' => ?_
  obtain ⟨t0, e0, hi, h0⟩ := Verif.SKL.clear_inv key klt (s := { t with load := load }) hl
  have e1 : { t' with load := load } = t0 := by
    cases e; cases e0; rfl
  refine assign (modify ?_)
  rw [e1]
  refine SKL_update hK ?_ hi ?_
  · rw [← e1]; exact { hM' with load := rfl }
  · rw [h0, List.length_nil]; omega
end SKL

section SL
variable {E : Env α} {s : Shared α α} {t : St α α}
theorem SL_copy (hM : Mirrors s t) : Agrees id (Race.SL.copy E) s ((Verif.SL.api E).valuesOf (Verif.SL.api E).copy) t :=
  valuesOf hM (by show some (Core.iter <$> Verif.SL.new E (some s.contents), s) = _; rw [hM.contents]; rfl)
theorem SL_concat (xs : List α) (hM : Mirrors s t) : Agrees id (Race.SL.concat E xs) s ((Verif.SL.api E).valuesOf ((Verif.SL.api E).concat xs)) t :=
  valuesOf hM (by show some (Core.iter <$> Verif.SL.new E (some (s.contents ++ xs)), s) = _; rw [hM.contents]; rfl)
theorem SL_mul (n : Int) (hM : Mirrors s t) : Agrees id (Race.SL.mul E n) s ((Verif.SL.api E).valuesOf ((Verif.SL.api E).mul n)) t :=
  valuesOf hM (by show some (Core.iter <$> Verif.SL.new E (some (repeatList s.contents n)), s) = _; rw [hM.contents]; rfl)
theorem SL_imul {lt : α → α → Bool} (hE : E.Lawful lt) {fuel : Nat} (n : Int) (hM : Mirrors s t) (h : Inv id lt false t) (hf : (Core.iter t).length * 2 ^ n.toNat < fuel) :
    Agrees id (Race.SL.imul E fuel n) s (Core.imul (Verif.SL.methods E) n) t := by
  unfold Race.SL.imul Core.imul
  refine see (get ?_)
  rw [hM.contents]
  refine (SL_clear hM).bind fun _ s' t' e _ hM' => ?_
  obtain ⟨t0, e0, hi, h0⟩ := Verif.SL.clear_inv lt (s := t) h.load_pos
  rw [e] at e0; cases e0
  refine SL_update hE hM' hi ?_
  have : (repeatList (Core.iter t) n).length ≤ (Core.iter t).length * 2 ^ n.toNat := by
    rw [show (repeatList (Core.iter t) n).length = n.toNat * (Core.iter t).length by simp [repeatList, List.length_flatten], Nat.mul_comm]
    exact Nat.mul_le_mul_left _ (Nat.le_of_lt Nat.lt_two_pow_self)
  rw [h0, List.length_nil]; omega

theorem SL_reset {lt : α → α → Bool} (hE : E.Lawful lt) {fuel load : Nat} (hl : 1 ≤ load) (hM : Mirrors s t) (h : Inv id lt false t) (hf : (Core.iter t).length < fuel) :
    Agrees id (Race.SL.reset E fuel load) s (Core.reset (Verif.SL.methods E) load) t := by
  unfold Race.SL.reset Core.reset
  refine see (get ?_)
  rw [hM.contents]
  refine (SL_clear hM).bind fun _ s' t' e _ hM' => ?_
  obtain ⟨t0, e0, hi, h0⟩ := Verif.SL.clear_inv lt (s := { t with load := load }) hl
  have e1 : { t' with load := load } = t0 := by
    cases e; cases e0; rfl
  refine assign (modify ?_)
  rw [e1]
  refine SL_update hE ?_ hi ?_
  · rw [← e1]; exact { hM' with load := rfl }
  · rw [h0, List.length_nil]; omega
end SL

end Agrees
end Race
end Verif
