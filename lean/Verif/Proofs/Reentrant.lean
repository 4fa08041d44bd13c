import Verif.Model.Reentrant
import Verif.Proofs.Iter
/-!
# Programs whose comparisons and key function query the list

`Sim` compares a program that calls the client's code with the program of the other model, which calls none: as long as the client's
code gives the same answers and changes the positional index at most, both programs give the same result and change the positional index
at most.  `Ends` is for calls that change the list: it changes only after the last call of the client's code, and then
as by the program of the other model.
-/

namespace Verif
namespace Reent
variable {W α κ β γ : Type}

/-- The object is `s0`, but for the positional index; `I` holds of it and `J` of the client's world. -/
structure Held (I : St α κ → Prop) (J : W → Prop) (s0 : St α κ) (p : St α κ × W) : Prop where
  re : Reindexed s0 p.1
  inv : I p.1
  world : J p.2

/-- `m` gives the same result as `f`, and both change the positional index at most. -/
def Sim (I : St α κ → Prop) (J : W → Prop) (s0 : St α κ) (m : RPy W (St α κ) β) (f : Py (St α κ) β) : Prop :=
  ∀ p t, Held I J s0 p → Reindexed s0 t → I t → (m p).1 = (f t).1 ∧ Held I J s0 (m p).2 ∧ Reindexed s0 (f t).2 ∧ I (f t).2

/-- `m` is `f`, started from an object that differs from `s0` in the positional index only. -/
def Ends (I : St α κ → Prop) (J : W → Prop) (s0 : St α κ) (m : RPy W (St α κ) β) (f : Py (St α κ) β) : Prop :=
  ∀ p, Held I J s0 p → ∃ p', Held I J s0 p' ∧ m p = ((f p'.1).1, (f p'.1).2, p'.2)

variable {I : St α κ → Prop} {J : W → Prop} {s0 : St α κ}

namespace Sim

theorem pure (b : β) : Sim I J s0 (Pure.pure b) (Pure.pure b) := fun _ _ h h1 h2 => ⟨rfl, h, h1, h2⟩

theorem lift (x : Except PyErr β) : Sim I J s0 (free (Py.lift x)) (Py.lift x) := fun _ _ h h1 h2 => ⟨rfl, h, h1, h2⟩

theorem raise (e : PyErr) : Sim I J s0 (free (Py.raise e) : RPy W (St α κ) β) (Py.raise e) := fun _ _ h h1 h2 => ⟨rfl, h, h1, h2⟩

theorem bind {m : RPy W (St α κ) β} {f : Py (St α κ) β} {k : β → RPy W (St α κ) γ} {g : β → Py (St α κ) γ}
    (h : Sim I J s0 m f) (hk : ∀ b, Sim I J s0 (k b) (g b)) : Sim I J s0 (m >>= k) (f >>= g) := by
  intro p t hp ht hi
  obtain ⟨e, h1, h2, h3⟩ := h p t hp ht hi
  rw [Py.bind_apply, Py.bind_apply]
  rcases hm : m p with ⟨r, p'⟩
  rcases hf : f t with ⟨r', t'⟩
  rw [hm] at e h1
  rw [hf] at e h2 h3
  simp only at e h1 h2 h3
  subst e
  cases r with
  | error e => exact ⟨rfl, h1, h2, h3⟩
  | ok b => exact hk b p' t' h1 h2 h3

theorem get_bind {k : St α κ → RPy W (St α κ) β} {g : St α κ → Py (St α κ) β}
    (hk : ∀ i o, k { s0 with index := i, offset := o } = k s0) (hg : ∀ i o, g { s0 with index := i, offset := o } = g s0)
    (h : Sim I J s0 (k s0) (g s0)) : Sim I J s0 (free Py.get >>= k) (Py.get >>= g) := by
  intro p t hp ht hi
  have := h p t hp ht hi
  obtain ⟨i, o, e⟩ := hp.re
  obtain ⟨i', o', e'⟩ := ht
  show ((k p.1 p).1 = (g t t).1 ∧ Held I J s0 (k p.1 p).2 ∧ Reindexed s0 (g t t).2 ∧ I (g t t).2)
  rw [show k p.1 = k s0 by rw [e]; exact hk i o, show g t = g s0 by rw [e']; exact hg i' o']
  exact this

theorem lift_bind {x : Except PyErr β} {k : β → RPy W (St α κ) γ} {g : β → Py (St α κ) γ}
    (h : ∀ b, x = .ok b → Sim I J s0 (k b) (g b)) : Sim I J s0 (free (Py.lift x) >>= k) (Py.lift x >>= g) := by
  cases x with
  | error e => exact fun p t hp h1 h2 => ⟨rfl, hp, h1, h2⟩
  | ok b => exact h b rfl

theorem lifted_bind {m : RPy W (St α κ) β} {x : Except PyErr β} {k : β → RPy W (St α κ) γ} {g : β → Py (St α κ) γ}
    (hm : Sim I J s0 m (Py.lift x)) (h : ∀ b, x = .ok b → Sim I J s0 (k b) (g b)) : Sim I J s0 (m >>= k) (Py.lift x >>= g) := by
  intro p t hp ht hi
  obtain ⟨e, h1, -, -⟩ := hm p t hp ht hi
  rw [Py.bind_apply]
  rcases hmp : m p with ⟨r, p'⟩
  rw [hmp] at e h1
  simp only [Py.lift_apply] at e h1
  subst e
  cases r with
  | error e => exact ⟨rfl, h1, ht, hi⟩
  | ok b => exact h b rfl p' t h1 ht hi

theorem ok_bind {m : RPy W (St α κ) β} {b : β} {k : β → RPy W (St α κ) γ} {f : Py (St α κ) γ}
    (hm : Sim I J s0 m (Py.lift (.ok b))) (h : Sim I J s0 (k b) f) : Sim I J s0 (m >>= k) f :=
  lifted_bind (g := fun _ => f) hm fun _ e => by cases e; exact h

theorem error_bind {m : RPy W (St α κ) β} {e : PyErr} {k : β → RPy W (St α κ) γ}
    (hm : Sim I J s0 m (Py.lift (.error e))) : Sim I J s0 (m >>= k) (Py.raise e) :=
  lifted_bind (g := fun _ => Py.raise e) hm nofun

theorem ite {c : Prop} [Decidable c] {m m' : RPy W (St α κ) β} {f f' : Py (St α κ) β} (h1 : c → Sim I J s0 m f)
    (h2 : ¬ c → Sim I J s0 m' f') : Sim I J s0 (if c then m else m') (if c then f else f') := by
  split
  · exact h1 ‹_›
  · exact h2 ‹_›

theorem out {m : RPy W (St α κ) β} {f : Py (St α κ) β} (g : β → Out α) (h : Sim I J s0 m f) :
    Sim I J s0 (Spec.out g m) (Spec.out g f) := by
  intro p t hp ht hi
  obtain ⟨e, h1, h2, h3⟩ := h p t hp ht hi
  unfold Spec.out
  rcases hm : m p with ⟨r, p'⟩
  rcases hf : f t with ⟨r', t'⟩
  rw [hm] at e h1
  rw [hf] at e h2 h3
  simp only at e h1 h2 h3
  subst e
  cases r <;> exact ⟨rfl, h1, h2, h3⟩

theorem mapEach {δ : Type} {m : δ → RPy W (St α κ) β} {f : δ → Py (St α κ) β} (h : ∀ x, Sim I J s0 (m x) (f x)) (xs : List δ) :
    Sim I J s0 (Py.mapEach m xs) (Py.mapEach f xs) := by
  induction xs with
  | nil => exact pure []
  | cons x xs ih => exact bind (h x) fun _ => bind ih fun _ => pure _

theorem forEach {δ : Type} {m : δ → RPy W (St α κ) Unit} {f : δ → Py (St α κ) Unit} (h : ∀ x, Sim I J s0 (m x) (f x)) (xs : List δ) :
    Sim I J s0 (Py.forEach m xs) (Py.forEach f xs) := by
  induction xs with
  | nil => exact pure ()
  | cons x xs ih => exact bind (h x) fun _ => ih

end Sim

/-- `m` does what `f` does, without the client. -/
def Frees (m : RPy W (St α κ) β) (f : Py (St α κ) β) : Prop := ∀ p, m p = ((f p.1).1, (f p.1).2, p.2)

namespace Frees

theorem free (f : Py (St α κ) β) : Frees (W := W) (Reent.free f) f := fun _ => rfl

theorem pure (b : β) : Frees (W := W) (Pure.pure b) (Pure.pure b : Py (St α κ) β) := fun _ => rfl

theorem bind {m : RPy W (St α κ) β} {f : Py (St α κ) β} {k : β → RPy W (St α κ) γ} {g : β → Py (St α κ) γ}
    (h : Frees m f) (hk : ∀ b, Frees (k b) (g b)) : Frees (m >>= k) (f >>= g) := by
  intro p
  rw [Py.bind_apply, Py.bind_apply, h p]
  rcases f p.1 with ⟨r, t⟩
  cases r with
  | error e => rfl
  | ok b => exact hk b (t, p.2)

theorem ite {c : Prop} [Decidable c] {m m' : RPy W (St α κ) β} {f f' : Py (St α κ) β} (h1 : Frees m f) (h2 : Frees m' f') :
    Frees (if c then m else m') (if c then f else f') := by split <;> assumption

end Frees

namespace Ends

theorem of_free {m : RPy W (St α κ) β} {f : Py (St α κ) β} (h : Frees m f) : Ends I J s0 m f := fun p hp => ⟨p, hp, h p⟩

theorem get_bind {k : St α κ → RPy W (St α κ) β} {g : St α κ → Py (St α κ) β}
    (hk : ∀ i o, k { s0 with index := i, offset := o } = k s0) (hg : ∀ i o, g { s0 with index := i, offset := o } = g s0)
    (h : Ends I J s0 (k s0) (g s0)) : Ends I J s0 (free Py.get >>= k) (Py.get >>= g) := by
  intro p hp
  obtain ⟨p', hp', e'⟩ := h p hp
  refine ⟨p', hp', ?_⟩
  obtain ⟨i, o, e⟩ := hp.re
  obtain ⟨i', o', e''⟩ := hp'.re
  show k p.1 p = ((g p'.1 p'.1).1, (g p'.1 p'.1).2, p'.2)
  rw [show k p.1 = k s0 by rw [e]; exact hk i o, show g p'.1 = g s0 by rw [e'']; exact hg i' o']
  exact e'

/-- First a part that changes nothing and may call the client's code, then the rest. -/
theorem bind {m : RPy W (St α κ) β} {f : Py (St α κ) β} {k : β → RPy W (St α κ) γ} {g : β → Py (St α κ) γ}
    (hm : Sim I J s0 m f) (hf : ∀ t, (f t).2 = t) (h : ∀ b, Ends I J s0 (k b) (g b)) : Ends I J s0 (m >>= k) (f >>= g) := by
  intro p hp
  have h1 : ∀ t, Reindexed s0 t → I t → (m p).1 = (f t).1 := fun t ht hi => (hm p t hp ht hi).1
  have h2 : Held I J s0 (m p).2 := (hm p p.1 hp hp.re hp.inv).2.1
  rw [Py.bind_apply]
  rcases hmp : m p with ⟨r, p1⟩
  rw [hmp] at h1 h2
  simp only at h1 h2
  cases r with
  | error e =>
    refine ⟨p1, h2, ?_⟩
    have e1 : f p1.1 = (.error e, p1.1) := Prod.ext (h1 p1.1 h2.re h2.inv).symm (hf _)
    rw [Py.bind_error e1]
  | ok b =>
    obtain ⟨p', hp', e'⟩ := h b p1 h2
    have e1 : f p'.1 = (.ok b, p'.1) := Prod.ext (h1 p'.1 hp'.re hp'.inv).symm (hf _)
    exact ⟨p', hp', by rw [Py.bind_ok e1]; exact e'⟩

theorem lifted_bind {m : RPy W (St α κ) β} {x : Except PyErr β} {k : β → RPy W (St α κ) γ} {g : β → Py (St α κ) γ}
    (hm : Sim I J s0 m (Py.lift x)) (h : ∀ b, Ends I J s0 (k b) (g b)) : Ends I J s0 (m >>= k) (Py.lift x >>= g) :=
  bind hm (fun _ => rfl) h

theorem ite {c : Prop} [Decidable c] {m m' : RPy W (St α κ) β} {f f' : Py (St α κ) β} (h1 : Ends I J s0 m f)
    (h2 : Ends I J s0 m' f') : Ends I J s0 (if c then m else m') (if c then f else f') := by
  split <;> assumption

theorem out {m : RPy W (St α κ) β} {f : Py (St α κ) β} (g : β → Out α) (h : Ends I J s0 m f) :
    Ends I J s0 (Spec.out g m) (Spec.out g f) := by
  intro p hp
  obtain ⟨p', hp', e⟩ := h p hp
  refine ⟨p', hp', ?_⟩
  unfold Spec.out
  rw [e]
  rcases f p'.1 with ⟨r, t⟩
  cases r <;> rfl

end Ends

/-- Decompose a do-block and its counterpart. -/
macro "sim_parts" : tactic => `(tactic| repeat' (with_reducible first
  | contradiction
  | exact Sim.pure _
  | exact Sim.lift _
  | exact Sim.raise _
  | refine Sim.get_bind (fun _ _ => rfl) (fun _ _ => rfl) ?_
  | refine Sim.lift_bind fun _ _ => ?_
  | refine Sim.ite (fun _ => ?_) (fun _ => ?_)
  | refine Sim.lifted_bind (by solve_by_elim only [*]) fun _ _ => ?_
  | refine Sim.bind ?_ fun _ => ?_
  | solve_by_elim only [*]
  | dsimp only
  | split))

/-- Decompose a do-block that does not call the client's code, and its counterpart. -/
macro "frees_parts" : tactic => `(tactic| repeat' (with_reducible first
  | exact Frees.free _
  | exact Frees.pure _
  | refine Frees.bind ?_ fun _ => ?_
  | refine Frees.ite ?_ ?_
  | dsimp only))

/-- Decompose a do-block that calls the client's code first and changes the list afterwards, and its counterpart. -/
macro "ends_parts" : tactic => `(tactic| repeat' (with_reducible first
  | refine Ends.get_bind (fun _ _ => rfl) (fun _ _ => rfl) ?_
  | (refine Ends.of_free ?_; frees_parts; done)
  | refine Ends.ite ?_ ?_
  | refine Ends.lifted_bind (by first | exact Sim.lift _ | solve_by_elim only [*]) fun _ => ?_
  | dsimp only
  | split))

/-! ## `bisect` -/

section
variable {ρ : Type} {lt' : ρ → ρ → RPy W (St α κ) Bool} {lt : ρ → ρ → Except PyErr Bool} (h : ∀ a b, Sim I J s0 (lt' a b) (Py.lift (lt a b)))
include h

theorem bisectRightLoop_sim (l : List ρ) (x : ρ) (lo hi : Nat) :
    Sim I J s0 (bisectRightLoop lt' l x lo hi) (Py.lift (Verif.bisectRightLoop lt l x lo hi)) := by
  fun_induction Verif.bisectRightLoop lt l x lo hi with
  | case1 lo hi hlt e he => rw [bisectRightLoop, dif_pos hlt, he]; exact .error_bind (.lift _)
  | case2 lo hi hlt m hm e he =>
    rw [bisectRightLoop, dif_pos hlt, hm]; exact .ok_bind (.lift _) (.error_bind (he ▸ h _ _))
  | case3 lo hi hlt m hm he ih =>
    rw [bisectRightLoop, dif_pos hlt, hm]; exact .ok_bind (.lift _) (.ok_bind (b := true) (he ▸ h _ _) ih)
  | case4 lo hi hlt m hm he ih =>
    rw [bisectRightLoop, dif_pos hlt, hm]; exact .ok_bind (.lift _) (.ok_bind (b := false) (he ▸ h _ _) ih)
  | case5 lo hi hlt => rw [bisectRightLoop, dif_neg hlt]; exact .pure _

theorem bisectLeftLoop_sim (l : List ρ) (x : ρ) (lo hi : Nat) :
    Sim I J s0 (bisectLeftLoop lt' l x lo hi) (Py.lift (Verif.bisectLeftLoop lt l x lo hi)) := by
  fun_induction Verif.bisectLeftLoop lt l x lo hi with
  | case1 lo hi hlt e he => rw [bisectLeftLoop, dif_pos hlt, he]; exact .error_bind (.lift _)
  | case2 lo hi hlt m hm e he =>
    rw [bisectLeftLoop, dif_pos hlt, hm]; exact .ok_bind (.lift _) (.error_bind (he ▸ h _ _))
  | case3 lo hi hlt m hm he ih =>
    rw [bisectLeftLoop, dif_pos hlt, hm]; exact .ok_bind (.lift _) (.ok_bind (b := true) (he ▸ h _ _) ih)
  | case4 lo hi hlt m hm he ih =>
    rw [bisectLeftLoop, dif_pos hlt, hm]; exact .ok_bind (.lift _) (.ok_bind (b := false) (he ▸ h _ _) ih)
  | case5 lo hi hlt => rw [bisectLeftLoop, dif_neg hlt]; exact .pure _

theorem bisectRight_sim (l : List ρ) (x : ρ) : Sim I J s0 (bisectRight lt' l x) (Py.lift (Verif.bisectRight lt l x)) :=
  bisectRightLoop_sim h l x _ _

theorem bisectLeft_sim (l : List ρ) (x : ρ) : Sim I J s0 (bisectLeft lt' l x) (Py.lift (Verif.bisectLeft lt l x)) :=
  bisectLeftLoop_sim h l x _ _

theorem insort_sim (l : List ρ) (x : ρ) : Sim I J s0 (insort lt' l x) (Py.lift (Verif.insort lt l x)) := by
  have e : (Py.lift (Verif.insort lt l x) : Py (St α κ) _) =
      (do let i ← (Py.lift (Verif.bisectRight lt l x) : Py (St α κ) Nat); Pure.pure (insertAt l i x)) := by
    unfold Verif.insort
    cases Verif.bisectRight lt l x <;> rfl
  rw [e]
  have := bisectRight_sim h l x
  unfold insort
  sim_parts

end

/-- The positional lookup, at a position that exists. -/
theorem loc_sim {k0 : α → κ} {lt : κ → κ → Bool} {keyed : Bool} {ilog2 : Nat → Nat} (hlog : ∀ n, 1 ≤ n → n < 2 ^ (ilog2 n + 1)) {pos : Nat}
    (hp : pos < s0.lists.length) (idx : Nat) :
    Sim (Inv k0 lt keyed) J s0 (free (Core.loc ilog2 pos idx)) (Core.loc ilog2 pos idx) := by
  intro p t h ht hi
  have hl : s0.lists = s0.lists.take pos ++ s0.lists[pos] :: s0.lists.drop (pos + 1) := by simp
  have hn : (s0.lists.take pos).length = pos := by simp; omega
  obtain ⟨s1, e1, r1, i1⟩ := h.inv.loc hlog (h.re.lists.trans hl) idx
  obtain ⟨s2, e2, r2, i2⟩ := hi.loc hlog (ht.lists.trans hl) idx
  rw [hn] at e1 e2
  unfold free
  rw [e1, e2]
  exact ⟨rfl, ⟨h.re.trans r1, i1, h.world⟩, ht.trans r2, i2⟩

/-- The comparisons of values compare. -/
theorem compare_sim {cmp' : CmpOp → α → α → RPy W (St α κ) Bool} {cmp : CmpOp → α → α → Except PyErr Bool}
    (h : ∀ op a b, Sim I J s0 (cmp' op a b) (Py.lift (cmp op a b))) (op : CmpOp) (other : List α) :
    Sim I J s0 (compare cmp' op other) (ListAPI.read (Core.compare cmp op other)) := by
  have hloop : ∀ n m (as bs : List α), Sim I J s0 (cmpLoop cmp' op n m as bs) (Py.lift (Core.cmpLoop cmp op n m as bs)) := by
    intro n m as
    induction as with
    | nil =>
      intro bs
      rw [cmpLoop.eq_def, Core.cmpLoop.eq_def]
      exact .pure _
    | cons a as ih =>
      intro bs
      cases bs with
      | nil =>
        rw [cmpLoop.eq_def, Core.cmpLoop.eq_def]
        exact .pure _
      | cons b bs =>
        rw [cmpLoop, Core.cmpLoop]
        cases hc : cmp .ne a b with
        | error e => exact .error_bind (hc ▸ h _ _ _)
        | ok c =>
          refine .ok_bind (hc ▸ h _ _ _) ?_
          cases c
          · exact ih bs
          · exact h _ _ _
  have e : (ListAPI.read (Core.compare cmp op other) : Py (St α κ) Bool) = (do
      let s ← Py.get
      if s.len ≠ other.length ∧ op = .eq then pure false
      else if s.len ≠ other.length ∧ op = .ne then pure true
      else Py.lift (Core.cmpLoop cmp op s.len other.length (Core.iter s) other)) := by
    funext s
    simp only [ListAPI.read, Core.compare, Py.get_bind]
    split
    · rfl
    · split <;> rfl
  rw [e]
  unfold compare
  sim_parts

/-! ## SortedList -/

namespace SL

/-- The client's code answers as `E`, and changes the positional index at most. -/
structure EnvSim {α : Type} (I : St α α → Prop) (J : W → Prop) (s0 : St α α) (E' : REnv W α) (E : Env α) : Prop where
  cmp : ∀ op a b, Sim I J s0 (E'.cmp op a b) (Py.lift (E.cmp op a b))
  sorted : ∀ xs, Sim I J s0 (E'.sorted xs) (Py.lift (E.sorted xs))
  ilog2 : E'.ilog2 = E.ilog2

variable {I : St α α → Prop} {s0 : St α α} {E' : REnv W α} {E : Env α} {lt : α → α → Bool}

section
variable (h : EnvSim I J s0 E' E)
include h

theorem add_ends (v : α) : Ends I J s0 (add E' v) (Verif.SL.add E v) := by
  have h1 := bisectRight_sim (h.cmp .lt)
  have h2 := insort_sim (h.cmp .lt)
  unfold add Verif.SL.add
  ends_parts

theorem contains_sim (v : α) : Sim I J s0 (contains E' v) (Verif.SL.contains E v) := by
  have h1 := bisectLeft_sim (h.cmp .lt)
  have h2 := h.cmp .eq
  unfold contains Verif.SL.contains
  sim_parts

theorem discard_ends (v : α) : Ends I J s0 (discard E' v) (Verif.SL.discard E v) := by
  have h1 := bisectLeft_sim (h.cmp .lt)
  have h2 := h.cmp .eq
  unfold discard Verif.SL.discard
  ends_parts

theorem remove_ends (v : α) : Ends I J s0 (remove E' v) (Verif.SL.remove E v) := by
  have h1 := bisectLeft_sim (h.cmp .lt)
  have h2 := h.cmp .eq
  unfold remove Verif.SL.remove
  ends_parts

theorem irange_sim (lo hi : Option α) (a b r : Bool) : Sim I J s0 (irange E' lo hi a b r) (Verif.SL.irange E lo hi a b r) := by
  have h1 := bisectLeft_sim (h.cmp .lt)
  have h2 := bisectRight_sim (h.cmp .lt)
  unfold irange Verif.SL.irange Verif.SL.irangeWith
  cases lo <;> cases hi <;> sim_parts

end

section
variable (h : EnvSim (Inv id lt false) J s0 E' E) (hE : E.Lawful lt)
include h hE

theorem loc_sim {pos : Nat} {l : List α} (hp : getItem s0.lists pos = .ok l) (idx : Nat) :
    Sim (Inv id lt false) J s0 (free (Core.loc E'.ilog2 pos idx)) (Core.loc E.ilog2 pos idx) := by
  rw [h.ilog2]
  exact Reent.loc_sim hE.ilog2 (List.getElem?_eq_some_iff.1 (getItem_ok_iff.1 hp)).1 idx

theorem bisect_left_sim (v : α) : Sim (Inv id lt false) J s0 (bisect_left E' v) (Verif.SL.bisect_left E v) := by
  have h1 := bisectLeft_sim (h.cmp .lt)
  have h2 := @loc_sim _ _ _ _ _ _ _ h hE
  unfold bisect_left Verif.SL.bisect_left
  sim_parts

theorem bisect_right_sim (v : α) : Sim (Inv id lt false) J s0 (bisect_right E' v) (Verif.SL.bisect_right E v) := by
  have h1 := bisectRight_sim (h.cmp .lt)
  have h2 := @loc_sim _ _ _ _ _ _ _ h hE
  unfold bisect_right Verif.SL.bisect_right
  sim_parts

theorem count_sim (v : α) : Sim (Inv id lt false) J s0 (count E' v) (Verif.SL.count E v) := by
  have h1 := bisectRight_sim (h.cmp .lt)
  have h2 := bisectLeft_sim (h.cmp .lt)
  have h3 := @loc_sim _ _ _ _ _ _ _ h hE
  unfold count Verif.SL.count
  sim_parts

theorem index_sim (v : α) (a b : Option Int) : Sim (Inv id lt false) J s0 (index E' v a b) (Verif.SL.index E v a b) := by
  have h1 := h.cmp .ne
  have h2 := bisectLeft_sim (h.cmp .lt)
  have h3 := @loc_sim _ _ _ _ _ _ _ h hE
  have h4 := bisect_right_sim h hE
  unfold index Verif.SL.index
  sim_parts

end
end SL
end Reent
end Verif
