import Verif.Proofs.Serial
import Verif.Proofs.RaceAlone
/-!
# `add` compares first and changes the list afterwards
-/

namespace Verif
variable {σ β γ α κ : Type}

/-- Alone, the program changes nothing. -/
def Task.Looks (m : Task σ β) : Prop := ∀ s x s', m.alone s = some (x, s') → s' = s

/-- Alone, if the program raises something other than `late`, it has changed nothing. -/
def Task.Whole (late : PyErr → Prop) (m : Task σ β) : Prop := ∀ s e s', m.alone s = some (.error e, s') → late e ∨ s' = s

theorem Task.Looks.pure (b : β) : (Pure.pure b : Task σ β).Looks := fun _ _ _ e => by cases e; rfl
theorem Task.Looks.lift (x : Except PyErr β) : (Task.lift x : Task σ β).Looks := fun _ _ _ e => by cases e; rfl
theorem Task.Looks.see (f : σ → Except PyErr β) : (Task.see f).Looks := fun _ _ _ e => by cases e; rfl

theorem Task.Looks.bind {m : Task σ β} {f : β → Task σ γ} (h : m.Looks) (hf : ∀ b, (f b).Looks) : (m >>= f).Looks := by
  intro s x s' e
  rw [Task.alone_bind'] at e
  cases hm : m.alone s with
  | none => rw [hm] at e; cases e
  | some y =>
    obtain ⟨y, t⟩ := y
    have ht := h s y t hm
    subst ht
    rw [hm] at e
    cases y with
    | ok b => exact hf b _ _ _ e
    | error e' => cases e; rfl

theorem Task.Whole.bind {late : PyErr → Prop} {m : Task σ β} {f : β → Task σ γ} (h : m.Looks) (hf : ∀ b, (f b).Whole late) : (m >>= f).Whole late := by
  intro s e s' he
  rw [Task.alone_bind'] at he
  cases hm : m.alone s with
  | none => rw [hm] at he; cases he
  | some y =>
    obtain ⟨y, t⟩ := y
    have ht := h s y t hm
    subst ht
    rw [hm] at he
    cases y with
    | ok b => exact hf b _ _ _ he
    | error e' => cases he; exact .inr rfl

theorem Task.Whole.map {late : PyErr → Prop} {m : Task σ β} (f : β → γ) (h : m.Whole late) : (f <$> m).Whole late := by
  intro s e s' he
  have he' : (m >>= fun b => Pure.pure (f b)).alone s = some (.error e, s') := he
  rw [Task.alone_bind'] at he'
  cases hm : m.alone s with
  | none => rw [hm] at he'; cases he'
  | some y =>
    obtain ⟨y, t⟩ := y
    rw [hm] at he'
    cases y with
    | ok b => cases he'
    | error e' => cases he'; exact h _ _ _ hm

namespace Race

/-- Nothing but IndexError and ValueError. -/
def late : Bounds α κ := { val := fun _ => True, load := fun _ => True, grow := False, err := fun e => e = .indexError ∨ e = .valueError, index := .inl rfl, value := .inr rfl }

theorem late_holds (s : Shared α κ) : late.Holds s := ⟨fun _ _ _ _ => trivial, trivial⟩

theorem whole_late {m : Run α κ Unit} (h : ∀ s, late.Holds s → late.Safe (fun _ _ => True) s m) : m.Whole fun e => e = .indexError ∨ e = .valueError := fun s e s' he =>
  .inl (((h s (late_holds s)).alone (late_holds s)).2 _ _ he |>.2.2 e rfl)

theorem looks_bisectLoop (lt : κ → κ → Except PyErr Bool) (right : Bool) {get : Nat → Run α κ κ} (hg : ∀ i, (get i).Looks) (x : κ) : ∀ rounds lo hi, (bisectLoop lt right get x rounds lo hi).Looks
  | 0, lo, _ => .pure lo
  | rounds + 1, lo, hi => by
    unfold bisectLoop
    split
    · refine .bind (hg _) fun y => .bind (.lift _) fun b => ?_
      split
      · exact looks_bisectLoop lt right hg x rounds _ _
      · exact looks_bisectLoop lt right hg x rounds _ _
    · exact .pure lo

theorem looks_bisectMaxes (lt : κ → κ → Except PyErr Bool) (right : Bool) (x : κ) : (bisectMaxes lt right x : Run α κ Nat).Looks :=
  .bind (.see _) fun _ => looks_bisectLoop lt right (fun _ => .see _) x _ _ _

open Bounds

theorem SL.whole_add (E : Env α) (fuel : Nat) (v : α) : (SL.add E fuel v).Whole fun e => e = .indexError ∨ e = .valueError := by
  unfold SL.add
  refine .bind (.see _) fun m => ?_
  split
  · refine whole_late fun s hs => ?_
    go Safe.alloc fun _ _ _ _ => trivial
    go Safe.other (fun _ => rfl) (fun _ => rfl) (fun _ => id)
    go Safe.other (fun _ => rfl) (fun _ => rfl) (fun _ _ => by simp)
    exact Safe.addLen _ (by assumption)
  · refine .bind (looks_bisectMaxes _ _ _) fun p => .bind (.see _) fun n => ?_
    split
    · refine whole_late fun s hs => ?_
      go Safe.sublist _
      go Safe.alter _ fun _ _ _ _ => trivial
      go Safe.setMax _ _
      go Safe.SL_expand fuel _ (fun h => h.elim) (by assumption)
      exact Safe.addLen _ (by assumption)
    · refine .bind (.see _) fun a => .bind (.bind (.see _) fun _ => looks_bisectLoop _ _ (fun _ => .see _) _ _ _ _) fun i => ?_
      refine whole_late fun s hs => ?_
      go Safe.alter _ fun _ _ _ _ => trivial
      go Safe.SL_expand fuel _ (fun h => h.elim) (by assumption)
      exact Safe.addLen _ (by assumption)

theorem SKL.whole_add (K : KEnv α κ) (fuel : Nat) (v : α) : (SKL.add K fuel v).Whole fun e => e = .indexError ∨ e = .valueError := by
  unfold SKL.add
  refine .bind (.lift _) fun key => .bind (.see _) fun m => ?_
  split
  · refine whole_late fun s hs => ?_
    go Safe.alloc fun _ _ _ _ => trivial
    go Safe.other (fun _ => rfl) (fun _ => rfl) (fun _ => id)
    go Safe.kalloc _
    go Safe.other (fun _ => rfl) (fun _ => rfl) (fun _ => id)
    go Safe.other (fun _ => rfl) (fun _ => rfl) (fun _ _ => by simp)
    exact Safe.addLen _ (by assumption)
  · refine .bind (looks_bisectMaxes _ _ _) fun p => .bind (.see _) fun n => ?_
    split
    · refine whole_late fun s hs => ?_
      go Safe.sublist _
      go Safe.alter _ fun _ _ _ _ => trivial
      go Safe.subkeys _
      go Safe.kalter _ _
      go Safe.setMax _ _
      go Safe.SKL_expand fuel _ (fun h => h.elim) (by assumption)
      exact Safe.addLen _ (by assumption)
    · refine .bind (.see _) fun b => .bind (.bind (.see _) fun _ => looks_bisectLoop _ _ (fun _ => .see _) _ _ _ _) fun i => ?_
      refine .bind (.see _) fun a => ?_
      refine whole_late fun s hs => ?_
      go Safe.alter _ fun _ _ _ _ => trivial
      go Safe.subkeys _
      go Safe.kalter _ _
      go Safe.SKL_expand fuel _ (fun h => h.elim) (by assumption)
      exact Safe.addLen _ (by assumption)

end Race
end Verif

namespace Verif
variable {σ γ β : Type} {step : γ → Task σ β}

theorem Task.serially_append (a b : List γ) (s : σ) : Task.serially step (a ++ b) s =
    match Task.serially step a s with
    | none => none
    | some (xs, s') =>
      match Task.serially step b s' with
      | none => none
      | some (ys, s'') => some (xs ++ ys, s'') := by
  induction a generalizing s with
  | nil => simp only [List.nil_append, Task.serially]; split <;> simp_all
  | cons c a ih =>
    simp only [List.cons_append, Task.serially]
    cases (step c).alone s with
    | none => rfl
    | some y =>
      dsimp only
      rw [ih]
      cases Task.serially step a y.2 with
      | none => rfl
      | some z =>
        dsimp only
        cases Task.serially step b z.2 <;> rfl

theorem Task.serially_length {cs : List γ} {s s' : σ} {xs : List (Except PyErr β)} (h : Task.serially step cs s = some (xs, s')) : xs.length = cs.length := by
  induction cs generalizing s xs with
  | nil => cases h; rfl
  | cons c cs ih =>
    simp only [Task.serially] at h
    split at h
    · cases h
    · split at h
      · cases h
      · cases h; simp [ih (by assumption)]

/-- A call that raises and changes nothing might as well not have been made. -/
theorem Task.serially_skip {late : PyErr → Prop} {a b : List γ} {c : γ} {s now : σ} {xs ys : List (Except PyErr β)} {e : PyErr} (hc : (step c).Whole late) (he : ¬ late e) (hl : xs.length = a.length)
    (h : Task.serially step (a ++ c :: b) s = some (xs ++ .error e :: ys, now)) : Task.serially step (a ++ b) s = some (xs ++ ys, now) := by
  rw [Task.serially_append] at h ⊢
  cases ha : Task.serially step a s with
  | none => rw [ha] at h; cases h
  | some y =>
    obtain ⟨zs, t⟩ := y
    have hz := Task.serially_length ha
    rw [ha] at h
    simp only [Task.serially] at h ⊢
    cases h1 : (step c).alone t with
    | none => rw [h1] at h; cases h
    | some w =>
      obtain ⟨w, u⟩ := w
      rw [h1] at h
      dsimp only at h
      cases h2 : Task.serially step b u with
      | none => rw [h2] at h; cases h
      | some v =>
        obtain ⟨vs, n⟩ := v
        rw [h2] at h
        dsimp only at h
        simp only [Option.some.injEq, Prod.mk.injEq] at h
        obtain ⟨h3, rfl⟩ := h
        obtain ⟨rfl, h4⟩ := List.append_inj h3 (by omega)
        cases h4
        rcases hc _ _ _ h1 with hh | rfl
        · exact absurd hh he
        · rw [h2]

end Verif
