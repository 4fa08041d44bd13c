import Verif.Serial
import Verif.Proofs.Locked
import Verif.Proofs.RaceLasts
/-!
# Calls under a lock happen one after the other, whatever they do
-/

namespace Verif
variable {σ γ β α κ : Type} {step : γ → Task σ β}

theorem Task.serially_snoc (cs : List γ) (c : γ) (s : σ) {xs : List (Except PyErr β)} {s' s'' : σ} {x : Except PyErr β} (h : Task.serially step cs s = some (xs, s')) (hc : (step c).alone s' = some (x, s'')) :
    Task.serially step (cs ++ [c]) s = some (xs ++ [x], s'') := by
  induction cs generalizing s xs with
  | nil =>
    simp only [Task.serially, Option.some.injEq, Prod.mk.injEq] at h
    obtain ⟨rfl, rfl⟩ := h
    simp [Task.serially, hc]
  | cons d cs ih =>
    simp only [Task.serially, List.cons_append] at h ⊢
    cases hd : (step d).alone s with
    | none => rw [hd] at h; cases h
    | some y =>
      obtain ⟨y, t⟩ := y
      rw [hd] at h
      dsimp only at h ⊢
      cases hr : Task.serially step cs t with
      | none => rw [hr] at h; cases h
      | some z =>
        obtain ⟨ys, u⟩ := z
        rw [hr] at h
        cases h
        rw [ih t hr]
        rfl

namespace Guarded

theorem Leads.serially {l : List (Nat × γ × Except PyErr β)} {s s' : σ} (h : Leads step l s s') : Task.serially step (l.map fun e => e.2.1) s = some (l.map fun e => e.2.2, s') := by
  induction h with
  | nil => rfl
  | snoc _ hc ih =>
    rw [List.map_append, List.map_append]
    exact Task.serially_snoc _ _ _ ih hc

theorem Orderly.serial {s0 : σ} {threads : List (List γ)} {p : Guarded σ γ β} (h : Orderly step s0 threads p) : Serial step s0 threads p := by
  obtain ⟨s, h1, h2⟩ := h.state
  refine ⟨s, h1.serially, fun e => ?_, fun i c m e => ?_, h.calls⟩
  · rw [e] at h2; exact h2
  · rw [e] at h2; exact h2

/-- Whatever the calls do, they happen one after the other. -/
theorem serial (step : γ → Task σ β) (s0 : σ) (threads : List (List γ)) (schedule : List Nat) :
    Serial step s0 threads (({ shared := s0, holder := none, waiting := threads, log := [] } : Guarded σ γ β).run step schedule) :=
  ((Orderly.start s0 threads).run schedule).serial

/-- If `I` holds at the start, and every call keeps it and answers as `A` says, this is so between calls. -/
theorem Leads.keeps {I : σ → Prop} {A : γ → Except PyErr β → Prop} {l : List (Nat × γ × Except PyErr β)} {s s' : σ} (h : Leads step l s s')
    (hk : ∀ e ∈ l, ∀ s x s', I s → (step e.2.1).alone s = some (x, s') → I s' ∧ A e.2.1 x) (hs : I s) : I s' ∧ ∀ e ∈ l, A e.2.1 e.2.2 := by
  induction h with
  | nil => exact ⟨hs, by simp⟩
  | snoc _ hc ih =>
    obtain ⟨k1, k2⟩ := ih (fun e he => hk e (List.mem_append_left _ he)) hs
    obtain ⟨j1, j2⟩ := hk _ (List.mem_append_right _ (List.mem_singleton.2 rfl)) _ _ _ k1 hc
    refine ⟨j1, fun e he => ?_⟩
    rcases List.mem_append.1 he with he | he
    · exact k2 e he
    · cases List.mem_singleton.1 he; exact j2

end Guarded

namespace Race.Bounds
variable {B : Bounds α κ} {Q : Shared α κ → β → Prop}

theorem Safe.alone {m : Run α κ β} {s : Shared α κ} (hs : B.Holds s) (h : B.Safe Q s m) :
    (B.grow → (m.alone s).isSome) ∧ ∀ x t, m.alone s = some (x, t) → B.Holds t ∧ (∀ b, x = .ok b → Q t b) ∧ ∀ e, x = .error e → B.err e := by
  induction m generalizing s with
  | ret x =>
    refine ⟨fun _ => rfl, fun y t e => ?_⟩
    cases e
    refine ⟨hs, fun b e => ?_, fun e he => ?_⟩
    · subst e; exact h
    · subst he; exact h
  | act f k ih =>
    obtain ⟨h1, h2⟩ := h s hs.refl
    exact ih s h1.1 h2
  | spin => exact ⟨fun g => absurd g h, fun x t e => by cases e⟩

end Race.Bounds

theorem Course.Lasts.alone {R : Course σ} {m : Task σ β} {s : σ} (h : R.Lasts s m) : (m.alone s).isSome := by
  induction m generalizing s with
  | ret x => rfl
  | act f k ih => exact ih s (h s (R.refl s)).2
  | spin => exact h.elim

end Verif
