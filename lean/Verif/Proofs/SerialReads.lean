import Verif.Proofs.SerialRemove
/-!
# Calls that only read (scaffolding for C93)
-/

namespace Verif
variable {α κ β γ σ : Type}

/-- Calls that change nothing, whether they raise or not, might as well not have been made. -/
theorem Task.serially_filter {ι : Type} {step : γ → Task σ β} (keep : ι × γ × Except PyErr β → Bool) : ∀ {log : List (ι × γ × Except PyErr β)} {s now : σ},
    (∀ e ∈ log, keep e = false → (step e.2.1).Looks) → Task.serially step (log.map fun e => e.2.1) s = some (log.map fun e => e.2.2, now) →
    Task.serially step ((log.filter keep).map fun e => e.2.1) s = some ((log.filter keep).map fun e => e.2.2, now)
  | [], _, _, _, h => h
  | e :: log, s, now, hr, h => by
    simp only [List.map_cons, Task.serially] at h
    split at h
    · cases h
    · rename_i x t h1
      split at h
      · cases h
      · rename_i ys u h2
        simp only [Option.some.injEq, Prod.mk.injEq, List.cons.injEq] at h
        obtain ⟨⟨hx, hy⟩, rfl⟩ := h
        subst hy
        have ih := Task.serially_filter keep (fun e he => hr e (.tail _ he)) h2
        cases hk : keep e with
        | false =>
          rw [List.filter_cons_of_neg (by simp [hk])]
          rw [hr e (.head _) hk s _ _ h1] at ih
          exact ih
        | true =>
          rw [List.filter_cons_of_pos (by simp [hk])]
          simp only [List.map_cons, Task.serially, h1, ih, hx]

/-- What a call answers that does nothing but raise. -/
theorem Task.serially_raise {step : γ → Task σ β} {a b : List γ} {c : γ} {s now : σ} {xs ys : List (Except PyErr β)} {x : Except PyErr β} {e : PyErr} (hc : step c = Task.raise e)
    (hl : xs.length = a.length) (h : Task.serially step (a ++ c :: b) s = some (xs ++ x :: ys, now)) : x = .error e := by
  rw [Task.serially_append] at h
  cases ha : Task.serially step a s with
  | none => rw [ha] at h; cases h
  | some y =>
    obtain ⟨zs, t⟩ := y
    have hz := Task.serially_length ha
    rw [ha] at h
    simp only [Task.serially, hc] at h
    rw [show (Task.raise e : Task σ β).alone t = some (.error e, t) from rfl] at h
    dsimp only at h
    cases h2 : Task.serially step b t with
    | none => rw [h2] at h; cases h
    | some v =>
      rw [h2] at h
      simp only [Option.some.injEq, Prod.mk.injEq] at h
      obtain ⟨-, h4⟩ := List.append_inj h.1 (by omega)
      cases h4; rfl

theorem Task.Looks.map {m : Task σ β} (f : β → γ) (h : m.Looks) : (f <$> m).Looks := .bind h fun _ => .pure _

namespace Race

theorem looks_islicePos (a b c d : Int) (r : Bool) : (islicePos a b c d r : Run α κ (List α)).Looks := by
  unfold islicePos
  split
  · exact .pure _
  · split
    · exact .bind (.see _) fun _ => .see _
    · refine .bind (.see _) fun _ => .bind (.see _) fun _ => ?_
      split <;> exact .bind (.see _) fun _ => .bind (.see _) fun _ => .see _

section
variable {lt : κ → κ → Except PyErr Bool} {cell : Bool → Nat → κ → Run α κ Nat} {size : Int → Run α κ Nat} (hc : ∀ r p x, (cell r p x).Looks) (hs : ∀ p, (size p).Looks)
include hc hs

theorem looks_irangeTop (m : Option κ) (inc : Bool) : (irangeTop lt cell size m inc).Looks := by
  cases m with
  | none => exact .bind (.see _) fun _ => .bind (hs _) fun _ => .pure _
  | some m =>
    refine .bind (looks_bisectMaxes _ _ _) fun _ => .bind (.see _) fun _ => ?_
    split
    · exact .bind (hs _) fun _ => .pure _
    · exact .bind (hc _ _ _) fun _ => .pure _

theorem looks_irangeWith (lo hi : Option κ) (a b r : Bool) : (irangeWith lt cell size lo hi a b r).Looks := by
  unfold irangeWith
  refine .bind (.see _) fun m => ?_
  split
  · exact .pure _
  · cases lo with
    | none => exact .bind (looks_irangeTop hc hs _ _) fun _ => looks_islicePos _ _ _ _ _
    | some m =>
      refine .bind (looks_bisectMaxes _ _ _) fun _ => .bind (.see _) fun _ => ?_
      split
      · exact .pure _
      · exact .bind (hc _ _ _) fun _ => .bind (looks_irangeTop hc hs _ _) fun _ => looks_islicePos _ _ _ _ _
end

theorem SL.looks_irange (E : Env α) (lo hi : Option α) (a b r : Bool) : (SL.irange E lo hi a b r).Looks :=
  looks_irangeWith (fun _ _ _ => .bind (.see _) fun _ => .bind (.see _) fun _ => looks_bisectLoop _ _ (fun _ => .see _) _ _ _ _) (fun _ => .bind (.see _) fun _ => .see _) _ _ _ _ _

theorem SKL.looks_irangeKey (K : KEnv α κ) (lo hi : Option κ) (a b r : Bool) : (SKL.irangeKey K lo hi a b r).Looks :=
  looks_irangeWith (fun _ _ _ => .bind (.see _) fun _ => .bind (.see _) fun _ => looks_bisectLoop _ _ (fun _ => .see _) _ _ _ _) (fun _ => .bind (.see _) fun _ => .see _) _ _ _ _ _

theorem SKL.looks_irange (K : KEnv α κ) (lo hi : Option α) (a b r : Bool) : (SKL.irange K lo hi a b r).Looks :=
  .bind (.lift _) fun _ => .bind (.lift _) fun _ => looks_irangeKey K _ _ _ _ _

theorem looks_compareLoop (cmp : CmpOp → α → α → Except PyErr Bool) (op : CmpOp) (n : Int) (m : Nat) : ∀ ys c, (compareLoop cmp op n m ys c : Run α κ Bool).Looks
  | [], _ => .bind (.see _) fun _ => .pure _
  | y :: ys, c => by
    unfold compareLoop
    refine .bind (.see _) fun got => ?_
    cases got with
    | none => exact .pure _
    | some p =>
      refine .bind (.lift _) fun ne => ?_
      split
      · exact .lift _
      · exact looks_compareLoop cmp op n m ys _

theorem looks_compare (cmp : CmpOp → α → α → Except PyErr Bool) (op : CmpOp) (other : List α) : (compare cmp op other : Run α κ Bool).Looks := by
  unfold compare
  refine .bind (.see _) fun n => ?_
  split
  · exact .pure _
  · split
    · exact .pure _
    · exact looks_compareLoop _ _ _ _ _ _

end Race
end Verif
