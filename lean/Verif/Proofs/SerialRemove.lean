import Verif.Proofs.SerialSets
/-!
# `remove`, `discard`, `in`, `bisect` and `count` compare first and change the list afterwards

(`bisect` and `count` may build the positional index.)
-/

namespace Verif
variable {σ β γ α κ ν : Type}

theorem Task.Looks.whole {late : PyErr → Prop} {m : Task σ β} (h : m.Looks) : m.Whole late := fun s _ s' e => .inr (h s _ s' e)
theorem Task.Looks.spin : (.spin : Task σ β).Looks := fun _ _ _ e => by cases e
theorem Task.Looks.raise (e : PyErr) : (Task.raise e : Task σ β).Looks := fun _ _ _ e => by cases e; rfl

/-- A program that changes nothing if it raises, except `late`, and one that raises only `late`. -/
theorem Task.Whole.then {late : PyErr → Prop} {m : Task σ β} {f : β → Task σ γ} (h : m.Whole late) (hf : ∀ b s e s', (f b).alone s = some (.error e, s') → late e) : (m >>= f).Whole late := by
  intro s e s' he
  rw [Task.alone_bind'] at he
  cases hm : m.alone s with
  | none => rw [hm] at he; cases he
  | some y =>
    obtain ⟨y, t⟩ := y
    rw [hm] at he
    cases y with
    | ok b => exact .inl (hf b _ _ _ he)
    | error e' => cases he; exact h _ _ _ hm

namespace Race
open Bounds

theorem SL.looks_contains (E : Env α) (v : α) : (SL.contains E v).Looks := by
  unfold SL.contains
  refine .bind (.see _) fun m => ?_
  split
  · exact .pure _
  · refine .bind (looks_bisectMaxes _ _ _) fun p => .bind (.see _) fun n => ?_
    split
    · exact .pure _
    · exact .bind (.see _) fun a => .bind (.bind (.see _) fun _ => looks_bisectLoop _ _ (fun _ => .see _) _ _ _ _) fun i => .bind (.see _) fun a => .bind (.see _) fun x => .lift _

theorem SL.whole_discard (E : Env α) (fuel : Nat) (v : α) : (SL.discard E fuel v).Whole fun e => e = .indexError ∨ e = .valueError := by
  unfold SL.discard
  refine .bind (.see _) fun m => ?_
  split
  · exact (Task.Looks.pure _).whole
  · refine .bind (looks_bisectMaxes _ _ _) fun p => .bind (.see _) fun n => ?_
    split
    · exact (Task.Looks.pure _).whole
    · refine .bind (.see _) fun a => .bind (.bind (.see _) fun _ => looks_bisectLoop _ _ (fun _ => .see _) _ _ _ _) fun i => .bind (.see _) fun a => .bind (.see _) fun x => .bind (.lift _) fun b => ?_
      split
      · exact whole_late fun s hs => Safe.SL_delete id fuel _ _ hs
      · exact (Task.Looks.pure _).whole

theorem SL.whole_remove (E : Env α) (fuel : Nat) (v : α) : (SL.remove E fuel v).Whole fun e => e = .indexError ∨ e = .valueError := by
  unfold SL.remove
  refine .bind (.see _) fun m => ?_
  split
  · exact (Task.Looks.raise _).whole
  · refine .bind (looks_bisectMaxes _ _ _) fun p => .bind (.see _) fun n => ?_
    split
    · exact (Task.Looks.raise _).whole
    · refine .bind (.see _) fun a => .bind (.bind (.see _) fun _ => looks_bisectLoop _ _ (fun _ => .see _) _ _ _ _) fun i => .bind (.see _) fun a => .bind (.see _) fun x => .bind (.lift _) fun b => ?_
      split
      · exact whole_late fun s hs => Safe.SL_delete id fuel _ _ hs
      · exact (Task.Looks.raise _).whole

theorem SKL.looks_find (K : KEnv α κ) (key : κ) (v : α) (n : Nat) : ∀ fuel pos idx len, (SKL.find K key v n fuel pos idx len).Looks
  | 0, _, _, _ => .spin
  | fuel + 1, pos, idx, len => by
    unfold SKL.find
    refine .bind (.see _) fun b => .bind (.see _) fun k => .bind (.lift _) fun ne => ?_
    split
    · exact .pure _
    · refine .bind (.see _) fun a => .bind (.see _) fun x => .bind (.lift _) fun eq => ?_
      split
      · exact .pure _
      · split
        · split
          · exact .pure _
          · exact .bind (.see _) fun b => .bind (.see _) fun m => looks_find K key v n fuel _ _ _
        · exact looks_find K key v n fuel _ _ _

theorem SKL.looks_search (K : KEnv α κ) (fuel : Nat) (v : α) : (SKL.search K fuel v).Looks := by
  unfold SKL.search
  refine .bind (.see _) fun m => ?_
  split
  · exact .pure _
  · refine .bind (.lift _) fun key => .bind (looks_bisectMaxes _ _ _) fun p => .bind (.see _) fun n => ?_
    split
    · exact .pure _
    · exact .bind (.see _) fun b => .bind (.bind (.see _) fun _ => looks_bisectLoop _ _ (fun _ => .see _) _ _ _ _) fun i => .bind (.see _) fun n => .bind (.see _) fun b => .bind (.see _) fun m =>
        looks_find K _ _ _ _ _ _ _

theorem SKL.looks_contains (K : KEnv α κ) (fuel : Nat) (v : α) : (SKL.contains K fuel v).Looks :=
  .bind (looks_search K fuel v) fun r => by
    split
    · exact .pure _
    · exact .pure _

theorem SKL.whole_discard (K : KEnv α κ) (fuel : Nat) (v : α) : (SKL.discard K fuel v).Whole fun e => e = .indexError ∨ e = .valueError :=
  .bind (looks_search K fuel v) fun r => by
    split
    · exact whole_late fun s hs => Safe.SKL_delete id fuel _ _ hs
    · exact (Task.Looks.pure _).whole

theorem SKL.whole_remove (K : KEnv α κ) (fuel : Nat) (v : α) : (SKL.remove K fuel v).Whole fun e => e = .indexError ∨ e = .valueError :=
  .bind (looks_search K fuel v) fun r => by
    split
    · exact whole_late fun s hs => Safe.SKL_delete id fuel _ _ hs
    · exact (Task.Looks.raise _).whole

theorem whole_slow {m : Run α κ β} (h : ∀ s, late.Holds s → late.Safe (fun _ _ => True) s m) : m.Whole fun e => e = .indexError ∨ e = .valueError := fun s e s' he =>
  .inl (((h s (late_holds s)).alone (late_holds s)).2 _ _ he |>.2.2 e rfl)

theorem SL.whole_bisect (E : Env α) (right : Bool) (v : α) : (SL.bisect E right v).Whole fun e => e = .indexError ∨ e = .valueError := by
  unfold SL.bisect
  refine .bind (.see _) fun m => ?_
  split
  · exact (Task.Looks.pure _).whole
  · refine .bind (looks_bisectMaxes _ _ _) fun p => .bind (.see _) fun n => ?_
    split
    · exact (Task.Looks.see _).whole
    · exact .bind (.see _) fun a => .bind (.bind (.see _) fun _ => looks_bisectLoop _ _ (fun _ => .see _) _ _ _ _) fun i => whole_slow fun s hs => Safe.loc _ _ _ hs

theorem SL.whole_count (E : Env α) (v : α) : (SL.count E v).Whole fun e => e = .indexError ∨ e = .valueError := by
  unfold SL.count
  refine .bind (.see _) fun m => ?_
  split
  · exact (Task.Looks.pure _).whole
  · refine .bind (looks_bisectMaxes _ _ _) fun p => .bind (.see _) fun n => ?_
    split
    · exact (Task.Looks.pure _).whole
    · refine .bind (.see _) fun a => .bind (.bind (.see _) fun _ => looks_bisectLoop _ _ (fun _ => .see _) _ _ _ _) fun i => .bind (looks_bisectMaxes _ _ _) fun q => .bind (.see _) fun n => ?_
      split
      · refine .bind (.see _) fun len => whole_slow fun s hs => ?_
        go Safe.loc _ _ _ (by assumption)
        exact Safe.pure trivial
      · refine .bind (.see _) fun a => .bind (.bind (.see _) fun _ => looks_bisectLoop _ _ (fun _ => .see _) _ _ _ _) fun j => ?_
        split
        · exact (Task.Looks.pure _).whole
        · refine whole_slow fun s hs => ?_
          go Safe.loc _ _ _ (by assumption)
          go Safe.loc _ _ _ (by assumption)
          exact Safe.pure trivial

theorem SKL.whole_bisectKey (K : KEnv α κ) (right : Bool) (key : κ) : (SKL.bisectKey K right key).Whole fun e => e = .indexError ∨ e = .valueError := by
  unfold SKL.bisectKey
  refine .bind (.see _) fun m => ?_
  split
  · exact (Task.Looks.pure _).whole
  · refine .bind (looks_bisectMaxes _ _ _) fun p => .bind (.see _) fun n => ?_
    split
    · exact (Task.Looks.see _).whole
    · exact .bind (.see _) fun a => .bind (.bind (.see _) fun _ => looks_bisectLoop _ _ (fun _ => .see _) _ _ _ _) fun i => whole_slow fun s hs => Safe.loc _ _ _ hs

theorem SKL.whole_bisect (K : KEnv α κ) (right : Bool) (v : α) : (SKL.bisect K right v).Whole fun e => e = .indexError ∨ e = .valueError :=
  .bind (.lift _) fun key => whole_bisectKey K right key

theorem SKL.looks_countLoop (K : KEnv α κ) (key : κ) (v : α) (n : Nat) : ∀ fuel pos idx len total, (SKL.countLoop K key v n fuel pos idx len total).Looks
  | 0, _, _, _, _ => .spin
  | fuel + 1, pos, idx, len, total => by
    unfold SKL.countLoop
    refine .bind (.see _) fun b => .bind (.see _) fun k => .bind (.lift _) fun ne => ?_
    split
    · exact .pure _
    · refine .bind (.see _) fun a => .bind (.see _) fun x => .bind (.lift _) fun eq => ?_
      dsimp only
      split
      · split
        · exact .pure _
        · exact .bind (.see _) fun b => .bind (.see _) fun m => looks_countLoop K key v n fuel _ _ _ _
      · exact looks_countLoop K key v n fuel _ _ _ _

theorem SKL.looks_count (K : KEnv α κ) (fuel : Nat) (v : α) : (SKL.count K fuel v).Looks := by
  unfold SKL.count
  refine .bind (.see _) fun m => ?_
  split
  · exact .pure _
  · refine .bind (.lift _) fun key => .bind (looks_bisectMaxes _ _ _) fun p => .bind (.see _) fun n => ?_
    split
    · exact .pure _
    · exact .bind (.see _) fun b => .bind (.bind (.see _) fun _ => looks_bisectLoop _ _ (fun _ => .see _) _ _ _ _) fun i => .bind (.see _) fun n => .bind (.see _) fun b => .bind (.see _) fun m =>
        looks_countLoop K _ _ _ _ _ _ _ _

theorem whole_remove (c : ListClass α) (fuel : Nat) (v : α) : ((c.race fuel).remove v).Whole fun e => e = .indexError ∨ e = .valueError := by
  cases c with
  | plain E => exact SL.whole_remove E fuel v
  | keyed K => exact SKL.whole_remove K fuel v

theorem SD.whole_pop (eqv : κ → κ → Bool) (c : ListClass κ) (fuel : Nat) (k : κ) (default : Option ν) :
    (SD.pop eqv (c.race fuel) k default : Task (Verif.SD κ ν c.Memory) ν).Whole fun e => e = .indexError ∨ e = .valueError ∨ e = .keyError := by
  unfold SD.pop
  refine .bind (.see _) fun there => ?_
  split
  · refine Task.Whole.then (fun s e s' h => (SD.whole_onList (whole_remove c fuel k) s e s' h).imp (fun h => h.imp id .inl) id) fun _ s e s' h => ?_
    change some (PyDict.getitem eqv s.dict k, _) = some (.error e, s') at h
    cases hg : PyDict.getitem eqv s.dict k with
    | ok v => rw [hg] at h; cases h
    | error e' =>
      rw [hg] at h
      cases h
      unfold PyDict.getitem at hg
      split at hg <;> cases hg
      exact .inr (.inr rfl)
  · cases default with
    | none => exact (Task.Looks.raise _).whole
    | some v => exact (Task.Looks.pure _).whole

end Race
end Verif
