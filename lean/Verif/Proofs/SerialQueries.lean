import Verif.Proofs.SerialReads
/-!
# Queries change nothing but the positional index (scaffolding for C93)
-/

namespace Verif
variable {α κ β γ : Type}
namespace Race

/-- The task, run alone, changes nothing but the positional index. -/
def Mild (m : Run α κ β) : Prop := ∀ s x s', m.alone s = some (x, s') → ∃ i o, s' = { s with index := i, offset := o }

theorem Mild.looks {m : Run α κ β} (h : m.Looks) : Mild m := fun s x s' e => ⟨s.index, s.offset, h s x s' e⟩

theorem Mild.bind {m : Run α κ β} {f : β → Run α κ γ} (h : Mild m) (hf : ∀ b, Mild (f b)) : Mild (m >>= f) := by
  intro s x s' e
  rw [Task.alone_bind'] at e
  cases hm : m.alone s with
  | none => rw [hm] at e; cases e
  | some y =>
    obtain ⟨y, t⟩ := y
    obtain ⟨i, o, rfl⟩ := h s y t hm
    rw [hm] at e
    cases y with
    | ok b =>
      obtain ⟨i', o', rfl⟩ := hf b _ _ _ e
      exact ⟨i', o', rfl⟩
    | error e' => cases e; exact ⟨i, o, rfl⟩

theorem Mild.map {m : Run α κ β} (f : β → γ) (h : Mild m) : Mild (f <$> m) := .bind h fun _ => .looks (.pure _)

theorem Mild.pure (b : β) : Mild (Pure.pure b : Run α κ β) := .looks (.pure b)
theorem Mild.see (f : Shared α κ → Except PyErr β) : Mild (Task.see f) := .looks (.see f)
theorem Mild.raise (e : PyErr) : Mild (Task.raise e : Run α κ β) := .looks (.raise e)
theorem Mild.lift (x : Except PyErr β) : Mild (Task.lift x : Run α κ β) := .looks (.lift x)

theorem Mild.index (f : Shared α κ → List Int) : Mild (assign fun s => { s with index := f s } : Run α κ Unit) := fun s _ _ e => by cases e; exact ⟨f s, s.offset, rfl⟩
theorem Mild.offset (n : Nat) : Mild (assign fun s => { s with offset := n } : Run α κ Unit) := fun s _ _ e => by cases e; exact ⟨s.index, n, rfl⟩

theorem mild_ensureIndex (ilog2 : Nat → Nat) : Mild (ensureIndex ilog2 : Run α κ Unit) := by
  refine .bind (.see _) fun i => ?_
  split
  · unfold buildIndex
    refine .bind (.see _) fun row0 => ?_
    split
    · exact .bind (.index _) fun _ => .offset _
    · dsimp only
      repeat' split
      all_goals first | exact .raise _ | exact .bind (.index _) fun _ => .offset _
  · exact .pure _

theorem mild_locLoop : ∀ rounds pos total, Mild (locLoop rounds pos total : Run α κ Int)
  | 0, _, _ => .pure _
  | rounds + 1, pos, total => by
    unfold locLoop
    split
    · exact .pure _
    · split
      · exact .bind (.see _) fun _ => mild_locLoop rounds _ _
      · exact mild_locLoop rounds _ _

theorem mild_loc (ilog2 : Nat → Nat) (pos idx : Nat) : Mild (loc ilog2 pos idx : Run α κ Int) := by
  unfold loc
  split
  · exact .pure _
  · exact .bind (mild_ensureIndex _) fun _ => .bind (.see _) fun _ => .bind (mild_locLoop _ _ _) fun _ => .pure _

theorem mild_posLoop (n : Nat) : ∀ rounds pos child idx, Mild (posLoop n rounds pos child idx : Run α κ (Nat × Int))
  | 0, _, _, _ => .pure _
  | rounds + 1, pos, child, idx => by
    unfold posLoop
    split
    · refine .bind (.see _) fun x => ?_
      split <;> exact mild_posLoop n rounds _ _ _
    · exact .pure _

theorem mild_posNonneg (ilog2 : Nat → Nat) (idx : Int) : Mild (posNonneg ilog2 idx : Run α κ (Int × Int)) := by
  unfold posNonneg
  refine .bind (.see _) fun a => .bind (.see _) fun n => ?_
  split
  · exact .pure _
  · exact .bind (mild_ensureIndex _) fun _ => .bind (.see _) fun _ => .bind (mild_posLoop _ _ _ _ _) fun _ => .bind (.see _) fun _ => .pure _

theorem mild_pos (ilog2 : Nat → Nat) (idx : Int) : Mild (pos ilog2 idx : Run α κ (Int × Int)) := by
  unfold pos
  split
  · refine .bind (.see _) fun a => .bind (.see _) fun n => ?_
    split
    · exact .bind (.see _) fun _ => .pure _
    · refine .bind (.see _) fun n => ?_
      split
      · exact .raise _
      · exact mild_posNonneg _ _
  · refine .bind (.see _) fun n => ?_
    split
    · exact .raise _
    · exact mild_posNonneg _ _

theorem mild_getFar (ilog2 : Nat → Nat) (i : Int) : Mild (getFar ilog2 i : Run α κ α) := by
  unfold getFar
  refine .bind (.see _) fun a => .bind (.see _) fun n => ?_
  split
  · exact .bind (.see _) fun _ => .see _
  · exact .bind (mild_pos _ _) fun _ => .bind (.see _) fun _ => .see _

theorem mild_getInt (ilog2 : Nat → Nat) (i : Int) : Mild (getInt ilog2 i : Run α κ α) := by
  unfold getInt
  refine .bind (.see _) fun n => ?_
  split
  · exact .raise _
  · split
    · exact .bind (.see _) fun _ => .see _
    · split
      · exact .bind (.see _) fun _ => .see _
      · split
        · refine .bind (.see _) fun _ => .bind (.see _) fun _ => ?_
          split
          · exact .bind (.see _) fun _ => .see _
          · exact mild_getFar _ _
        · exact mild_getFar _ _

theorem mild_mapEach {f : β → Run α κ γ} (h : ∀ b, Mild (f b)) : ∀ bs, Mild (mapEach f bs)
  | [] => .pure _
  | b :: bs => .bind (h b) fun _ => .bind (mild_mapEach h bs) fun _ => .pure _

theorem mild_getSliceFwd (ilog2 : Nat → Nat) (a b : Int) : Mild (getSliceFwd ilog2 a b : Run α κ (List α)) := by
  unfold getSliceFwd seeIf
  refine .bind (by split; exact .see _; exact .pure _) fun w => ?_
  split
  · exact .see _
  · unfold getSliceFar
    refine .bind (mild_pos _ _) fun r => .bind (.see _) fun a => .bind (.see _) fun n => ?_
    split
    · exact .see _
    · refine .bind (.see _) fun len => .bind ?_ fun e => .bind (.see _) fun _ => .bind (.see _) fun _ => .bind (.see _) fun _ => .bind (.see _) fun _ => .bind (.see _) fun _ => .bind (.see _) fun _ => .pure _
      unfold sliceEnd
      split
      · exact .bind (.see _) fun _ => .bind (.see _) fun _ => .bind (.see _) fun _ => .pure _
      · exact mild_pos _ _

theorem mild_getSlice (ilog2 : Nat → Nat) (sl : PySlice) : Mild (getSlice ilog2 sl : Run α κ (List α)) := by
  unfold getSlice
  refine .bind (.see _) fun r => ?_
  split
  · exact mild_getSliceFwd _ _ _
  · split
    · refine .bind ?_ fun _ => .pure _
      unfold getSliceStep1
      refine .bind (.see _) fun r => ?_
      split
      · exact mild_getSliceFwd _ _ _
      · exact mild_mapEach (mild_getInt _) _
    · exact mild_mapEach (mild_getInt _) _

theorem mild_islice (ilog2 : Nat → Nat) (a b : Option Int) (r : Bool) : Mild (islice ilog2 a b r : Run α κ (List α)) := by
  unfold islice
  refine .bind (.see _) fun len => ?_
  split
  · exact .pure _
  · refine .bind (.see _) fun r => ?_
    split
    · exact .pure _
    · refine .bind (mild_pos _ _) fun p => .bind ?_ fun q => .looks (looks_islicePos _ _ _ _ _)
      unfold isliceEnd
      split
      · exact .bind (.see _) fun _ => .bind (.see _) fun _ => .bind (.see _) fun _ => .pure _
      · exact mild_pos _ _

theorem SL.looks_bisectCell (E : Env α) (r : Bool) (a : Nat) (x : α) : (SL.bisectCell E r a x).Looks := .bind (.see _) fun _ => looks_bisectLoop _ _ (fun _ => .see _) _ _ _ _
theorem SKL.looks_bisectCell (K : KEnv α κ) (r : Bool) (a : Nat) (x : κ) : (SKL.bisectCell K r a x).Looks := .bind (.see _) fun _ => looks_bisectLoop _ _ (fun _ => .see _) _ _ _ _

theorem SL.mild_bisect (E : Env α) (r : Bool) (v : α) : Mild (SL.bisect E r v) := by
  unfold SL.bisect
  refine .bind (.see _) fun m => ?_
  split
  · exact .pure _
  · refine .bind (.looks (looks_bisectMaxes _ _ _)) fun p => .bind (.see _) fun n => ?_
    split
    · exact .see _
    · exact .bind (.see _) fun _ => .bind (.looks (SL.looks_bisectCell _ _ _ _)) fun _ => mild_loc _ _ _

theorem SL.mild_count (E : Env α) (v : α) : Mild (SL.count E v) := by
  unfold SL.count
  refine .bind (.see _) fun m => ?_
  split
  · exact .pure _
  · refine .bind (.looks (looks_bisectMaxes _ _ _)) fun p => .bind (.see _) fun n => ?_
    split
    · exact .pure _
    · refine .bind (.see _) fun a => .bind (.looks (SL.looks_bisectCell _ _ _ _)) fun i => .bind (.looks (looks_bisectMaxes _ _ _)) fun q => .bind (.see _) fun n => ?_
      split
      · exact .bind (.see _) fun _ => .bind (mild_loc _ _ _) fun _ => .pure _
      · refine .bind (.see _) fun a => .bind (.looks (SL.looks_bisectCell _ _ _ _)) fun j => ?_
        split
        · exact .pure _
        · exact .bind (mild_loc _ _ _) fun _ => .bind (mild_loc _ _ _) fun _ => .pure _

theorem SL.mild_index (E : Env α) (v : α) (a b : Option Int) : Mild (SL.index E v a b) := by
  unfold SL.index
  refine .bind (.see _) fun len => ?_
  split
  · exact .raise _
  · dsimp only
    split
    · exact .raise _
    · refine .bind (.looks (looks_bisectMaxes _ _ _)) fun p => .bind (.see _) fun n => ?_
      split
      · exact .raise _
      · refine .bind (.see _) fun _ => .bind (.looks (SL.looks_bisectCell _ _ _ _)) fun _ => .bind (.see _) fun _ => .bind (.see _) fun _ => .bind (.lift _) fun ne => ?_
        split
        · exact .raise _
        · refine .bind (mild_loc _ _ _) fun l => ?_
          split
          · split
            · exact .pure _
            · exact .raise _
          · refine .bind (SL.mild_bisect E _ _) fun r => ?_
            split
            · exact .pure _
            · exact .raise _

theorem SKL.mild_bisectKey (K : KEnv α κ) (r : Bool) (key : κ) : Mild (SKL.bisectKey K r key) := by
  unfold SKL.bisectKey
  refine .bind (.see _) fun m => ?_
  split
  · exact .pure _
  · refine .bind (.looks (looks_bisectMaxes _ _ _)) fun p => .bind (.see _) fun n => ?_
    split
    · exact .see _
    · exact .bind (.see _) fun _ => .bind (.looks (SKL.looks_bisectCell _ _ _ _)) fun _ => mild_loc _ _ _

theorem SKL.mild_indexLoop (K : KEnv α κ) (key : κ) (v : α) (a b : Int) (n : Nat) : ∀ fuel pos idx len, Mild (SKL.indexLoop K key v a b n fuel pos idx len)
  | 0, _, _, _ => .looks .spin
  | fuel + 1, pos, idx, len => by
    unfold SKL.indexLoop
    refine .bind (.see _) fun _ => .bind (.see _) fun _ => .bind (.lift _) fun ne => ?_
    split
    · exact .raise _
    · refine .bind (.see _) fun _ => .bind (.see _) fun _ => .bind (.lift _) fun eq => .bind ?_ fun r => ?_
      · unfold SKL.indexHit
        split
        · refine .bind (mild_loc _ _ _) fun l => ?_
          split
          · exact .pure _
          · split
            · exact .raise _
            · exact .pure _
        · exact .pure _
      · cases r with
        | some r => exact .pure _
        | none =>
          dsimp only
          split
          · split
            · exact .raise _
            · exact .bind (.see _) fun _ => .bind (.see _) fun _ => SKL.mild_indexLoop K key v a b n fuel _ _ _
          · exact SKL.mild_indexLoop K key v a b n fuel _ _ _

theorem SKL.mild_index (K : KEnv α κ) (fuel : Nat) (v : α) (a b : Option Int) : Mild (SKL.index K fuel v a b) := by
  unfold SKL.index
  refine .bind (.see _) fun len => ?_
  split
  · exact .raise _
  · dsimp only
    split
    · exact .raise _
    · refine .bind (.lift _) fun key => .bind (.looks (looks_bisectMaxes _ _ _)) fun p => .bind (.see _) fun n => ?_
      split
      · exact .raise _
      · exact .bind (.see _) fun _ => .bind (.looks (SKL.looks_bisectCell _ _ _ _)) fun _ => .bind (.see _) fun _ => .bind (.see _) fun _ => .bind (.see _) fun _ => SKL.mild_indexLoop _ _ _ _ _ _ _ _ _ _

end Race
end Verif
