import Verif.Proofs.RaceAloneSKL
import Verif.Proofs.LockedSL
/-!
# Calls on a SortedKeyList under a lock
-/

namespace Verif
variable {α κ β γ δ : Type}

namespace Race
namespace Agrees

theorem cast {s : Shared α κ} {t : St α κ} {m : Run α κ Int} {p : Py (St α κ) Nat} (h : Agrees Int.ofNat m s p t) :
    Agrees id m s (do let n ← p; Pure.pure (n : Int)) t := by
  unfold Agrees at *
  rcases hp : p t with ⟨e | c, t'⟩ <;> rw [hp] at h
  · rw [Py.bind_error hp]
    exact h.imp (fun h => by cases h; rfl) fun ⟨s', h1, h2⟩ => ⟨s', h1, h2⟩
  · rw [Py.bind_ok hp]
    exact h.imp (fun h => by cases h) fun ⟨s', h1, h2⟩ => ⟨s', h1, h2⟩

theorem SKL_step {K : KEnv α κ} {key : α → κ} {klt : κ → κ → Bool} {veq : α → α → Bool} (hK : K.Lawful key klt veq) {fuel : Nat} (op : Op α) {s : Shared α κ} {t : St α κ} (hM : Mirrors s t)
    (h : Inv key klt true t) (hv : op.Valid) (hf0 : ((Core.iter t).length + op.given.length) * 2 ^ op.doubles < fuel - 1) : Agrees id (Race.SKL.step K fuel op) s ((Verif.SKL.api K).step op) t := by
  have hF := Fits.of_inv h
  have hf : (Core.iter t).length + op.given.length < fuel - 1 := Nat.lt_of_le_of_lt (Nat.le_mul_of_pos_right _ (Nat.two_pow_pos _)) hf0
  have hl := keys_length h
  have hr : t.keys.flatten.length < fuel := by rw [keys_flat h]; omega
  cases op with
  | add v => exact (SKL_add fuel v hM hF hl h.maxes.length_eq).out fun _ => rfl
  | update xs => exact (SKL_update hK hM h (by simp only [Op.given] at hf; omega)).out fun _ => rfl
  | discard v => exact (SKL_discard v hM hF hl hr).out fun _ => rfl
  | remove v => exact (SKL_remove v hM hF hl hr).out fun _ => rfl
  | clear => exact (SKL_clear hM).out fun _ => rfl
  | delInt i => exact (SKL_delInt hK fuel i hM h).out fun _ => rfl
  | pop i => exact (SKL_pop hK fuel i hM h).out fun _ => rfl
  | contains v => exact (SKL_contains v hM hr).out fun _ => rfl
  | getInt i => exact (getInt K.ilog2 i hM h.lists_ne_nil).out fun _ => rfl
  | bisectLeft v => exact (SKL_bisect_left v hM h).out fun _ => rfl
  | bisectRight v => exact (SKL_bisect_right v hM h).out fun _ => rfl
  | count v => exact (SKL_count v hM hr).cast.out fun _ => rfl
  | len => exact .inr ⟨s, by rw [Race.SKL.step, Task.alone_map, length hM]; rfl, hM⟩
  | iter => exact .inr ⟨s, by rw [Race.SKL.step, Task.alone_map, toList, alone_see, hM.contents]; rfl, hM⟩
  | reversed => exact (reversed hM).out fun _ => rfl
  | getSlice sl => exact (getSlice K.ilog2 sl hM h.lists_ne_nil).out fun _ => rfl
  | delSlice sl => exact (SKL_delSlice hK sl hM h (by omega)).out fun _ => rfl
  | islice a b r => exact (islice K.ilog2 a b r hM).out fun _ => rfl
  | irange lo hi a b r => exact (SKL_irange lo hi a b r hM).out fun _ => rfl
  | index v a b => exact (SKL_index v a b hM h.lists_ne_nil hr).out fun _ => rfl
  | iadd xs => exact (SKL_update hK hM h (by simp only [Op.given] at hf; omega)).out fun _ => rfl
  | compare o other => exact (compare K.vcmp o other hM).out fun _ => rfl
  | copy => exact (SKL_copy hM).out fun _ => rfl
  | concat xs => exact (SKL_concat xs hM).out fun _ => rfl
  | mul n => exact (SKL_mul n hM).out fun _ => rfl
  | imul n => exact (SKL_imul hK n hM h (by simpa [Op.given, Op.doubles] using hf0)).out fun _ => rfl
  | reset load => exact (SKL_reset hK hv hM h (by simpa [Op.given] using hf)).out fun _ => rfl
  | unsupported u => exact .inr ⟨s, rfl, hM⟩

/-- A call on a SortedKeyList ends, with the answer of the method. -/
theorem SKL_ends {K : KEnv α κ} {key : α → κ} {klt : κ → κ → Bool} {veq : α → α → Bool} (hK : K.Lawful key klt veq) {fuel : Nat} (op : Op α) {s : Shared α κ} {t : St α κ} (hM : Mirrors s t)
    (h : Inv key klt true t) (hv : op.Valid) (hf : ((Core.iter t).length + op.given.length) * 2 ^ op.doubles < fuel - 1) :
    ∃ s', (Race.SKL.step K fuel op).alone s = some (((Verif.SKL.api K).step op t).1, s') ∧ Mirrors s' ((Verif.SKL.api K).step op t).2 := by
  by_cases hc : ∃ o other, op = .compare o other
  · obtain ⟨o, other, rfl⟩ := hc
    refine ⟨s, ?_, ?_⟩
    · rw [show Race.SKL.step K fuel (.compare o other) = Out.bool <$> Race.compare K.vcmp o other from rfl, compare_alone _ _ _ hM]
      exact congrArg (fun x => some (x, s)) (read_out (x := Core.compare K.vcmp o other) (g := Out.bool)).symm
    · rw [show ((Verif.SKL.api K).step (Op.compare o other) t).2 = t from read_out' (x := Core.compare K.vcmp o other) (g := Out.bool)]; exact hM
  · rcases SKL_step hK op hM h hv hf with hg | ⟨s', e, hM'⟩
    · obtain ⟨h1, -, -⟩ := (Verif.SKL.api_lawful hK).step op hv t h
      exact absurd (h1 ▸ hg) (Spec.step_no_gap _ op (fun o other e => hc ⟨o, other, e⟩) _)
    · have hid : ∀ x : Except PyErr (Out α), Except.map id x = x := fun x => by cases x <;> rfl
      exact ⟨s', by rw [e, hid], hM'⟩

/-- The same, searches by key included. -/
theorem SKL_call_ends {K : KEnv α κ} {key : α → κ} {klt : κ → κ → Bool} {veq : α → α → Bool} (hK : K.Lawful key klt veq) {fuel : Nat} (op : KOp α κ) {s : Shared α κ} {t : St α κ} (hM : Mirrors s t)
    (h : Inv key klt true t) (hv : op.Valid) (hf : ((Core.iter t).length + op.given.length) * 2 ^ op.doubles < fuel - 1) :
    ∃ s', (Race.SKL.call K fuel op).alone s = some ((Verif.SKL.kstep K op t).1, s') ∧ Mirrors s' (Verif.SKL.kstep K op t).2 := by
  have hid : ∀ x : Except PyErr (Out α), Except.map id x = x := fun x => by cases x <;> rfl
  have fin : ∀ op : KOp α κ, op.Valid → (Spec.kstep key klt (Spec.Order.ofKey key klt veq K.vcmp) op (Core.iter t)).1 ≠ .error .modelGap →
      Agrees id (Race.SKL.call K fuel op) s (Verif.SKL.kstep K op) t →
      ∃ s', (Race.SKL.call K fuel op).alone s = some ((Verif.SKL.kstep K op t).1, s') ∧ Mirrors s' (Verif.SKL.kstep K op t).2 := by
    intro op hv hn ha
    obtain ⟨h1, -, -⟩ := Verif.SKL.kstep_refines hK op hv t h
    rcases ha with hg | ⟨s', e, hM'⟩
    · exact absurd (h1 ▸ hg) hn
    · exact ⟨s', by rw [e, hid], hM'⟩
  cases op with
  | op o => exact SKL_ends hK o hM h hv hf
  | bisectKeyLeft k => exact fin (.bisectKeyLeft k) trivial (by simp [Spec.kstep, Spec.out, Spec.bisectKeyLeft]) ((SKL_bisect_key_left k hM h).out fun _ => rfl)
  | bisectKeyRight k => exact fin (.bisectKeyRight k) trivial (by simp [Spec.kstep, Spec.out, Spec.bisectKeyRight]) ((SKL_bisect_key_right k hM h).out fun _ => rfl)
  | irangeKey lo hi a b r => exact fin (.irangeKey lo hi a b r) trivial (by simp [Spec.kstep, Spec.out, Spec.irangeKey]) ((SKL_irangeKey lo hi a b r hM).out fun _ => rfl)

end Agrees

theorem SKL.follows {K : KEnv α κ} {key : α → κ} {klt : κ → κ → Bool} {veq : α → α → Bool} (hK : K.Lawful key klt veq) (fuel : Nat) :
    Guarded.Grows KOp.Valid (SKL.call K fuel) (Spec.kstep key klt (Spec.Order.ofKey key klt veq K.vcmp)) (Holds key klt true) List.length (fun op => op.given.length) KOp.doubles (fuel - 1) := by
  rintro op s l hv ⟨t, hM, h, rfl⟩ hf
  obtain ⟨h1, h2, h3⟩ := Verif.SKL.kstep_refines hK op hv t h
  obtain ⟨s', e, hM'⟩ := Agrees.SKL_call_ends hK op hM h hv hf
  exact ⟨s', by rw [e, h1], ⟨_, hM', h3, h2⟩, Spec.kstep_length _ key klt op _⟩

end Race
end Verif
