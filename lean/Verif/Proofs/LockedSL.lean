import Verif.Proofs.RaceAloneNew
import Verif.Proofs.Locked
/-!
# Calls on a SortedList under a lock
-/

namespace Verif
variable {α κ β γ δ : Type}

namespace Spec
variable (O : Order α)

theorem insert_length' (l : List α) (v : α) : (insert O l v).length = l.length + 1 := by
  have := congrArg List.length (List.takeWhile_append_dropWhile (p := fun x => !O.lt v x) (l := l))
  simp only [insert, List.length_append, List.length_cons] at this ⊢
  omega

theorem insertAll_length' (l xs : List α) : (insertAll O l xs).length = l.length + xs.length := by
  induction xs generalizing l with
  | nil => rfl
  | cons x xs ih =>
    show (insertAll O (insert O l x) xs).length = _
    rw [ih, insert_length', List.length_cons]; omega

theorem deletePositions_length (ps : List Nat) (l : List α) : (deletePositions ps l).length ≤ l.length := by
  unfold deletePositions
  rw [List.length_map]
  exact Nat.le_trans (List.length_filter_le _ _) (by simp)

theorem slicePositions_no_gap (sl : PySlice) (n : Nat) : slicePositions sl n ≠ .error .modelGap := by
  unfold slicePositions
  split
  · rename_i e he
    unfold PySlice.indices at he
    dsimp only at he
    split at he <;> cases he
    simp
  · simp

theorem repeatList_length (l : List α) (n : Int) : (repeatList l n).length = n.toNat * l.length := by
  simp [repeatList, List.length_flatten]

theorem step_length (op : Op α) (l : List α) : (step O op l).2.length ≤ (l.length + op.given.length) * 2 ^ op.doubles := by
  have he := fun p => (List.eraseP_sublist (p := p) (l := l)).length_le
  have hi := fun i => (List.eraseIdx_sublist l i).length_le
  cases op <;> simp only [step, out, Op.given, Op.doubles, Nat.pow_zero, Nat.mul_one]
  case add v => simp [add, insert_length']
  case update xs => simp [update, insertAll_length']
  case discard v => exact he _
  case remove v =>
    unfold remove
    split <;> rename_i e <;> split at e <;> cases e <;> simp
    exact he _
  case clear => simp [clear]
  case delInt i =>
    unfold delInt
    split <;> rename_i e <;> split at e <;> cases e <;> simp
    exact hi _
  case pop i =>
    unfold pop
    split <;> rename_i e <;> split at e <;> (try split at e) <;> cases e <;> simp
    exact hi _
  case contains v => simp [contains]
  case getInt i =>
    unfold getInt
    split <;> rename_i e <;> split at e <;> cases e <;> simp
  case bisectLeft v => simp [bisectLeft]
  case bisectRight v => simp [bisectRight]
  case count v => simp [count]
  case len => simp [len]
  case iter => simp [iter]
  case reversed => simp [reversed]
  case getSlice sl =>
    unfold getSlice
    split <;> rename_i e <;> split at e <;> cases e <;> simp
  case delSlice sl =>
    unfold delSlice
    split <;> rename_i e <;> split at e <;> cases e <;> simp
    exact deletePositions_length _ _
  case islice a b r =>
    unfold islice
    split <;> rename_i e <;> split at e <;> cases e <;> simp
  case irange lo hi a b r => simp [irange]
  case index v a b =>
    unfold index
    split <;> rename_i e <;> dsimp only at e <;> split at e <;> cases e <;> simp
  case iadd xs => simp [update, insertAll_length']
  case compare o other =>
    have e : (compare O o other l).2 = l := by unfold compare; split <;> (try split) <;> rfl
    rcases hx : compare O o other l with ⟨x | x, l'⟩ <;> rw [hx] at e <;> exact Nat.le_of_eq (congrArg List.length e)
  case copy => simp [copy]
  case concat xs => simp [concat]
  case mul n => simp [mul]
  case imul n =>
    simp only [imul, insertAll_length', List.length_nil, Nat.zero_add, Nat.add_zero]
    rw [repeatList_length, Nat.mul_comm]
    exact Nat.mul_le_mul_left _ (Nat.le_of_lt Nat.lt_two_pow_self)
  case reset load => simp [reset]
  case unsupported u => simp [unsupported]

theorem step_no_gap (op : Op α) (hop : ∀ o other, op ≠ .compare o other) (l : List α) : (step O op l).1 ≠ .error .modelGap := by
  cases op <;> simp only [step, out]
  case remove v =>
    unfold remove
    split <;> rename_i e <;> split at e <;> cases e <;> simp
  case delInt i =>
    unfold delInt
    split <;> rename_i e <;> split at e <;> cases e <;> simp
  case pop i =>
    unfold pop
    split <;> rename_i e <;> split at e <;> (try split at e) <;> cases e <;> simp
  case getInt i =>
    unfold getInt
    split <;> rename_i e <;> split at e <;> cases e <;> simp
  case getSlice sl =>
    have := slicePositions_no_gap sl l.length
    unfold getSlice
    split <;> rename_i e <;> split at e <;> cases e <;> simp_all
  case delSlice sl =>
    have := slicePositions_no_gap sl l.length
    unfold delSlice
    split <;> rename_i e <;> split at e <;> cases e <;> simp_all
  case islice a b r =>
    have := slicePositions_no_gap { start := a, stop := b } l.length
    unfold islice getSlice
    split <;> rename_i e <;> split at e <;> cases e <;> simp_all
    split at * <;> simp_all
  case index v a b =>
    unfold index
    split <;> rename_i e <;> dsimp only at e <;> split at e <;> cases e <;> simp
  case compare o other => exact absurd rfl (hop o other)
  all_goals simp [unsupported, copy, concat, mul, imul, reset, reversed, irange, add, update, discard, clear, contains, bisectLeft, bisectRight, count, len, iter]

theorem kstep_length (key : α → κ) (klt : κ → κ → Bool) (op : KOp α κ) (l : List α) : (kstep key klt O op l).2.length ≤ (l.length + op.given.length) * 2 ^ op.doubles := by
  cases op with
  | op o => exact step_length O o l
  | bisectKeyLeft k => exact Nat.le_of_eq (by simp [kstep, out, bisectKeyLeft, KOp.given, KOp.doubles])
  | bisectKeyRight k => exact Nat.le_of_eq (by simp [kstep, out, bisectKeyRight, KOp.given, KOp.doubles])
  | irangeKey lo hi a b r => exact Nat.le_of_eq (by simp [kstep, out, irangeKey, KOp.given, KOp.doubles])

end Spec

namespace Race
namespace Agrees

theorem out {s : Shared α κ} {t : St α κ} {f : γ → β} {m : Run α κ β} {p : Py (St α κ) γ} (h : Agrees f m s p t) {g : β → Out α} {g' : γ → Out α} (e : ∀ c, g (f c) = g' c) :
    Agrees id (g <$> m) s (Spec.out g' p) t := by
  unfold Agrees Spec.out at *
  rcases hp : p t with ⟨e | c, t'⟩ <;> rw [hp] at h
  · exact h.imp (fun h => by cases h; rfl) fun ⟨s', h1, h2⟩ => ⟨s', by rw [Task.alone_map, h1]; rfl, h2⟩
  · refine h.imp (fun h => by cases h) fun ⟨s', h1, h2⟩ => ⟨s', by rw [Task.alone_map, h1]; simp [Except.map, e], h2⟩

theorem read_out {x : St α κ → Except PyErr γ} {g : γ → Out α} {t : St α κ} : (Spec.out g (ListAPI.read x) t).1 = (x t).map g := by
  unfold Spec.out ListAPI.read
  cases x t <;> rfl

theorem read_out' {x : St α κ → Except PyErr γ} {g : γ → Out α} {t : St α κ} : (Spec.out g (ListAPI.read x) t).2 = t := by
  unfold Spec.out ListAPI.read
  cases x t <;> rfl

theorem SL_step {E : Env α} {lt : α → α → Bool} (hE : E.Lawful lt) {fuel : Nat} (op : Op α) {s : Shared α α} {t : St α α} (hM : Mirrors s t) (h : Inv id lt false t)
    (hv : op.Valid) (hf0 : ((Core.iter t).length + op.given.length) * 2 ^ op.doubles < fuel) : Agrees id (Race.SL.step E fuel op) s ((Verif.SL.api E).step op) t := by
  have hF := Fits.of_inv h
  have hf : (Core.iter t).length + op.given.length < fuel := Nat.lt_of_le_of_lt (Nat.le_mul_of_pos_right _ (Nat.two_pow_pos _)) hf0
  cases op with
  | add v => exact (SL_add fuel v hM hF h.maxes.length_eq).out fun _ => rfl
  | update xs => exact (SL_update hE hM h hf).out fun _ => rfl
  | discard v => exact (SL_discard fuel v hM hF).out fun _ => rfl
  | remove v => exact (SL_remove fuel v hM hF).out fun _ => rfl
  | clear => exact (SL_clear hM).out fun _ => rfl
  | delInt i => exact (SL_delInt hE fuel i hM h).out fun _ => rfl
  | pop i => exact (SL_pop hE fuel i hM h).out fun _ => rfl
  | contains v => exact (SL_contains v hM).out fun _ => rfl
  | getInt i => exact (getInt E.ilog2 i hM h.lists_ne_nil).out fun _ => rfl
  | bisectLeft v => exact (SL_bisect_left v hM h).out fun _ => rfl
  | bisectRight v => exact (SL_bisect_right v hM h).out fun _ => rfl
  | count v => exact (SL_count v hM h).out fun _ => rfl
  | len => exact .inr ⟨s, by rw [Race.SL.step, Task.alone_map, length hM]; rfl, hM⟩
  | iter => exact .inr ⟨s, by rw [Race.SL.step, Task.alone_map, toList, alone_see, hM.contents]; rfl, hM⟩
  | reversed => exact (reversed hM).out fun _ => rfl
  | getSlice sl => exact (getSlice E.ilog2 sl hM h.lists_ne_nil).out fun _ => rfl
  | delSlice sl => exact (SL_delSlice hE sl hM h (by omega)).out fun _ => rfl
  | islice a b r => exact (islice E.ilog2 a b r hM).out fun _ => rfl
  | irange lo hi a b r => exact (SL_irange lo hi a b r hM).out fun _ => rfl
  | index v a b => exact (SL_index v a b hM h).out fun _ => rfl
  | iadd xs => exact (SL_update hE hM h hf).out fun _ => rfl
  | compare o other => exact (compare E.cmp o other hM).out fun _ => rfl
  | copy => exact (SL_copy hM).out fun _ => rfl
  | concat xs => exact (SL_concat xs hM).out fun _ => rfl
  | mul n => exact (SL_mul n hM).out fun _ => rfl
  | imul n => exact (SL_imul hE n hM h (by simpa [Op.given, Op.doubles] using hf0)).out fun _ => rfl
  | reset load => exact (SL_reset hE hv hM h (by simpa [Op.given] using hf)).out fun _ => rfl
  | unsupported u => exact .inr ⟨s, rfl, hM⟩

theorem compare_alone {s : Shared α κ} {t : St α κ} (cmp : CmpOp → α → α → Except PyErr Bool) (o : CmpOp) (other : List α) (hM : Mirrors s t) :
    (Out.bool <$> Race.compare cmp o other : Run α κ (Out α)).alone s = some ((Core.compare cmp o other t).map Out.bool, s) := by
  rw [Task.alone_map, alone_compare _ _ _ hM]; rfl

/-- A call on a SortedList ends, with the answer of the method. -/
theorem SL_ends {E : Env α} {lt : α → α → Bool} (hE : E.Lawful lt) {fuel : Nat} (op : Op α) {s : Shared α α} {t : St α α} (hM : Mirrors s t) (h : Inv id lt false t)
    (hv : op.Valid) (hf : ((Core.iter t).length + op.given.length) * 2 ^ op.doubles < fuel) :
    ∃ s', (Race.SL.step E fuel op).alone s = some (((Verif.SL.api E).step op t).1, s') ∧ Mirrors s' ((Verif.SL.api E).step op t).2 := by
  by_cases hc : ∃ o other, op = .compare o other
  · obtain ⟨o, other, rfl⟩ := hc
    refine ⟨s, ?_, ?_⟩
    · rw [show Race.SL.step E fuel (.compare o other) = Out.bool <$> Race.compare E.cmp o other from rfl, compare_alone _ _ _ hM]
      exact congrArg (fun x => some (x, s)) (read_out (x := Core.compare E.cmp o other) (g := Out.bool)).symm
    · rw [show ((Verif.SL.api E).step (Op.compare o other) t).2 = t from read_out' (x := Core.compare E.cmp o other) (g := Out.bool)]; exact hM
  · rcases SL_step hE op hM h hv hf with hg | ⟨s', e, hM'⟩
    · obtain ⟨h1, -, -⟩ := (Verif.SL.api_lawful hE).step op hv t h
      exact absurd (h1 ▸ hg) (Spec.step_no_gap _ op (fun o other e => hc ⟨o, other, e⟩) _)
    · have hid : ∀ x : Except PyErr (Out α), Except.map id x = x := fun x => by cases x <;> rfl
      exact ⟨s', by rw [e, hid], hM'⟩

end Agrees

/-- The list holds the values `l` and is as its methods leave it. -/
def Holds (k : α → κ) (lt : κ → κ → Bool) (keyed : Bool) (s : Shared α κ) (l : List α) : Prop := ∃ t, Mirrors s t ∧ Inv k lt keyed t ∧ Core.iter t = l

theorem Holds.contents {k : α → κ} {lt : κ → κ → Bool} {keyed : Bool} {s : Shared α κ} {l : List α} (h : Holds k lt keyed s l) : s.contents = l := by
  obtain ⟨t, h1, _, h3⟩ := h
  rw [h1.contents, h3]

theorem SL.follows {E : Env α} {lt : α → α → Bool} (hE : E.Lawful lt) (fuel : Nat) :
    Guarded.Grows Op.Valid (SL.step E fuel) (Spec.step (Spec.Order.ofValues lt)) (Holds id lt false) List.length (fun op => op.given.length) Op.doubles fuel := by
  rintro op s l hv ⟨t, hM, h, rfl⟩ hf
  obtain ⟨h1, h2, h3⟩ := (Verif.SL.api_lawful hE).step op hv t h
  obtain ⟨s', e, hM'⟩ := Agrees.SL_ends hE op hM h hv hf
  exact ⟨s', by rw [e, h1]; rfl, ⟨_, hM', h3, h2⟩, Spec.step_length _ op _⟩

end Race
end Verif
