import Verif.Proofs.API
/-!
# The positional index is no larger than needed

`Snug`: the number of inner nodes of the index is less than twice the number of its leaves.
-/

namespace Verif
variable {α κ β γ : Type} {ilog2 : Nat → Nat}

def Snug (s : St α κ) : Prop := s.index = [] ∨ s.offset + 1 ≤ 2 * (s.index.length - s.offset)

/-- The call keeps `Snug`, whether it raises or not. -/
def TrimM (m : Py (St α κ) β) : Prop := ∀ s, Snug s → Snug (m s).2

/-- The same for a call that leaves the sublists `L` as they are. -/
def Trim (L : List (List α)) (m : Py (St α κ) β) : Prop :=
  ∀ s, s.lists = L → Snug s → Snug (m s).2 ∧ (m s).2.lists = L

theorem Trim.trimM {m : Py (St α κ) β} (h : ∀ L, Trim L m) : TrimM m := fun s hs => (h _ s rfl hs).1

namespace TrimM

theorem pure (b : β) : TrimM (Pure.pure b : Py (St α κ) β) := fun _ h => h
theorem raise (e : PyErr) : TrimM (Py.raise e : Py (St α κ) β) := fun _ h => h
theorem lift (x : Except PyErr β) : TrimM (Py.lift x : Py (St α κ) β) := fun _ h => h

theorem get_bind {f : St α κ → Py (St α κ) β} (h : ∀ s, TrimM (f s)) : TrimM (Py.get >>= f) := fun s hs => h s s hs

theorem lift_bind {x : Except PyErr β} {f : β → Py (St α κ) γ} (h : ∀ a, TrimM (f a)) : TrimM (Py.lift x >>= f) := by
  cases x with
  | error e => exact fun _ h => h
  | ok a => exact h a

theorem modify {g : St α κ → St α κ} (h : ∀ s, Snug s → Snug (g s)) : TrimM (Py.modify g) := h

theorem bind {m : Py (St α κ) β} {f : β → Py (St α κ) γ} (hm : TrimM m) (h : ∀ a, TrimM (f a)) : TrimM (m >>= f) := by
  intro s hs
  have := hm s hs
  rcases e : m s with ⟨r, s'⟩
  rw [e] at this
  cases r with
  | error er => rw [Py.bind_error e]; exact this
  | ok a => rw [Py.bind_ok e]; exact h a _ this

theorem ite {p : Prop} [Decidable p] {m n : Py (St α κ) β} (h1 : TrimM m) (h2 : TrimM n) : TrimM (if p then m else n) := by
  split <;> assumption

theorem forEach {δ : Type} {f : δ → Py (St α κ) Unit} (h : ∀ a, TrimM (f a)) (l : List δ) : TrimM (Py.forEach f l) := by
  induction l with
  | nil => exact pure ()
  | cons a l ih => exact bind (h a) fun _ => ih

theorem mapEach {δ : Type} {f : δ → Py (St α κ) β} (h : ∀ a, TrimM (f a)) (l : List δ) : TrimM (Py.mapEach f l) := by
  induction l with
  | nil => exact pure []
  | cons a l ih => exact bind (h a) fun _ => bind ih fun _ => pure _

theorem out {f : β → Out α} {m : Py (St α κ) β} (h : TrimM m) : TrimM (Spec.out f m) := by
  intro s hs
  have : (Spec.out f m s).2 = (m s).2 := by
    unfold Spec.out
    split <;> rename_i e <;> rw [e]
  rw [this]
  exact h s hs

end TrimM

namespace Trim
variable {L : List (List α)}

theorem pure (b : β) : Trim L (Pure.pure b : Py (St α κ) β) := fun _ h1 h2 => ⟨h2, h1⟩
theorem raise (e : PyErr) : Trim L (Py.raise e : Py (St α κ) β) := fun _ h1 h2 => ⟨h2, h1⟩
theorem lift (x : Except PyErr β) : Trim L (Py.lift x : Py (St α κ) β) := fun _ h1 h2 => ⟨h2, h1⟩

theorem get_bind {f : St α κ → Py (St α κ) β} (h : ∀ s, s.lists = L → Trim L (f s)) : Trim L (Py.get >>= f) :=
  fun s h1 h2 => h s h1 s h1 h2

theorem lift_bind {x : Except PyErr β} {f : β → Py (St α κ) γ} (h : ∀ a, x = .ok a → Trim L (f a)) :
    Trim L (Py.lift x >>= f) := by
  cases x with
  | error e => exact fun _ h1 h2 => ⟨h2, h1⟩
  | ok a => exact h a rfl

theorem bind {m : Py (St α κ) β} {f : β → Py (St α κ) γ} (hm : Trim L m) (h : ∀ a, Trim L (f a)) : Trim L (m >>= f) := by
  intro s h1 h2
  have := hm s h1 h2
  rcases e : m s with ⟨r, s'⟩
  rw [e] at this
  cases r with
  | error er => rw [Py.bind_error e]; exact this
  | ok a => rw [Py.bind_ok e]; exact h a _ this.2 this.1

theorem ite {p : Prop} [Decidable p] {m n : Py (St α κ) β} (h1 : p → Trim L m) (h2 : ¬p → Trim L n) :
    Trim L (if p then m else n) := by
  split <;> (first | apply h1 | apply h2) <;> assumption

theorem of_eq {m : Py (St α κ) β} (h : ∀ s, (m s).2 = s) : Trim L m := fun s h1 h2 => by rw [h]; exact ⟨h2, h1⟩

theorem out {f : β → Out α} {m : Py (St α κ) β} (h : Trim L m) : Trim L (Spec.out f m) := by
  intro s h1 h2
  have : (Spec.out f m s).2 = (m s).2 := by
    unfold Spec.out
    split <;> rename_i e <;> rw [e]
  rw [this]
  exact h s h1 h2

end Trim

/-- A tactic for calls that do not build the index. -/
macro "trim" : tactic => `(tactic| repeat' first
  | with_reducible assumption
  | with_reducible exact TrimM.pure _
  | with_reducible exact TrimM.raise _
  | with_reducible exact TrimM.lift _
  | ((with_reducible refine TrimM.modify ?_); first | exact (fun _ h => h) | exact (fun _ _ => .inl rfl))
  | with_reducible refine TrimM.get_bind fun _ => ?_
  | with_reducible refine TrimM.lift_bind fun _ => ?_
  | with_reducible refine TrimM.ite ?_ ?_
  | with_reducible refine TrimM.bind ?_ fun _ => ?_)

/-! ## The index -/

/-- `int(log(n, 2))` is not too large. -/
def Log2Tight (ilog2 : Nat → Nat) : Prop := ∀ n, 1 ≤ n → 2 ^ ilog2 n ≤ n

theorem buildIndex_snug (hlog : ∀ n, 1 ≤ n → n < 2 ^ (ilog2 n + 1)) (ht : Log2Tight ilog2) (s : St α κ)
    (hne : s.lists ≠ []) (hix : s.index = []) :
    Snug (Core.buildIndex ilog2 s).2 ∧ (Core.buildIndex ilog2 s).2.lists = s.lists := by
  have hpos : 1 ≤ s.lists.length := List.length_pos_iff.2 hne
  have key : ∃ i o, Core.buildIndex ilog2 s = (.ok (), { s with index := i, offset := o }) ∧
      i.length = o + s.lists.length ∧ o + 1 ≤ 2 * s.lists.length := by
    by_cases h1 : s.lists.length = 1
    · refine ⟨s.lists.map List.length, 0, ?_, by simp, by omega⟩
      simp only [Core.buildIndex, Py.get_bind, List.length_map]
      rw [if_pos h1]; rfl
    · obtain ⟨i, o, e, -, hT⟩ := buildIndex_ok hlog s (by omega) hix
      refine ⟨i, o, e, by simpa using hT.length_eq, ?_⟩
      have e' := e
      simp only [Core.buildIndex, Py.get_bind, List.length_map] at e'
      rw [if_neg h1] at e'
      have hr : (if s.lists.length % 2 = 1 then Core.pairSums (s.lists.map List.length) ++ (s.lists.map List.length).getLast?.toList
          else Core.pairSums (s.lists.map List.length)).length = (s.lists.length + 1) / 2 := by
        split
        · rename_i ho
          have : s.lists.map List.length ≠ [] := by simpa using hne
          rw [List.length_append, Core.pairSums_length, List.getLast?_eq_some_getLast this]
          simp; omega
        · rw [Core.pairSums_length, List.length_map]; omega
      rw [hr] at e'
      split at e'
      · have : o = 1 := (congrArg St.offset (congrArg Prod.snd e')).symm
        omega
      · rename_i h2
        have ho : o = 2 ^ (ilog2 ((s.lists.length + 1) / 2 - 1) + 1) * 2 - 1 :=
          (congrArg St.offset (congrArg Prod.snd e')).symm
        have := ht ((s.lists.length + 1) / 2 - 1) (by omega)
        rw [Nat.pow_succ] at ho
        omega
  obtain ⟨i, o, e, h1, h2⟩ := key
  rw [e]
  refine ⟨.inr ?_, rfl⟩
  show o + 1 ≤ 2 * (i.length - o)
  omega

section
variable (hlog : ∀ n, 1 ≤ n → n < 2 ^ (ilog2 n + 1)) (ht : Log2Tight ilog2)
include hlog ht

theorem ensureIndex_trim {L : List (List α)} (hL : L ≠ []) : Trim L (Core.ensureIndex ilog2 : Py (St α κ) Unit) := by
  intro s h1 h2
  subst h1
  simp only [Core.ensureIndex, Py.get_bind]
  by_cases hix : s.index = []
  · rw [if_pos hix]; exact buildIndex_snug hlog ht s hL hix
  · rw [if_neg hix]; exact ⟨h2, rfl⟩

theorem loc_trim {L : List (List α)} (hL : L ≠ []) (p i : Nat) : Trim L (Core.loc ilog2 p i : Py (St α κ) Nat) :=
  .ite (fun _ => .pure _) fun _ => .bind (ensureIndex_trim hlog ht hL) fun _ => .get_bind fun _ _ =>
    .lift_bind fun _ _ => .pure _

theorem posNonneg_trim (L : List (List α)) (i : Nat) : Trim L (Core.posNonneg ilog2 i : Py (St α κ) _) := by
  refine .get_bind fun s hs => .lift_bind fun a ha => .ite (fun _ => .pure _) fun _ => .bind (ensureIndex_trim hlog ht ?_) fun _ =>
    .get_bind fun _ _ => .ite (fun _ => .raise _) fun _ => .pure _
  rintro rfl
  rw [hs] at ha
  cases ha

theorem pos_trim (L : List (List α)) (i : Int) : Trim L (Core.pos ilog2 i : Py (St α κ) _) :=
  .get_bind fun _ _ => .ite
    (fun _ => .lift_bind fun _ _ => .ite (fun _ => .pure _) fun _ => .ite (fun _ => .raise _) fun _ =>
      posNonneg_trim hlog ht L _)
    (fun _ => .ite (fun _ => .raise _) fun _ => posNonneg_trim hlog ht L _)

theorem pos_trimM (i : Int) : TrimM (Core.pos ilog2 i : Py (St α κ) _) := Trim.trimM fun L => pos_trim hlog ht L i

omit hlog ht in
theorem touchIndex_trimM (f : Nat → Except PyErr Nat) (p : Nat) : TrimM (Core.touchIndex f p : Py (St α κ) Unit) := by
  have len : ∀ (c : Nat) (ix ix' : List Nat), Core.bumpPath f ix c = .ok ix' → ix'.length = ix.length := by
    intro c
    induction c using Nat.strongRecOn with
    | _ c ih =>
      intro ix ix' h
      rw [Core.bumpPath] at h
      split at h
      · cases h
      · split at h
        · cases h
        · split at h
          · cases h; simp
          · rw [ih _ (by omega) _ _ h]; simp
  intro s hs
  simp only [Core.touchIndex, Py.get_bind]
  split
  · exact hs
  · rename_i hne
    cases e : Core.bumpPath f s.index (s.offset + p) with
    | error er => exact hs
    | ok ix =>
      refine (hs.resolve_left hne |> fun h => .inr ?_)
      show s.offset + 1 ≤ 2 * (ix.length - s.offset)
      rw [len _ _ _ e]; exact h

theorem getInt_trimM (i : Int) : TrimM (Core.getInt ilog2 i : Py (St α κ) α) := by
  have := pos_trimM (α := α) (κ := κ) hlog ht i
  unfold Core.getInt
  trim

theorem getSliceFwd_trimM (a b : Int) : TrimM (Core.getSliceFwd ilog2 a b : Py (St α κ) (List α)) := by
  have := fun i => pos_trimM (α := α) (κ := κ) hlog ht i
  unfold Core.getSliceFwd
  trim
  all_goals exact this _

theorem getSliceStep1_trimM (a b : Option Int) : TrimM (Core.getSliceStep1 ilog2 a b : Py (St α κ) (List α)) := by
  refine .get_bind fun _ => .lift_bind fun _ => .ite (getSliceFwd_trimM hlog ht _ _) (.mapEach (fun i => getInt_trimM hlog ht i) _)

theorem getSlice_trimM (sl : PySlice) : TrimM (Core.getSlice ilog2 sl : Py (St α κ) (List α)) := by
  refine .get_bind fun _ => .lift_bind fun _ => .ite (getSliceFwd_trimM hlog ht _ _)
    (.ite (.bind (getSliceStep1_trimM hlog ht _ _) fun _ => .pure _) (.mapEach (fun i => getInt_trimM hlog ht i) _))

theorem islice_trimM (a b : Option Int) (r : Bool) : TrimM (Core.islice ilog2 a b r : Py (St α κ) (List α)) := by
  have := fun i => pos_trimM (α := α) (κ := κ) hlog ht i
  unfold Core.islice Core.isliceWith
  trim
  all_goals first | exact this _ | skip

end

/-! ## The shared mutating methods -/

section Methods
variable {M : Methods α κ} (hlog : ∀ n, 1 ≤ n → n < 2 ^ (M.ilog2 n + 1)) (ht : Log2Tight M.ilog2) (hc : TrimM M.clear)
  (hu : ∀ xs, TrimM (M.update xs)) (hd : ∀ p i, TrimM (M.delete p i))

include hlog ht hd in
theorem delInt_trimM (i : Int) : TrimM (Core.delInt M i) := .bind (pos_trimM hlog ht i) fun _ => hd _ _

include hlog ht hc hu hd in
theorem delSlice_trimM (sl : PySlice) : TrimM (Core.delSlice M sl) := by
  refine .get_bind fun s => .lift_bind fun p => .ite hc (.ite (.bind (getSliceStep1_trimM hlog ht _ _) fun _ => ?_)
    (.forEach (fun i => delInt_trimM hlog ht hd i) _))
  split
  · exact .bind (getSliceStep1_trimM hlog ht _ _) fun _ => .bind (.pure _) fun _ => .bind hc fun _ => hu _
  · exact .bind (.pure _) fun _ => .bind hc fun _ => hu _

include hlog ht hd in
theorem pop_trimM (i : Int) : TrimM (Core.pop M i) := by
  have := pos_trimM (α := α) (κ := κ) hlog ht i
  have hd' : ∀ p i (v : α), TrimM (M.delete p i >>= fun _ => (Pure.pure v : Py (St α κ) α)) :=
    fun p i v => .bind (hd p i) fun _ => .pure v
  unfold Core.pop
  trim
  all_goals first | exact hd _ _ | skip

include hc hu in
theorem imul_trimM (n : Int) : TrimM (Core.imul M n) := .get_bind fun _ => .bind hc fun _ => hu _

include hc hu in
theorem reset_trimM (n : Nat) : TrimM (Core.reset M n) :=
  .get_bind fun _ => .bind hc fun _ => .bind (.modify fun _ h => h) fun _ => hu _

end Methods

/-! ## SortedList -/

namespace SL

theorem clear_trimM : TrimM (clear : Py (St α α) Unit) := .modify fun _ _ => .inl rfl

theorem expand_trimM (p : Nat) : TrimM (expand p : Py (St α α) Unit) := by
  have := touchIndex_trimM (α := α) (κ := α) Core.incr p
  unfold expand
  trim

theorem add_trimM (E : Env α) (v : α) : TrimM (add E v) := by
  have := fun p => expand_trimM (α := α) p
  unfold add
  trim
  all_goals exact this _

theorem fill_trimM (xs : List α) : TrimM (fill xs) := by
  unfold fill
  trim

theorem update_trimM (E : Env α) (xs : List α) : TrimM (update E xs) := by
  have h1 := fun xs => fill_trimM (α := α) xs
  have h2 := clear_trimM (α := α)
  unfold update
  trim
  all_goals first | exact h1 _ | exact .forEach (add_trimM E) _

theorem delete_trimM (p i : Nat) : TrimM (delete p i : Py (St α α) Unit) := by
  have h1 := fun p => expand_trimM (α := α) p
  have h2 := fun f p => touchIndex_trimM (α := α) (κ := α) f p
  unfold delete
  trim
  all_goals first | exact h1 _ | exact h2 _ _

theorem discard_trimM (E : Env α) (v : α) : TrimM (discard E v) := by
  have h1 := fun p i => delete_trimM (α := α) p i
  unfold discard
  trim
  all_goals exact h1 _ _

theorem remove_trimM (E : Env α) (v : α) : TrimM (remove E v) := by
  have h1 := fun p i => delete_trimM (α := α) p i
  unfold remove
  trim
  all_goals exact h1 _ _

theorem contains_trimM (E : Env α) (v : α) : TrimM (contains E v) := by
  unfold contains
  trim

theorem irange_trimM (E : Env α) (lo hi : Option α) (a b r : Bool) : TrimM (irange E lo hi a b r) := by
  unfold irange irangeWith
  dsimp only
  cases lo <;> cases hi <;> trim
  all_goals (split <;> trim)

section
variable {E : Env α} (hlog : ∀ n, 1 ≤ n → n < 2 ^ (E.ilog2 n + 1)) (ht : Log2Tight E.ilog2) {L : List (List α)} (hL : L ≠ [])
include hlog ht hL

theorem bisect_left_trim (v : α) : Trim L (bisect_left E v) :=
  .get_bind fun _ _ => .ite (fun _ => .pure _) fun _ => .lift_bind fun _ _ => .ite (fun _ => .pure _) fun _ =>
    .lift_bind fun _ _ => .lift_bind fun _ _ => loc_trim hlog ht hL _ _

theorem bisect_right_trim (v : α) : Trim L (bisect_right E v) :=
  .get_bind fun _ _ => .ite (fun _ => .pure _) fun _ => .lift_bind fun _ _ => .ite (fun _ => .pure _) fun _ =>
    .lift_bind fun _ _ => .lift_bind fun _ _ => loc_trim hlog ht hL _ _

theorem count_trim (v : α) : Trim L (count E v) :=
  .get_bind fun _ _ => .ite (fun _ => .pure _) fun _ => .lift_bind fun _ _ => .ite (fun _ => .pure _) fun _ =>
    .lift_bind fun _ _ => .lift_bind fun _ _ => .lift_bind fun _ _ => .ite
      (fun _ => .bind (loc_trim hlog ht hL _ _) fun _ => .pure _)
      (fun _ => .lift_bind fun _ _ => .lift_bind fun _ _ => .ite (fun _ => .pure _) fun _ =>
        .bind (loc_trim hlog ht hL _ _) fun _ => .bind (loc_trim hlog ht hL _ _) fun _ => .pure _)

theorem index_trim (v : α) (a b : Option Int) : Trim L (index E v a b) :=
  .get_bind fun _ _ => .ite (fun _ => .raise _) fun _ => .ite (fun _ => .raise _) fun _ =>
    .lift_bind fun _ _ => .ite (fun _ => .raise _) fun _ => .lift_bind fun _ _ => .lift_bind fun _ _ =>
    .lift_bind fun _ _ => .lift_bind fun _ _ => .ite (fun _ => .raise _) fun _ =>
    .bind (loc_trim hlog ht hL _ _) fun _ =>
    .ite (fun _ => .ite (fun _ => .pure _) fun _ => .raise _) fun _ =>
    .bind (bisect_right_trim hlog ht hL v) fun _ => .ite (fun _ => .pure _) fun _ => .raise _

end

theorem new_snug {E : Env α} {xs : Option (List α)} {s : St α α} (h : new E xs = .ok s) : Snug s := by
  cases xs with
  | none => cases h; exact .inl rfl
  | some xs =>
    have := update_trimM E xs St.empty (.inl rfl)
    simp only [new] at h
    split at h
    · rename_i e; rw [e] at this; cases h; exact this
    · cases h

/-- Every reachable object has an index that is no larger than needed. -/
theorem reachable_snug {E : Env α} {lt : α → α → Bool} (hE : E.Lawful lt) (ht : Log2Tight E.ilog2) {s : St α α}
    (h : (SL.api E).Reachable s) : Snug s := by
  induction h with
  | new e => exact new_snug e
  | @step s op hv hr ih =>
    have hi : Inv id lt false s := (SL.api_lawful hE).reachable hr
    have hlog := hE.ilog2
    have hm : s.lists = [] → s.maxes = [] := fun h => by
      have := hi.maxes; rw [MaxesOK, h] at this; simpa using this
    have hl : s.lists = [] → s.len = 0 := fun h => by rw [hi.len_eq, h]; rfl
    have empty : ∀ {β : Type} {m : Py (St α α) β} (f : β → Out α), (∀ L : List (List α), L ≠ [] → Trim L m) →
        (s.lists = [] → (m s).2 = s) → Snug (Spec.out f m s).2 := by
      intro β m f h1 h2
      by_cases hL : s.lists = []
      · have : (Spec.out f m s).2 = (m s).2 := by unfold Spec.out; split <;> rename_i e <;> rw [e]
        rw [this, h2 hL]; exact ih
      · exact ((h1 _ hL).out s rfl ih).1
    cases op with
    | add v => exact (add_trimM E v).out s ih
    | update xs => exact (update_trimM E xs).out s ih
    | clear => exact (clear_trimM).out s ih
    | contains v => exact (contains_trimM E v).out s ih
    | discard v => exact (discard_trimM E v).out s ih
    | remove v => exact (remove_trimM E v).out s ih
    | getInt i => exact (getInt_trimM hlog ht i).out s ih
    | getSlice sl => exact (getSlice_trimM hlog ht sl).out s ih
    | delInt i => exact (delInt_trimM (M := methods E) hlog ht delete_trimM i).out s ih
    | delSlice sl => exact (delSlice_trimM (M := methods E) hlog ht clear_trimM (update_trimM E) delete_trimM sl).out s ih
    | pop i => exact (pop_trimM (M := methods E) hlog ht delete_trimM i).out s ih
    | bisectLeft v =>
      refine empty _ (fun L hL => bisect_left_trim hlog ht hL v) fun h => ?_
      show (bisect_left E v s).2 = s
      simp only [bisect_left, Py.get_bind, if_pos (hm h)]; rfl
    | bisectRight v =>
      refine empty _ (fun L hL => bisect_right_trim hlog ht hL v) fun h => ?_
      show (bisect_right E v s).2 = s
      simp only [bisect_right, Py.get_bind, if_pos (hm h)]; rfl
    | count v =>
      refine empty _ (fun L hL => count_trim hlog ht hL v) fun h => ?_
      show (count E v s).2 = s
      simp only [count, Py.get_bind, if_pos (hm h)]; rfl
    | index v a b =>
      refine empty _ (fun L hL => index_trim hlog ht hL v a b) fun h => ?_
      show (index E v a b s).2 = s
      simp only [index, Py.get_bind, if_pos (hl h)]; rfl
    | irange lo hi a b r => exact (irange_trimM E lo hi a b r).out s ih
    | islice a b r => exact (islice_trimM hlog ht a b r).out s ih
    | iter => exact ih
    | reversed => exact ih
    | len => exact ih
    | compare op xs => exact TrimM.out (m := ListAPI.read _) (fun _ h => h) s ih
    | iadd xs => exact TrimM.out (update_trimM E xs) s ih
    | imul n => exact (imul_trimM (M := methods E) clear_trimM (update_trimM E) n).out s ih
    | reset n => exact (reset_trimM (M := methods E) clear_trimM (update_trimM E) n).out s ih
    | copy => exact TrimM.out (m := (SL.api E).valuesOf _) (fun _ h => by unfold ListAPI.valuesOf; split <;> exact h) s ih
    | concat xs => exact TrimM.out (m := (SL.api E).valuesOf _) (fun _ h => by unfold ListAPI.valuesOf; split <;> exact h) s ih
    | mul n => exact TrimM.out (m := (SL.api E).valuesOf _) (fun _ h => by unfold ListAPI.valuesOf; split <;> exact h) s ih
    | unsupported u => exact ih

end SL

/-! ## SortedKeyList -/

namespace SKL

theorem clear_trimM : TrimM (clear : Py (St α κ) Unit) := .modify fun _ _ => .inl rfl

theorem expand_trimM (p : Nat) : TrimM (expand p : Py (St α κ) Unit) := by
  have := touchIndex_trimM (α := α) (κ := κ) Core.incr p
  unfold expand
  trim

theorem add_trimM (K : KEnv α κ) (v : α) : TrimM (add K v) := by
  have := fun p => expand_trimM (α := α) (κ := κ) p
  unfold add
  trim
  all_goals exact this _

theorem fill_trimM (K : KEnv α κ) (xs : List α) : TrimM (fill K xs) := by
  unfold fill
  trim
  refine .forEach (fun l => ?_) _
  trim

theorem update_trimM (K : KEnv α κ) (xs : List α) : TrimM (update K xs) := by
  have h1 := fun xs => fill_trimM K xs
  have h2 := clear_trimM (α := α) (κ := κ)
  unfold update
  trim
  all_goals first | exact h1 _ | exact .forEach (add_trimM K) _

theorem delete_trimM (p i : Nat) : TrimM (delete p i : Py (St α κ) Unit) := by
  have h1 := fun p => expand_trimM (α := α) (κ := κ) p
  have h2 := fun f p => touchIndex_trimM (α := α) (κ := κ) f p
  unfold delete
  trim
  all_goals first | exact h1 _ | exact h2 _ _

theorem find_trimM (K : KEnv α κ) (v : α) : TrimM (find K v) := by
  unfold find
  trim

theorem contains_trimM (K : KEnv α κ) (v : α) : TrimM (contains K v) :=
  .bind (find_trimM K v) fun r => by cases r <;> exact .pure _

theorem discard_trimM (K : KEnv α κ) (v : α) : TrimM (discard K v) :=
  .bind (find_trimM K v) fun r => by
    rcases r with _ | ⟨p, i⟩
    · exact .pure _
    · exact delete_trimM p i

theorem remove_trimM (K : KEnv α κ) (v : α) : TrimM (remove K v) :=
  .bind (find_trimM K v) fun r => by
    rcases r with _ | ⟨p, i⟩
    · exact .raise _
    · exact delete_trimM p i

theorem irange_key_trimM (K : KEnv α κ) (lo hi : Option κ) (a b r : Bool) : TrimM (irange_key K lo hi a b r) := by
  unfold irange_key irange_keyWith
  dsimp only
  cases lo <;> cases hi <;> trim
  all_goals (split <;> trim)

theorem irange_trimM (K : KEnv α κ) (lo hi : Option α) (a b r : Bool) : TrimM (irange K lo hi a b r) :=
  .lift_bind fun _ => .lift_bind fun _ => irange_key_trimM _ _ _ _ _ _

theorem count_trimM (K : KEnv α κ) (v : α) : TrimM (count K v) := by
  unfold count
  trim

section
variable {K : KEnv α κ} (hlog : ∀ n, 1 ≤ n → n < 2 ^ (K.ilog2 n + 1)) (ht : Log2Tight K.ilog2) {L : List (List α)} (hL : L ≠ [])
include hlog ht hL

theorem bisect_key_left_trim (k : κ) : Trim L (bisect_key_left K k) :=
  .get_bind fun _ _ => .ite (fun _ => .pure _) fun _ => .lift_bind fun _ _ => .ite (fun _ => .pure _) fun _ =>
    .lift_bind fun _ _ => .lift_bind fun _ _ => loc_trim hlog ht hL _ _

theorem bisect_key_right_trim (k : κ) : Trim L (bisect_key_right K k) :=
  .get_bind fun _ _ => .ite (fun _ => .pure _) fun _ => .lift_bind fun _ _ => .ite (fun _ => .pure _) fun _ =>
    .lift_bind fun _ _ => .lift_bind fun _ _ => loc_trim hlog ht hL _ _

theorem bisect_left_trim (v : α) : Trim L (bisect_left K v) := .lift_bind fun _ _ => bisect_key_left_trim hlog ht hL _
theorem bisect_right_trim (v : α) : Trim L (bisect_right K v) := .lift_bind fun _ _ => bisect_key_right_trim hlog ht hL _

theorem indexLoop_trim (lists : List (List α)) (keys : List (List κ)) (v : α) (k : κ) (a b : Int) (p i n : Nat) :
    Trim L (indexLoop K lists keys v k a b p i n) := by
  fun_induction indexLoop K lists keys v k a b p i n
  all_goals try exact .raise _
  · rename_i p i n ks hks kk hkk hne l hl x hx jp hb ih1 ih2
    have rest : ∀ r, Trim L (jp r) := by
      intro r
      cases r with
      | some r => exact .pure _
      | none =>
        refine .ite (fun h1 => .ite (fun _ => .raise _) fun h2 => ?_) fun h1 => ih2
        cases e : getItem keys (p + 1) with
        | error er => exact .raise _
        | ok ks' => exact ih1 ks'
    refine .bind (loc_trim hlog ht hL _ _) fun loc => ?_
    exact .ite (fun _ => .bind (.pure _) rest) fun _ => .ite (fun _ => .bind (.raise _) rest) fun _ => .bind (.pure _) rest
  · rename_i p i n ks hks kk hkk hne l hl x hx b' hb' jp hb ih1 ih2
    have rest : ∀ r, Trim L (jp r) := by
      intro r
      cases r with
      | some r => exact .pure _
      | none =>
        refine .ite (fun h1 => .ite (fun _ => .raise _) fun h2 => ?_) fun h1 => ih2
        cases e : getItem keys (p + 1) with
        | error er => exact .raise _
        | ok ks' => exact ih1 ks'
    exact .bind (.pure _) rest

theorem index_trim (v : α) (a b : Option Int) : Trim L (index K v a b) :=
  .get_bind fun _ _ => .ite (fun _ => .raise _) fun _ => .ite (fun _ => .raise _) fun _ =>
    .lift_bind fun _ _ => .lift_bind fun _ _ => .ite (fun _ => .raise _) fun _ => .lift_bind fun _ _ => .lift_bind fun _ _ =>
    indexLoop_trim hlog ht hL _ _ _ _ _ _ _ _ _

end

theorem new_snug {K : KEnv α κ} {xs : Option (List α)} {s : St α κ} (h : new K xs = .ok s) : Snug s := by
  cases xs with
  | none => cases h; exact .inl rfl
  | some xs =>
    have := update_trimM K xs St.empty (.inl rfl)
    simp only [new] at h
    split at h
    · rename_i e; rw [e] at this; cases h; exact this
    · cases h

theorem reachable_snug {K : KEnv α κ} {key : α → κ} {klt : κ → κ → Bool} {veq : α → α → Bool}
    (hK : K.Lawful key klt veq) (ht : Log2Tight K.ilog2) {s : St α κ} (h : SKL.Reachable K s) : Snug s := by
  induction h with
  | new e => exact new_snug e
  | @step s op hv hr ih =>
    have hi : Inv key klt true s := SKL.reachable_inv hK hr
    have hlog := hK.ilog2
    have hm : s.lists = [] → s.maxes = [] := fun h => by
      have := hi.maxes; rw [MaxesOK, h] at this; simpa using this
    have hl : s.lists = [] → s.len = 0 := fun h => by rw [hi.len_eq, h]; rfl
    have outs : ∀ {β : Type} (f : β → Out α) (m : Py (St α κ) β), (Spec.out f m s).2 = (m s).2 := by
      intro β f m; unfold Spec.out; split <;> rename_i e <;> rw [e]
    have empty : ∀ {β : Type} {m : Py (St α κ) β} (f : β → Out α), (∀ L : List (List α), L ≠ [] → Trim L m) →
        (s.lists = [] → (m s).2 = s) → Snug (Spec.out f m s).2 := by
      intro β m f h1 h2
      by_cases hL : s.lists = []
      · rw [outs, h2 hL]; exact ih
      · exact ((h1 _ hL).out s rfl ih).1
    have bl : ∀ k, s.lists = [] → (bisect_key_left K k s).2 = s := fun k h => by
      simp only [bisect_key_left, Py.get_bind, if_pos (hm h)]; rfl
    have br : ∀ k, s.lists = [] → (bisect_key_right K k s).2 = s := fun k h => by
      simp only [bisect_key_right, Py.get_bind, if_pos (hm h)]; rfl
    cases op with
    | bisectKeyLeft k => exact empty _ (fun L hL => bisect_key_left_trim hlog ht hL k) (bl k)
    | bisectKeyRight k => exact empty _ (fun L hL => bisect_key_right_trim hlog ht hL k) (br k)
    | irangeKey lo hi a b r => exact (irange_key_trimM K lo hi a b r).out s ih
    | op op =>
      cases op with
      | add v => exact (add_trimM K v).out s ih
      | update xs => exact (update_trimM K xs).out s ih
      | clear => exact (clear_trimM).out s ih
      | contains v => exact (contains_trimM K v).out s ih
      | discard v => exact (discard_trimM K v).out s ih
      | remove v => exact (remove_trimM K v).out s ih
      | getInt i => exact (getInt_trimM hlog ht i).out s ih
      | getSlice sl => exact (getSlice_trimM hlog ht sl).out s ih
      | delInt i => exact (delInt_trimM (M := methods K) hlog ht delete_trimM i).out s ih
      | delSlice sl => exact (delSlice_trimM (M := methods K) hlog ht clear_trimM (update_trimM K) delete_trimM sl).out s ih
      | pop i => exact (pop_trimM (M := methods K) hlog ht delete_trimM i).out s ih
      | bisectLeft v =>
        refine empty _ (fun L hL => bisect_left_trim hlog ht hL v) fun h => ?_
        show (bisect_left K v s).2 = s
        simp only [bisect_left, hK.key_ok]; exact bl _ h
      | bisectRight v =>
        refine empty _ (fun L hL => bisect_right_trim hlog ht hL v) fun h => ?_
        show (bisect_right K v s).2 = s
        simp only [bisect_right, hK.key_ok]; exact br _ h
      | count v => exact TrimM.out (.bind (count_trimM K v) fun _ => .pure _) s ih
      | index v a b =>
        refine empty _ (fun L hL => index_trim hlog ht hL v a b) fun h => ?_
        show (index K v a b s).2 = s
        simp only [index, Py.get_bind, if_pos (hl h)]; rfl
      | irange lo hi a b r => exact (irange_trimM K lo hi a b r).out s ih
      | islice a b r => exact (islice_trimM hlog ht a b r).out s ih
      | iter => exact ih
      | reversed => exact ih
      | len => exact ih
      | compare op xs => exact TrimM.out (m := ListAPI.read _) (fun _ h => h) s ih
      | iadd xs => exact TrimM.out (update_trimM K xs) s ih
      | imul n => exact (imul_trimM (M := methods K) clear_trimM (update_trimM K) n).out s ih
      | reset n => exact (reset_trimM (M := methods K) clear_trimM (update_trimM K) n).out s ih
      | copy => exact TrimM.out (m := (SKL.api K).valuesOf _) (fun _ h => by unfold ListAPI.valuesOf; split <;> exact h) s ih
      | concat xs => exact TrimM.out (m := (SKL.api K).valuesOf _) (fun _ h => by unfold ListAPI.valuesOf; split <;> exact h) s ih
      | mul n => exact TrimM.out (m := (SKL.api K).valuesOf _) (fun _ h => by unfold ListAPI.valuesOf; split <;> exact h) s ih
      | unsupported u => exact ih

end SKL
end Verif
