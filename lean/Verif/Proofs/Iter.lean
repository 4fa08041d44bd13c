import Verif.Model.Iter
import Verif.Proofs.SetHistory
import Verif.Proofs.Keeps
/-!
# Iterators, one value at a time, yield what they would yield if consumed at once
-/

namespace Verif
variable {α κ : Type}

namespace Cursor

/-- On the sublists `ls` the iterator yields the values `xs` and then stops, for good. -/
def Yields (ls : List (List α)) : Cursor → List α → Prop
  | c, [] => c.next ls = .ok (none, [])
  | c, x :: xs => ∃ c', c.next ls = .ok (some x, c') ∧ Yields ls c' xs

variable {ls : List (List α)} {c : Cursor} {xs : List α}

theorem yields_nil : Yields ls [] [] := by simp [Yields, next]

/-- An iterator whose first step is the first step of another yields the same. -/
theorem Yields.of_next {c' : Cursor} (h : c.next ls = c'.next ls) (hy : Yields ls c' xs) : Yields ls c xs := by
  cases xs with
  | nil => exact h.trans hy
  | cons x xs => obtain ⟨d, e, hd⟩ := hy; exact ⟨d, h.trans e, hd⟩

theorem yields_items {p : Nat} {l : List α} (hl : ls[p]? = some l) {is : List Nat} {vs : List α}
    (hv : getItems l is = .ok vs) (hc : Yields ls c xs) : Yields ls (.items p is :: c) (vs ++ xs) := by
  induction is generalizing vs with
  | nil =>
    cases hv
    exact Yields.of_next (by rw [next]) hc
  | cons i is ih =>
    rw [getItems, mapE] at hv
    split at hv
    · cases hv
    · rename_i v hi
      split at hv
      · cases hv
      · rename_i vs' hvs
        cases hv
        refine ⟨.items p is :: c, ?_, ih hvs⟩
        rw [next, getItem_ok_iff.2 hl]
        simp only [hi]

theorem yields_sub {p : Nat} {l : List α} (hl : ls[p]? = some l) {i : Nat} (hc : Yields ls c xs) :
    Yields ls (.sub p i :: c) (l.drop i ++ xs) := by
  generalize hn : l.length - i = n
  induction n generalizing i with
  | zero =>
    rw [List.drop_eq_nil_of_le (by omega)]
    refine Yields.of_next ?_ hc
    rw [next, hl]
    simp [List.getElem?_eq_none (show l.length ≤ i by omega)]
  | succ n ih =>
    have hi : i < l.length := by omega
    rw [List.drop_eq_getElem_cons hi]
    refine ⟨.sub p (i + 1) :: c, ?_, ih (by omega)⟩
    rw [next, hl]
    simp [List.getElem?_eq_getElem hi]

theorem yields_subRev {p : Nat} {l : List α} (hl : ls[p]? = some l) {k : Nat} (hk : k ≤ l.length)
    (hc : Yields ls c xs) : Yields ls (.subRev p k :: c) ((l.take k).reverse ++ xs) := by
  induction k with
  | zero => exact Yields.of_next (by rw [next]) hc
  | succ k ih =>
    have hi : k < l.length := by omega
    rw [List.take_add_one, List.getElem?_eq_getElem hi]
    simp only [Option.toList_some, List.reverse_append, List.reverse_cons, List.reverse_nil, List.nil_append,
      List.cons_append]
    refine ⟨.subRev p k :: c, ?_, ih (by omega)⟩
    rw [next, hl]
    simp [List.getElem?_eq_getElem hi]

theorem yields_subs {ps : List Nat} {subs : List (List α)} {rev : Bool} (h : getItems ls ps = .ok subs)
    (hc : Yields ls c xs) :
    Yields ls (.subs ps rev :: c) ((if rev then subs.map List.reverse else subs).flatten ++ xs) := by
  induction ps generalizing subs with
  | nil =>
    cases h
    cases rev <;> exact Yields.of_next (by rw [next]) hc
  | cons p ps ih =>
    rw [getItems, mapE] at h
    split at h
    · cases h
    · rename_i l hl
      split at h
      · cases h
      · rename_i subs' hs
        cases h
        have hl' := getItem_ok_iff.1 hl
        cases rev
        · refine Yields.of_next (c' := .sub p 0 :: .subs ps false :: c) ?_ ?_
          · conv => lhs; rw [next, hl]
            rfl
          · have := yields_sub hl' (i := 0) (ih hs)
            simpa using this
        · refine Yields.of_next (c' := .subRev p l.length :: .subs ps true :: c) ?_ ?_
          · conv => lhs; rw [next, hl]
            rfl
          · have := yields_subRev hl' (Nat.le_refl _) (ih hs)
            simpa using this

theorem yields_lists {p : Nat} (hc : Yields ls c xs) : Yields ls (.lists p :: c) ((ls.drop p).flatten ++ xs) := by
  generalize hn : ls.length - p = n
  induction n generalizing p with
  | zero =>
    rw [List.drop_eq_nil_of_le (by omega)]
    refine Yields.of_next ?_ hc
    rw [next, if_neg (by omega)]
  | succ n ih =>
    have hi : p < ls.length := by omega
    refine Yields.of_next (c' := .sub p 0 :: .lists (p + 1) :: c) (by conv => lhs; rw [next, if_pos hi]) ?_
    rw [List.drop_eq_getElem_cons hi, List.flatten_cons, List.append_assoc]
    exact yields_sub (List.getElem?_eq_getElem hi) (i := 0) (ih (p := p + 1) (by omega))

theorem yields_listsRev {k : Nat} (hk : k ≤ ls.length) (hc : Yields ls c xs) :
    Yields ls (.listsRev k :: c) ((ls.take k).flatten.reverse ++ xs) := by
  induction k with
  | zero => exact Yields.of_next (by rw [next]) hc
  | succ k ih =>
    have hi : k < ls.length := by omega
    refine Yields.of_next (c' := .subRev k ls[k].length :: .listsRev k :: c) ?_ ?_
    · conv => lhs; rw [next, List.getElem?_eq_getElem hi]
    · have := yields_subRev (List.getElem?_eq_getElem hi) (Nat.le_refl _) (ih (by omega))
      rw [List.take_length] at this
      rw [List.take_add_one, List.getElem?_eq_getElem hi, Option.toList_some, List.flatten_append, List.flatten_singleton,
        List.reverse_append, List.append_assoc]
      exact this

theorem yields_iter (s : St α κ) : Yields s.lists iter (Core.iter s) := by
  have := yields_lists (ls := s.lists) (p := 0) yields_nil
  simpa [iter, Core.iter] using this

theorem yields_reversed (s : St α κ) : Yields s.lists (reversed s) (Core.reversed s) := by
  have := yields_listsRev (ls := s.lists) (Nat.le_refl _) yields_nil
  have e : Core.reversed s = s.lists.flatten.reverse := by
    unfold Core.reversed
    simp [List.reverse_flatten]
  rw [e]
  simpa [reversed] using this

theorem yields_islicePos {s : St α κ} {p x p' x' : Nat} {r : Bool} (h : Core.islicePos s p x p' x' r = .ok xs) :
    ∃ c, islicePos s p x p' x' r = .ok c ∧ Yields s.lists c xs := by
  unfold Core.islicePos at h
  unfold islicePos
  split at h
  · rename_i hgt
    cases h
    exact ⟨_, by rw [if_pos hgt], yields_nil⟩
  rename_i hgt
  rw [if_neg hgt]
  split at h
  · rename_i heq
    rw [if_pos heq]
    cases hl : getItem s.lists p with
    | error e => rw [hl] at h; cases h
    | ok l =>
      rw [hl] at h
      refine ⟨_, rfl, ?_⟩
      have := yields_items (getItem_ok_iff.1 hl) h yields_nil
      rwa [List.append_nil] at this
  rename_i hne
  rw [if_neg hne]
  have hb : ∀ {β : Type} {l' : List α} {is : List Nat} {f : List α → Except PyErr β} {b : β},
      (getItems l' is >>= f) = .ok b → ∃ vs, getItems l' is = .ok vs ∧ f vs = .ok b := by
    intro β l' is f b hh
    cases hg : getItems l' is with
    | error e => rw [hg] at hh; cases hh
    | ok vs => rw [hg] at hh; exact ⟨vs, rfl, hh⟩
  have hb' : ∀ {β : Type} {is : List Nat} {f : List (List α) → Except PyErr β} {b : β},
      (getItems s.lists is >>= f) = .ok b → ∃ vs, getItems s.lists is = .ok vs ∧ f vs = .ok b := by
    intro β is f b hh
    cases hg : getItems s.lists is with
    | error e => rw [hg] at hh; cases hh
    | ok vs => rw [hg] at hh; exact ⟨vs, rfl, hh⟩
  split at h
  · rename_i hsucc
    rw [if_pos hsucc]
    cases hl : getItem s.lists p with
    | error e => rw [hl] at h; cases h
    | ok l =>
      cases hl' : getItem s.lists p' with
      | error e => rw [hl, hl'] at h; cases h
      | ok l' =>
        rw [hl, hl'] at h
        simp only [except_ok_bind] at h ⊢
        cases r
        · obtain ⟨vs, h1, h⟩ := hb h
          obtain ⟨ws, h2, h⟩ := hb h
          cases h
          refine ⟨_, rfl, ?_⟩
          have := yields_items (getItem_ok_iff.1 hl) h1 (yields_items (getItem_ok_iff.1 hl') h2 yields_nil)
          simpa using this
        · obtain ⟨vs, h1, h⟩ := hb h
          obtain ⟨ws, h2, h⟩ := hb h
          cases h
          refine ⟨_, rfl, ?_⟩
          have := yields_items (getItem_ok_iff.1 hl') h1 (yields_items (getItem_ok_iff.1 hl) h2 yields_nil)
          simpa using this
  rename_i hsucc
  rw [if_neg hsucc]
  cases hl : getItem s.lists p with
  | error e => rw [hl] at h; cases h
  | ok l =>
    cases hl' : getItem s.lists p' with
    | error e => rw [hl, hl'] at h; cases h
    | ok l' =>
      rw [hl, hl'] at h
      simp only [except_ok_bind] at h ⊢
      cases r
      · obtain ⟨vs, h1, h⟩ := hb h
        obtain ⟨us, h3, h⟩ := hb' h
        obtain ⟨ws, h2, h⟩ := hb h
        cases h
        refine ⟨_, rfl, ?_⟩
        have := yields_items (getItem_ok_iff.1 hl) h1
          (yields_subs (rev := false) h3 (yields_items (getItem_ok_iff.1 hl') h2 yields_nil))
        simpa using this
      · obtain ⟨vs, h1, h⟩ := hb h
        obtain ⟨us, h3, h⟩ := hb' h
        obtain ⟨ws, h2, h⟩ := hb h
        cases h
        refine ⟨_, rfl, ?_⟩
        have := yields_items (getItem_ok_iff.1 hl') h1
          (yields_subs (rev := true) h3 (yields_items (getItem_ok_iff.1 hl) h2 yields_nil))
        simpa using this

end Cursor

/-! ## The same method with its values at once, and one by one -/

/-- The second call ends in the same state as the first, and if the first succeeds so does the second, with related
results. -/
def Along {σ β γ : Type} (R : β → γ → Prop) (x : Except PyErr β × σ) (y : Except PyErr γ × σ) : Prop :=
  x.2 = y.2 ∧ ∀ b, x.1 = .ok b → ∃ c, y.1 = .ok c ∧ R b c

namespace Along
variable {σ β γ δ : Type} {R : β → γ → Prop}

theorem pure {b : β} {c : γ} (h : R b c) (s : σ) : Along R ((Pure.pure b : Py σ β) s) ((Pure.pure c : Py σ γ) s) :=
  ⟨rfl, fun _ e => by cases e; exact ⟨c, rfl, h⟩⟩

theorem bind {m : Py σ δ} {f : δ → Py σ β} {g : δ → Py σ γ} (h : ∀ d s, Along R (f d s) (g d s)) (s : σ) :
    Along R ((m >>= f) s) ((m >>= g) s) := by
  rw [Py.bind_apply, Py.bind_apply]
  rcases hm : m s with ⟨e | d, s'⟩
  · exact ⟨rfl, fun _ e => by cases e⟩
  · exact h d s'

theorem lift {x : Except PyErr β} {y : Except PyErr γ} (h : ∀ b, x = .ok b → ∃ c, y = .ok c ∧ R b c) (s : σ) :
    Along R ((Py.lift x : Py σ β) s) ((Py.lift y : Py σ γ) s) := ⟨rfl, h⟩

end Along

/-- Decompose two do-blocks in parallel. -/
macro "along" : tactic => `(tactic| repeat' (with_reducible first
  | refine Along.bind (fun _ _ => ?_) _
  | exact Along.pure (by assumption) _
  | exact Along.lift (by solve_by_elim only [*]) _
  | split
  | dsimp only))

section With
variable {β γ : Type} {R : β → γ → Prop}

theorem Core.isliceWith_along {ret : St α κ → Nat → Nat → Nat → Nat → Bool → Except PyErr β} {empty : β}
    {ret' : St α κ → Nat → Nat → Nat → Nat → Bool → Except PyErr γ} {empty' : γ} {s : St α κ} (he : R empty empty')
    (hr : ∀ p x p' x' r b, ret s p x p' x' r = .ok b → ∃ c, ret' s p x p' x' r = .ok c ∧ R b c)
    (ilog2 : Nat → Nat) (a b : Option Int) (r : Bool) :
    Along R (Core.isliceWith ret empty ilog2 a b r s) (Core.isliceWith ret' empty' ilog2 a b r s) := by
  unfold Core.isliceWith
  simp only [Py.get_bind]
  along

theorem SL.irangeWith_along {ret : St α α → Nat → Nat → Nat → Nat → Bool → Except PyErr β} {empty : β}
    {ret' : St α α → Nat → Nat → Nat → Nat → Bool → Except PyErr γ} {empty' : γ} {s : St α α} (he : R empty empty')
    (hr : ∀ p x p' x' r b, ret s p x p' x' r = .ok b → ∃ c, ret' s p x p' x' r = .ok c ∧ R b c)
    (E : Env α) (lo hi : Option α) (a b r : Bool) :
    Along R (SL.irangeWith ret empty E lo hi a b r s) (SL.irangeWith ret' empty' E lo hi a b r s) := by
  unfold SL.irangeWith
  simp only [Py.get_bind]
  along

theorem SKL.irange_keyWith_along {ret : St α κ → Nat → Nat → Nat → Nat → Bool → Except PyErr β} {empty : β}
    {ret' : St α κ → Nat → Nat → Nat → Nat → Bool → Except PyErr γ} {empty' : γ} {s : St α κ} (he : R empty empty')
    (hr : ∀ p x p' x' r b, ret s p x p' x' r = .ok b → ∃ c, ret' s p x p' x' r = .ok c ∧ R b c)
    (K : KEnv α κ) (lo hi : Option κ) (a b r : Bool) :
    Along R (SKL.irange_keyWith ret empty K lo hi a b r s) (SKL.irange_keyWith ret' empty' K lo hi a b r s) := by
  unfold SKL.irange_keyWith
  simp only [Py.get_bind]
  along

end With

/-! ## Queries change the positional index at most -/

/-- The call changes the positional index at most, whether it raises or not. -/
abbrev Quiet {β : Type} (m : Py (St α κ) β) : Prop := ∀ s0, Preserves (Reindexed s0) m

theorem Quiet.reindexed {β : Type} {m : Py (St α κ) β} (h : Quiet m) (s : St α κ) : Reindexed s (m s).2 :=
  h s s (Reindexed.refl s)

theorem Preserves.modify_index {s0 : St α κ} {i : St α κ → List Nat} {o : St α κ → Nat} :
    Preserves (Reindexed s0) (Py.modify fun s => { s with index := i s, offset := o s }) :=
  fun s hs => hs.trans ⟨i s, o s, rfl⟩

/-- Decompose a do-block. -/
macro "quiet_parts" : tactic => `(tactic| repeat' (with_reducible first
  | refine Preserves.bind ?_ fun _ => ?_
  | refine Preserves.ite ?_ ?_
  | exact Preserves.pure _
  | exact Preserves.raise _
  | exact Preserves.lift _
  | exact Preserves.get
  | exact Preserves.modify_index
  | refine Preserves.forEach (fun _ => ?_) _
  | refine Preserves.mapEach (fun _ => ?_) _
  | solve_by_elim only [*]
  | split
  | dsimp only))

/-- Decompose a do-block. -/
macro "quiet" : tactic => `(tactic| (intro s0; quiet_parts))

namespace Core
variable (ilog2 : Nat → Nat)

theorem buildIndex_quiet : Quiet (buildIndex ilog2 : Py (St α κ) Unit) := by unfold buildIndex; quiet
theorem ensureIndex_quiet : Quiet (ensureIndex ilog2 : Py (St α κ) Unit) := by
  have := buildIndex_quiet (α := α) (κ := κ) ilog2
  unfold ensureIndex; quiet
theorem loc_quiet (p i : Nat) : Quiet (loc ilog2 p i : Py (St α κ) Nat) := by
  have := ensureIndex_quiet (α := α) (κ := κ) ilog2
  unfold loc; quiet
theorem posNonneg_quiet (i : Nat) : Quiet (posNonneg ilog2 i : Py (St α κ) (Nat × Nat)) := by
  have := ensureIndex_quiet (α := α) (κ := κ) ilog2
  unfold posNonneg; quiet
theorem pos_quiet (i : Int) : Quiet (pos ilog2 i : Py (St α κ) (Nat × Nat)) := by
  have := posNonneg_quiet (α := α) (κ := κ) ilog2
  unfold pos; quiet
theorem getInt_quiet (i : Int) : Quiet (getInt ilog2 i : Py (St α κ) α) := by
  have := pos_quiet (α := α) (κ := κ) ilog2
  unfold getInt; quiet
theorem getSliceFwd_quiet (a b : Int) : Quiet (getSliceFwd ilog2 a b : Py (St α κ) (List α)) := by
  have := pos_quiet (α := α) (κ := κ) ilog2
  unfold getSliceFwd; quiet
theorem getSliceStep1_quiet (a b : Option Int) : Quiet (getSliceStep1 ilog2 a b : Py (St α κ) (List α)) := by
  have h1 := getSliceFwd_quiet (α := α) (κ := κ) ilog2
  have h2 := getInt_quiet (α := α) (κ := κ) ilog2
  unfold getSliceStep1; quiet
theorem getSlice_quiet (sl : PySlice) : Quiet (getSlice ilog2 sl : Py (St α κ) (List α)) := by
  have h1 := getSliceFwd_quiet (α := α) (κ := κ) ilog2
  have h2 := getInt_quiet (α := α) (κ := κ) ilog2
  have h3 := getSliceStep1_quiet (α := α) (κ := κ) ilog2
  unfold getSlice; quiet
theorem islice_quiet (a b : Option Int) (r : Bool) : Quiet (islice ilog2 a b r : Py (St α κ) (List α)) := by
  have := pos_quiet (α := α) (κ := κ) ilog2
  unfold islice isliceWith; quiet

end Core

namespace SL
variable (E : Env α)

theorem contains_quiet (v : α) : Quiet (contains E v) := by unfold contains; quiet
theorem irange_quiet (lo hi : Option α) (a b r : Bool) : Quiet (irange E lo hi a b r) := by
  unfold irange irangeWith; quiet
theorem bisect_left_quiet (v : α) : Quiet (bisect_left E v) := by
  have := Core.loc_quiet (α := α) (κ := α) E.ilog2
  unfold bisect_left; quiet
theorem bisect_right_quiet (v : α) : Quiet (bisect_right E v) := by
  have := Core.loc_quiet (α := α) (κ := α) E.ilog2
  unfold bisect_right; quiet
theorem count_quiet (v : α) : Quiet (count E v) := by
  have := Core.loc_quiet (α := α) (κ := α) E.ilog2
  unfold count; quiet
theorem index_quiet (v : α) (a b : Option Int) : Quiet (index E v a b) := by
  have h1 := Core.loc_quiet (α := α) (κ := α) E.ilog2
  have h2 := bisect_right_quiet E
  unfold index; quiet

end SL

namespace SKL
variable (K : KEnv α κ)

theorem find_quiet (v : α) : Quiet (find K v) := by unfold find; quiet
theorem contains_quiet (v : α) : Quiet (contains K v) := by
  have := find_quiet K
  unfold contains; quiet
theorem irange_key_quiet (lo hi : Option κ) (a b r : Bool) : Quiet (irange_key K lo hi a b r) := by
  unfold irange_key irange_keyWith; quiet
theorem irange_quiet (lo hi : Option α) (a b r : Bool) : Quiet (irange K lo hi a b r) := by
  have := irange_key_quiet K
  unfold irange irangeWith
  unfold irange_key at this
  quiet
theorem bisect_key_left_quiet (k : κ) : Quiet (bisect_key_left K k) := by
  have := Core.loc_quiet (α := α) (κ := κ) K.ilog2
  unfold bisect_key_left; quiet
theorem bisect_key_right_quiet (k : κ) : Quiet (bisect_key_right K k) := by
  have := Core.loc_quiet (α := α) (κ := κ) K.ilog2
  unfold bisect_key_right; quiet
theorem bisect_left_quiet (v : α) : Quiet (bisect_left K v) := by
  have := bisect_key_left_quiet K
  unfold bisect_left; quiet
theorem bisect_right_quiet (v : α) : Quiet (bisect_right K v) := by
  have := bisect_key_right_quiet K
  unfold bisect_right; quiet
theorem count_quiet (v : α) : Quiet (count K v) := by
  unfold count; quiet
theorem indexLoop_quiet (lists : List (List α)) (keys : List (List κ)) (v : α) (k : κ) (a b : Int) (p i n : Nat) :
    Quiet (indexLoop K lists keys v k a b p i n) := by
  have h1 := Core.loc_quiet (α := α) (κ := κ) K.ilog2
  fun_induction indexLoop K lists keys v k a b p i n <;> quiet
  all_goals dsimp +zetaDelta only
  all_goals quiet_parts
theorem index_quiet (v : α) (a b : Option Int) : Quiet (index K v a b) := by
  have h1 := indexLoop_quiet K
  unfold index; quiet

end SKL

theorem Quiet.out {β : Type} {m : Py (St α κ) β} (f : β → Out α) (h : Quiet m) : Quiet (Spec.out f m) := fun s0 s hs => by
  rw [Spec.out_snd]; exact h s0 s hs

theorem Quiet.read {β : Type} (f : St α κ → Except PyErr β) : Quiet (ListAPI.read f) := fun _ _ hs => hs

theorem Quiet.valuesOf {L : ListAPI (St α κ) α} (f : St α κ → Except PyErr (St α κ)) : Quiet (L.valuesOf f) :=
  fun _ s hs => by unfold ListAPI.valuesOf; split <;> exact hs

theorem SL.step_quiet (E : Env α) (op : Op α) (hq : op.isQuery = true) : Quiet ((SL.api E).step op) := by
  cases op with
  | contains v => exact (contains_quiet E v).out _
  | getInt i => exact (Core.getInt_quiet E.ilog2 i).out _
  | getSlice sl => exact (Core.getSlice_quiet E.ilog2 sl).out _
  | bisectLeft v => exact (bisect_left_quiet E v).out _
  | bisectRight v => exact (bisect_right_quiet E v).out _
  | count v => exact (count_quiet E v).out _
  | index v a b => exact (index_quiet E v a b).out _
  | irange lo hi a b r => exact (irange_quiet E lo hi a b r).out _
  | islice a b r => exact (Core.islice_quiet E.ilog2 a b r).out _
  | iter => exact fun _ _ h => h
  | reversed => exact fun _ _ h => h
  | len => exact fun _ _ h => h
  | compare op other => exact (Quiet.read _).out _
  | copy => exact (Quiet.valuesOf (L := SL.api E) _).out _
  | concat xs => exact (Quiet.valuesOf (L := SL.api E) _).out _
  | mul n => exact (Quiet.valuesOf (L := SL.api E) _).out _
  | _ => cases hq

theorem SKL.step_quiet (K : KEnv α κ) (op : Op α) (hq : op.isQuery = true) : Quiet ((SKL.api K).step op) := by
  cases op with
  | contains v => exact (contains_quiet K v).out _
  | getInt i => exact (Core.getInt_quiet K.ilog2 i).out _
  | getSlice sl => exact (Core.getSlice_quiet K.ilog2 sl).out _
  | bisectLeft v => exact (bisect_left_quiet K v).out _
  | bisectRight v => exact (bisect_right_quiet K v).out _
  | count v =>
    exact Quiet.out (m := (SKL.api K).count v) _ fun s0 => Preserves.bind (count_quiet K v s0) fun _ => Preserves.pure _
  | index v a b => exact (index_quiet K v a b).out _
  | irange lo hi a b r => exact (irange_quiet K lo hi a b r).out _
  | islice a b r => exact (Core.islice_quiet K.ilog2 a b r).out _
  | iter => exact fun _ _ h => h
  | reversed => exact fun _ _ h => h
  | len => exact fun _ _ h => h
  | compare op other => exact (Quiet.read _).out _
  | copy => exact (Quiet.valuesOf (L := SKL.api K) _).out _
  | concat xs => exact (Quiet.valuesOf (L := SKL.api K) _).out _
  | mul n => exact (Quiet.valuesOf (L := SKL.api K) _).out _
  | _ => cases hq

theorem SKL.kstep_quiet (K : KEnv α κ) (op : KOp α κ) (hq : op.isQuery = true) : Quiet (SKL.kstep K op) := by
  cases op with
  | op o => exact step_quiet K o hq
  | bisectKeyLeft k => exact (bisect_key_left_quiet K k).out _
  | bisectKeyRight k => exact (bisect_key_right_quiet K k).out _
  | irangeKey lo hi a b r => exact (irange_key_quiet K lo hi a b r).out _

/-! ## Creating iterators -/

section Open
variable {lt : α → α → Bool} {key : α → κ} {klt : κ → κ → Bool} {veq : α → α → Bool}
open Cursor (Yields)

/-- Creating an iterator the lazy way, given the method that makes all its values at once. -/
theorem open_of {m : Py (St α κ) (List α)} {m' : Py (St α κ) Cursor} {f : Py (List α) (List α)} {I : St α κ → Prop}
    (hr : Refines I Core.iter m f) (hq : Quiet m) {s : St α κ} (hs : I s)
    (ha : Along (fun xs c => Yields s.lists c xs) (m s) (m' s)) {xs : List α} (hf : (f (Core.iter s)).1 = .ok xs) :
    ∃ c s', m' s = (.ok c, s') ∧ Yields s.lists c xs ∧ Reindexed s s' ∧ I s' := by
  obtain ⟨h1, _, h3⟩ := hr s hs
  obtain ⟨c, e, hy⟩ := ha.2 xs (h1.trans hf)
  exact ⟨c, (m s).2, Prod.ext e ha.1.symm, hy, hq.reindexed s, h3⟩

theorem toOption_getD {β : Type} {x : Except PyErr (List β)} {xs : List β} (h : x = .ok xs) : x.toOption.getD [] = xs := by
  rw [h]; rfl

theorem spec_islice_ok (a b : Option Int) (r : Bool) (l : List α) :
    (Spec.islice a b r l).1 = .ok ((Spec.islice a b r l).1.toOption.getD []) := by
  cases h : (Spec.islice a b r l).1 with
  | ok xs => rfl
  | error e =>
    exfalso
    unfold Spec.islice Spec.getSlice Spec.slicePositions at h
    cases hi : PySlice.indices { start := a, stop := b } l.length with
    | error e => simp [PySlice.indices] at hi
    | ok x => simp [hi] at h

theorem SL.openIter_ok {E : Env α} (hE : E.Lawful lt) {s : St α α} (hi : Inv id lt false s) (k : IterKind α) :
    ∃ c s', SL.openIter E k s = (.ok c, s') ∧
      Yields s.lists c (Spec.iterValues (Spec.Order.ofValues lt) k (Core.iter s)) ∧ Reindexed s s' ∧ Inv id lt false s' := by
  cases k with
  | iter => exact ⟨_, s, rfl, Cursor.yields_iter s, Reindexed.refl s, hi⟩
  | reversed =>
    refine ⟨_, s, rfl, ?_, Reindexed.refl s, hi⟩
    have := Cursor.yields_reversed s
    rwa [show Core.reversed s = (Core.iter s).reverse from Except.ok.inj ((SL.api_lawful hE).reversed s hi).1] at this
  | islice a b r =>
    exact open_of (islice_refines hE.ilog2 a b r) (Core.islice_quiet _ _ _ _) hi
      (Core.isliceWith_along (R := fun xs c => Yields s.lists c xs) Cursor.yields_nil (fun _ _ _ _ _ _ h => Cursor.yields_islicePos h) _ _ _ _)
      (spec_islice_ok a b r _)
  | irange lo hi' a b r =>
    exact open_of (irange_refines hE lo hi' a b r) (irange_quiet _ _ _ _ _ _) hi
      (SL.irangeWith_along (R := fun xs c => Yields s.lists c xs) Cursor.yields_nil (fun _ _ _ _ _ _ h => Cursor.yields_islicePos h) _ _ _ _ _ _) rfl

theorem SKL.openIter_ok {K : KEnv α κ} (hK : K.Lawful key klt veq) {s : St α κ} (hi : Inv key klt true s)
    (k : IterKind α) :
    ∃ c s', SKL.openIter K k s = (.ok c, s') ∧
      Yields s.lists c (Spec.iterValues (Spec.Order.ofKey key klt veq K.vcmp) k (Core.iter s)) ∧ Reindexed s s' ∧
      Inv key klt true s' := by
  cases k with
  | iter => exact ⟨_, s, rfl, Cursor.yields_iter s, Reindexed.refl s, hi⟩
  | reversed =>
    refine ⟨_, s, rfl, ?_, Reindexed.refl s, hi⟩
    have := Cursor.yields_reversed s
    rwa [show Core.reversed s = (Core.iter s).reverse from Except.ok.inj ((SKL.api_lawful hK).reversed s hi).1] at this
  | islice a b r =>
    exact open_of (islice_refines hK.ilog2 a b r) (Core.islice_quiet _ _ _ _) hi
      (Core.isliceWith_along (R := fun xs c => Yields s.lists c xs) Cursor.yields_nil (fun _ _ _ _ _ _ h => Cursor.yields_islicePos h) _ _ _ _)
      (spec_islice_ok a b r _)
  | irange lo hi' a b r =>
    refine open_of (irange_refines hK lo hi' a b r) (irange_quiet _ _ _ _ _ _) hi (m' := SKL.openIter K (.irange lo hi' a b r)) ?_ rfl
    unfold SKL.irange SKL.irangeWith
    simp only [SKL.openIter, SKL.irangeWith, keyOpt_ok hK, Py.lift_ok_bind]
    exact SKL.irange_keyWith_along (R := fun xs c => Yields s.lists c xs) Cursor.yields_nil
      (fun _ _ _ _ _ _ h => Cursor.yields_islicePos h) _ _ _ _ _ _

theorem SKL.kopenIter_ok {K : KEnv α κ} (hK : K.Lawful key klt veq) {s : St α κ} (hi : Inv key klt true s)
    (k : KIterKind α κ) :
    ∃ c s', SKL.kopenIter K k s = (.ok c, s') ∧
      Yields s.lists c ((Spec.kiterSpec key klt (Spec.Order.ofKey key klt veq K.vcmp)).values k (Core.iter s)) ∧
      Reindexed s s' ∧ Inv key klt true s' := by
  cases k with
  | kind k => exact openIter_ok hK hi k
  | irangeKey lo hi' a b r =>
    exact open_of (irange_key_refines hK lo hi' a b r) (irange_key_quiet _ _ _ _ _ _) hi
      (SKL.irange_keyWith_along (R := fun xs c => Yields s.lists c xs) Cursor.yields_nil
        (fun _ _ _ _ _ _ h => Cursor.yields_islicePos h) _ _ _ _ _ _) rfl

end Open

/-! ## Schedules -/

/-- What makes a container with iterators behave as specified. -/
structure IterSys.Lawful {σ τ α β K C R : Type} (A : IterSys σ α β K C R) (B : IterSpec τ α β K C R) (I : σ → Prop)
    (abs : σ → τ) (Valid : C → Prop) : Prop where
  call : ∀ op s, Valid op → I s →
    (A.call op s).1 = (B.call op (abs s)).1 ∧ abs (A.call op s).2 = (B.call op (abs s)).2 ∧ I (A.call op s).2
  quiet : ∀ op s, Valid op → I s → B.quiet op (abs s) = true → A.lists (A.call op s).2 = A.lists s
  opens : ∀ k s, I s → ∃ c s', A.opens k s = (.ok c, s') ∧ Cursor.Yields (A.lists s) c (B.values k (abs s)) ∧
    A.lists s' = A.lists s ∧ abs s' = abs s ∧ I s'
  view : ∀ k v s, I s → A.view k v s = B.view k v (abs s)

namespace IterSys
variable {σ τ β K C R : Type} {A : IterSys σ α β K C R} {B : IterSpec τ α β K C R} {I : σ → Prop} {abs : σ → τ}
  {V : C → Prop}

/-- The iterators are as promised. -/
structure Rel (A : IterSys σ α β K C R) (I : σ → Prop) (abs : σ → τ) (x : IterState σ K) (y : IterSpec.State τ α K) :
    Prop where
  inv : I x.1
  abs : abs x.1 = y.1
  length : x.2.length = y.2.length
  yields : ∀ (j : Nat) (k : K) (xs : List α), y.2[j]? = some (some (k, xs)) →
    ∃ c, x.2[j]? = some (k, c) ∧ Cursor.Yields (A.lists x.1) c xs

theorem Lawful.step (h : A.Lawful B I abs V) (ev : Event K C) (hv : ev.Valid V) {x : IterState σ K}
    {y : IterSpec.State τ α K} (hr : Rel A I abs x y) :
    Meets (B.step ev y).1 (A.step ev x).1 ∧ Rel A I abs (A.step ev x).2 (B.step ev y).2 := by
  obtain ⟨s, its⟩ := x
  obtain ⟨t, jts⟩ := y
  obtain ⟨hi, rfl, hl, hy⟩ := hr
  dsimp only at hi hl hy ⊢
  cases ev with
  | opens k =>
    obtain ⟨c, s', e, h1, h2, h3, h4⟩ := h.opens k s hi
    simp only [IterSys.step, IterSpec.step, e]
    refine ⟨rfl, h4, h3, by simp [hl], fun j k' xs hj => ?_⟩
    dsimp only at hj ⊢
    rw [h2]
    rcases Nat.lt_trichotomy j jts.length with hlt | rfl | hgt
    · rw [List.getElem?_append_left hlt] at hj
      rw [List.getElem?_append_left (hl ▸ hlt)]
      exact hy j k' xs hj
    · rw [List.getElem?_append_right (Nat.le_refl _)] at hj
      rw [List.getElem?_append_right (Nat.le_of_eq hl)]
      simp only [Nat.sub_self, List.getElem?_cons_zero, Option.some.injEq, Prod.mk.injEq] at hj
      obtain ⟨rfl, rfl⟩ := hj
      exact ⟨c, by simp [hl], h1⟩
    · rw [List.getElem?_eq_none (by simp; omega)] at hj
      cases hj
  | next j =>
    simp only [IterSys.step, IterSpec.step]
    cases hj : jts[j]? with
    | none =>
      have : its[j]? = none := List.getElem?_eq_none (by rw [hl]; exact List.getElem?_eq_none_iff.1 hj)
      simp only [this]
      exact ⟨rfl, hi, rfl, hl, hy⟩
    | some o =>
      have hjl : j < jts.length := (List.getElem?_eq_some_iff.1 hj).1
      cases o with
      | none =>
        refine ⟨trivial, ?_⟩
        obtain ⟨⟨k, c⟩, hc⟩ : ∃ p, its[j]? = some p := ⟨_, List.getElem?_eq_getElem (hl ▸ hjl)⟩
        have key : ∀ c', Rel A I abs (s, its.set j (k, c')) (abs s, jts) := fun c' =>
          ⟨hi, rfl, by simp [hl], fun j' k' xs hj' => by
            have hne : j ≠ j' := by rintro rfl; rw [hj] at hj'; cases hj'
            obtain ⟨d, hd, hd'⟩ := hy j' k' xs hj'
            exact ⟨d, by rw [List.getElem?_set_ne hne]; exact hd, hd'⟩⟩
        simp only [hc]
        split
        · exact ⟨hi, rfl, hl, hy⟩
        · exact key _
        · split <;> exact key _
      | some p =>
        obtain ⟨k, xs⟩ := p
        obtain ⟨c, hc, hyc⟩ := hy j k xs hj
        simp only [hc]
        have key : ∀ c' xs', Cursor.Yields (A.lists s) c' xs' →
            Rel A I abs (s, its.set j (k, c')) (abs s, jts.set j (some (k, xs'))) := fun c' xs' hh =>
          ⟨hi, rfl, by simp [hl], fun j' k' ys hj' => by
            by_cases hne : j = j'
            · subst hne
              dsimp only at hj' ⊢
              rw [List.getElem?_set_self hjl] at hj'
              cases hj'
              exact ⟨c', List.getElem?_set_self (hl ▸ hjl), hh⟩
            · dsimp only at hj' ⊢
              rw [List.getElem?_set_ne hne] at hj' ⊢
              exact hy j' k' ys hj'⟩
        cases xs with
        | nil =>
          have e : c.next (A.lists s) = .ok (none, []) := hyc
          simp only [e]
          refine ⟨rfl, ?_⟩
          have := key [] [] Cursor.yields_nil
          rwa [show jts.set j (some (k, [])) = jts from List.ext_getElem? fun i => by
            by_cases hij : j = i
            · subst hij; rw [List.getElem?_set_self hjl, hj]
            · rw [List.getElem?_set_ne hij]] at this
        | cons v xs =>
          obtain ⟨c', e, hy'⟩ := hyc
          simp only [e, h.view k v s hi]
          cases B.view k v (abs s) with
          | ok b => exact ⟨rfl, key c' xs hy'⟩
          | error er => exact ⟨rfl, key c' xs hy'⟩
  | call op =>
    obtain ⟨h1, h2, h3⟩ := h.call op s hv hi
    have hq := h.quiet op s hv hi
    simp only [IterSys.step, IterSpec.step]
    rcases hb : B.call op (abs s) with ⟨r, t'⟩
    rcases ha : A.call op s with ⟨r', s'⟩
    rw [ha] at h1 h2 h3 hq
    rw [hb] at h1 h2
    dsimp only at h1 h2 h3 hq
    subst h1
    subst h2
    have key : Rel A I abs (s', its) (abs s', if B.quiet op (abs s) = true then jts else jts.map fun _ => none) := by
      refine ⟨h3, rfl, by dsimp only; split <;> simp [hl], fun j k xs hj => ?_⟩
      dsimp only at hj ⊢
      split at hj
      · rename_i hqq
        rw [hq hqq]
        exact hy j k xs hj
      · simp at hj
    cases r' with
    | ok b => exact ⟨rfl, key⟩
    | error e => exact ⟨rfl, key⟩

/-- Every schedule. -/
theorem Lawful.hist (h : A.Lawful B I abs V) (evs : List (Event K C)) (hv : ∀ ev ∈ evs, ev.Valid V) {x : IterState σ K}
    {y : IterSpec.State τ α K} (hr : Rel A I abs x y) :
    (runHist A.step evs x).1.length = (runHist B.step evs y).1.length ∧
    (∀ (i : Nat) r r', (runHist B.step evs y).1[i]? = some r → (runHist A.step evs x).1[i]? = some r' → Meets r r') ∧
    abs (runHist A.step evs x).2.1 = (runHist B.step evs y).2.1 := by
  induction evs generalizing x y with
  | nil => exact ⟨rfl, fun _ _ _ h => by simp [runHist] at h, hr.abs⟩
  | cons ev evs ih =>
    obtain ⟨h1, h2⟩ := h.step ev (hv ev (by simp)) hr
    obtain ⟨i1, i2, i3⟩ := ih (fun e he => hv e (by simp [he])) h2
    refine ⟨by simp [runHist, i1], fun i r r' e e' => ?_, i3⟩
    cases i with
    | zero =>
      simp only [runHist, List.getElem?_cons_zero, Option.some.injEq] at e e'
      subst e e'; exact h1
    | succ i => exact i2 i r r' e e'

/-- While only quiet calls are made, an iterator yields its values and then stops, whatever the other iterators do. -/
theorem Lawful.drain (h : A.Lawful B I abs V) (g : α → β) (k : K) (hg : ∀ v s, I s → A.view k v s = .ok (g v))
    (evs : List (Event K C)) (hv : ∀ ev ∈ evs, ev.Valid V) (hq : ∀ ev ∈ evs, ev.Valid fun op => ∀ t, B.quiet op t = true)
    {s : σ} {its : List (K × Cursor)} (hi : I s) {j : Nat} {c : Cursor} {xs : List α} (hj : its[j]? = some (k, c))
    (hy : Cursor.Yields (A.lists s) c xs) (m : Nat) (r : Except PyErr (EvOut β R))
    (hr : (answersOf j evs (runHist A.step evs (s, its)).1)[m]? = some r) :
    r = .ok (match xs[m]? with
      | some x => .value (g x)
      | none => .stop) := by
  induction evs generalizing s its c xs m with
  | nil => simp [answersOf] at hr
  | cons ev evs ih =>
    have ih := @ih (fun e he => hv e (by simp [he])) (fun e he => hq e (by simp [he]))
    cases ev with
    | opens k' =>
      obtain ⟨c', s', e, _, h2, _, h4⟩ := h.opens k' s hi
      simp only [runHist, answersOf, IterSys.step, e] at hr
      refine ih h4 (c := c) ?_ (by rw [h2]; exact hy) m hr
      rw [List.getElem?_append_left (List.getElem?_eq_some_iff.1 hj).1]; exact hj
    | call op =>
      obtain ⟨_, _, h3⟩ := h.call op s (hv (.call op) (by simp)) hi
      have hqq := h.quiet op s (hv (.call op) (by simp)) hi (hq (.call op) (by simp) _)
      rcases ha : A.call op s with ⟨r', s'⟩
      rw [ha] at h3 hqq
      cases r' <;> simp only [runHist, answersOf, IterSys.step, ha] at hr <;>
        exact ih h3 hj (by dsimp only at hqq; rw [hqq]; exact hy) m hr
    | next i =>
      by_cases hij : i = j
      · subst hij
        have hl := (List.getElem?_eq_some_iff.1 hj).1
        cases xs with
        | nil =>
          have e : c.next (A.lists s) = .ok (none, []) := hy
          simp only [runHist, answersOf, IterSys.step, hj, e, if_true] at hr
          cases m with
          | zero => simp only [List.getElem?_cons_zero, Option.some.injEq] at hr; subst hr; rfl
          | succ m =>
            have := ih hi (c := []) (xs := []) (List.getElem?_set_self hl) Cursor.yields_nil m hr
            simpa using this
        | cons x xs =>
          obtain ⟨c', e, hy'⟩ := hy
          simp only [runHist, answersOf, IterSys.step, hj, e, hg x s hi, if_true] at hr
          cases m with
          | zero => simp only [List.getElem?_cons_zero, Option.some.injEq] at hr; subst hr; rfl
          | succ m =>
            have := ih hi (List.getElem?_set_self hl) hy' m hr
            simpa using this
      · have key : ∀ p, (its.set i p)[j]? = some (k, c) := fun p => by rw [List.getElem?_set_ne hij]; exact hj
        simp only [runHist, answersOf, if_neg hij] at hr
        rcases hst : (A.step (.next i) (s, its)) with ⟨o, s', its'⟩
        have : s' = s ∧ its'[j]? = some (k, c) := by
          simp only [IterSys.step] at hst
          split at hst
          · cases hst; exact ⟨rfl, hj⟩
          · split at hst
            · cases hst; exact ⟨rfl, hj⟩
            · cases hst; exact ⟨rfl, key _⟩
            · split at hst <;> cases hst <;> exact ⟨rfl, key _⟩
        obtain ⟨rfl, hj'⟩ := this
        rw [hst] at hr
        exact ih hi hj' hy m hr

theorem rel_start {s : σ} (hs : I s) : Rel A I abs (s, []) (abs s, []) :=
  ⟨hs, rfl, rfl, fun j k xs h => by simp at h⟩

end IterSys

/-! ## The containers -/

theorem SL.iterSys_lawful {E : Env α} {lt : α → α → Bool} (hE : E.Lawful lt) :
    (SL.iterSys E).Lawful (Spec.iterSpec (Spec.Order.ofValues lt)) (Inv id lt false) Core.iter Op.Valid where
  call op s hv hi := (SL.api_lawful hE).step op hv s hi
  quiet op s _ _ hq := ((SL.step_quiet E op hq).reindexed s).lists
  opens k s hi := by
    obtain ⟨c, s', e, h1, h2, h3⟩ := SL.openIter_ok hE hi k
    exact ⟨c, s', e, h1, h2.lists, by rw [Core.iter, h2.lists]; rfl, h3⟩
  view _ _ _ _ := rfl

theorem SKL.iterSys_lawful {K : KEnv α κ} {key : α → κ} {klt : κ → κ → Bool} {veq : α → α → Bool}
    (hK : K.Lawful key klt veq) :
    (SKL.iterSys K).Lawful (Spec.kiterSpec key klt (Spec.Order.ofKey key klt veq K.vcmp)) (Inv key klt true) Core.iter
      KOp.Valid where
  call op s hv hi := SKL.kstep_refines hK op hv s hi
  quiet op s _ _ hq := ((SKL.kstep_quiet K op hq).reindexed s).lists
  opens k s hi := by
    obtain ⟨c, s', e, h1, h2, h3⟩ := SKL.kopenIter_ok hK hi k
    exact ⟨c, s', e, h1, h2.lists, by rw [Core.iter, h2.lists]; rfl, h3⟩
  view _ _ _ _ := rfl

/-- Iterators of a list of the class. -/
theorem ListClass.Orders.iterable {c : ListClass α} {lt eqv : α → α → Bool} (h : c.Orders lt eqv) :
    ∃ (O : Spec.Order α) (I : c.State → Prop), c.api.Lawful O I ∧ O.lt = lt ∧ (∀ a b, O.same a b = eqv a b) ∧
      ∀ (s : c.State) (k : IterKind α), I s → ∃ cu s', c.openIter k s = (.ok cu, s') ∧
        Cursor.Yields (c.lists s) cu (Spec.iterValues O k (c.api.iter s)) ∧ c.lists s' = c.lists s ∧
        c.api.iter s' = c.api.iter s ∧ I s' := by
  cases h with
  | plain hE he =>
    refine ⟨_, _, SL.api_lawful hE, rfl, fun a b => (he a b).symm, fun s k hi => ?_⟩
    obtain ⟨cu, s', e, h1, h2, h3⟩ := SL.openIter_ok hE hi k
    exact ⟨cu, s', e, h1, h2.lists, show s'.lists.flatten = s.lists.flatten by rw [h2.lists], h3⟩
  | keyed hK he =>
    refine ⟨_, _, SKL.api_lawful hK, rfl, fun a b => ?_, fun s k hi => ?_⟩
    · simp only [Spec.Order.ofKey]
      cases hv : eqv a b
      · simp
      · rw [he a b hv]; rfl
    · obtain ⟨cu, s', e, h1, h2, h3⟩ := SKL.openIter_ok hK hi k
      exact ⟨cu, s', e, h1, h2.lists, show s'.lists.flatten = s.lists.flatten by rw [h2.lists], h3⟩

/-- Queries do not change the sublists. -/
theorem ListClass.query_lists (c : ListClass α) (op : Op α) (hq : op.isQuery = true) (s : c.State) :
    c.lists (c.api.step op s).2 = c.lists s := by
  cases c with
  | plain E => exact ((SL.step_quiet E op hq).reindexed s).lists
  | keyed K => exact ((SKL.step_quiet K op hq).reindexed s).lists

namespace SS
variable {τ : Type} {S : SetOps τ α} {c : ListClass α} {O : Spec.Order α} {eqv : α → α → Bool} {I : c.State → Prop}

theorem onList_lists {β : Type} (f : β → Out α) {op : Op α} {m : Py c.State β}
    (e : ∀ s : c.State, (c.api.step op s).2 = (m s).2) (hq : op.isQuery = true) (s : SS τ c.State) :
    c.lists (Spec.out f (onList m) s).2.list = c.lists s.list := by
  rw [Spec.out_snd]
  show c.lists (m s.list).2 = _
  rw [← e]; exact c.query_lists op hq s.list

theorem valuesOf_snd (f : SS τ c.State → Except PyErr (SS τ c.State)) (s : SS τ c.State) :
    (valuesOf c.api f s).2 = s := by
  unfold valuesOf; split <;> rfl

theorem query_lists (op : SSOp α) (hq : op.isQuery = true) (s : SS τ c.State) :
    c.lists (step S c.api op s).2.list = c.lists s.list := by
  cases op with
  | getInt i => exact onList_lists _ (op := .getInt i) (fun _ => Spec.out_snd ..) rfl s
  | getSlice sl => exact onList_lists _ (op := .getSlice sl) (fun _ => Spec.out_snd ..) rfl s
  | bisectLeft v => exact onList_lists _ (op := .bisectLeft v) (fun _ => Spec.out_snd ..) rfl s
  | bisectRight v => exact onList_lists _ (op := .bisectRight v) (fun _ => Spec.out_snd ..) rfl s
  | index v a b => exact onList_lists _ (op := .index v a b) (fun _ => Spec.out_snd ..) rfl s
  | irange lo hi a b r => exact onList_lists _ (op := .irange lo hi a b r) (fun _ => Spec.out_snd ..) rfl s
  | islice a b r => exact onList_lists _ (op := .islice a b r) (fun _ => Spec.out_snd ..) rfl s
  | copy => exact congrArg (fun s => c.lists (SS.list s)) ((Spec.out_snd ..).trans (valuesOf_snd _ s))
  | union _ => exact congrArg (fun s => c.lists (SS.list s)) ((Spec.out_snd ..).trans (valuesOf_snd _ s))
  | intersection _ => exact congrArg (fun s => c.lists (SS.list s)) ((Spec.out_snd ..).trans (valuesOf_snd _ s))
  | difference _ => exact congrArg (fun s => c.lists (SS.list s)) ((Spec.out_snd ..).trans (valuesOf_snd _ s))
  | symmetricDifference _ => exact congrArg (fun s => c.lists (SS.list s)) ((Spec.out_snd ..).trans (valuesOf_snd _ s))
  | contains _ => rfl
  | len => rfl
  | iter => rfl
  | reversed => rfl
  | count _ => rfl
  | isdisjoint _ => rfl
  | issubset _ => rfl
  | issuperset _ => rfl
  | compare _ _ => rfl
  | _ => cases hq

theorem iterSys_lawful [DecidableEq α] (h : Good S c.api O eqv I) (ht : Total O eqv)
    (ho : ∀ (s : c.State) (k : IterKind α), I s → ∃ cu s', c.openIter k s = (.ok cu, s') ∧
      Cursor.Yields (c.lists s) cu (Spec.iterValues O k (c.api.iter s)) ∧ c.lists s' = c.lists s ∧
      c.api.iter s' = c.api.iter s ∧ I s') :
    (SS.iterSys S c).Lawful (SetSpec.iterSpec O) (Inv S c.api I) (iter c.api) SSOp.Valid where
  call op s hv hi := step_refines h ht op hv s hi
  quiet op s hv hi hq := by
    have hm : ∀ v, S.mem v s.set = decide (v ∈ iter c.api s) := fun v => by rw [hi.mem h, ht.any]; rfl
    show c.lists (step S c.api op s).2.list = c.lists s.list
    cases op with
    | add v =>
      have hq : decide (v ∈ iter c.api s) = true := hq
      simp only [step, Spec.out_snd, add, Py.get_bind, hm, hq, if_true]; rfl
    | discard v =>
      have hq : decide (v ∉ iter c.api s) = true := hq
      rw [decide_not, Bool.not_eq_true'] at hq
      simp only [step, Spec.out_snd, discard, Py.get_bind, hm, hq, Bool.false_eq_true, if_false]; rfl
    | _ =>
      refine query_lists _ ?_ s
      exact hq
  opens k s hi := by
    obtain ⟨cu, l', e, h1, h2, h3, h4⟩ := ho s.list k hi.list
    refine ⟨cu, { s with list := l' }, ?_, h1, h2, h3, h4, ?_⟩
    · show (((c.openIter k) s.list).1, { s with list := ((c.openIter k) s.list).2 }) = _
      rw [e]
    · rw [show c.api.iter l' = _ from h3]; exact hi.perm
  view _ _ _ _ := rfl

end SS

namespace SD
variable {ν : Type} {eqv : κ → κ → Bool} {c : ListClass κ} {O : Spec.Order κ} {I : c.State → Prop}

/-- The call does not change the sublists. -/
abbrev Still {β : Type} (m : Py (SD κ ν c.State) β) : Prop := ∀ ls, Preserves (fun s => c.lists s.list = ls) m

theorem onList_still {β : Type} {op : Op κ} {m : Py c.State β} (e : ∀ s : c.State, (c.api.step op s).2 = (m s).2)
    (hq : op.isQuery = true) : Still (ν := ν) (onList m) := fun ls s hs => by
  show c.lists (m s.list).2 = _
  rw [← e]; exact (c.query_lists op hq s.list).trans hs

theorem Still.out {β : Type} {m : Py (SD κ ν c.State) β} (h : Still m) (f : β → DOut κ ν) : Still (SD.out f m) :=
  fun ls => Preserves.bind (h ls) fun _ => Preserves.pure _

theorem read_still {β : Type} (f : SD κ ν c.State → Except PyErr β) : Still (read f) := fun _ _ hs => hs

theorem itemsOf_still (f : SD κ ν c.State → Except PyErr (SD κ ν c.State)) : Still (itemsOf eqv c.api f) :=
  fun _ s hs => by unfold itemsOf; split <;> exact hs

theorem getitem_still (k : κ) : Still (c := c) (ν := ν) (getitem eqv k) := fun _ =>
  Preserves.bind Preserves.get fun _ => Preserves.lift _

theorem getInt_still (i : Int) : Still (ν := ν) (onList (c.api.getInt i)) :=
  onList_still (op := .getInt i) (fun _ => Spec.out_snd ..) rfl
theorem getSlice_still (sl : PySlice) : Still (ν := ν) (onList (c.api.getSlice sl)) :=
  onList_still (op := .getSlice sl) (fun _ => Spec.out_snd ..) rfl
theorem peekitem_still (i : Int) : Still (ν := ν) (peekitem eqv c.api i) := fun ls =>
  Preserves.bind (getInt_still i ls) fun _ => Preserves.bind (getitem_still _ ls) fun _ => Preserves.pure _

theorem query_still (op : SDOp κ ν) (hq : op.isQuery = true) : Still (c := c) (step eqv c.api op) := by
  cases op with
  | peekitem i => exact (peekitem_still i).out _
  | itemsAt i => exact (peekitem_still i).out _
  | getitem k => exact (getitem_still k).out _
  | get k => exact (read_still _).out _
  | contains k => exact (read_still _).out _
  | len => exact (read_still _).out _
  | iter => exact (read_still _).out _
  | reversed => exact (read_still _).out _
  | items => exact (read_still _).out _
  | values => exact (read_still _).out _
  | keysAt i => exact (getInt_still i).out _
  | keysSlice sl => exact (getSlice_still sl).out _
  | itemsSlice sl =>
    exact Still.out (fun ls => Preserves.bind (getSlice_still sl ls) fun _ => Preserves.mapEach (fun _ =>
      Preserves.bind (getitem_still _ ls) fun _ => Preserves.pure _) _) _
  | valuesAt i => exact Still.out (fun ls => Preserves.bind (getInt_still i ls) fun _ => getitem_still _ ls) _
  | valuesSlice sl =>
    exact Still.out (fun ls => Preserves.bind (getSlice_still sl ls) fun _ => Preserves.mapEach (fun _ =>
      getitem_still _ ls) _) _
  | bisectLeft k => exact Still.out (onList_still (op := .bisectLeft k) (fun _ => Spec.out_snd ..) rfl) _
  | bisectRight k => exact Still.out (onList_still (op := .bisectRight k) (fun _ => Spec.out_snd ..) rfl) _
  | index k a b => exact Still.out (onList_still (op := .index k a b) (fun _ => Spec.out_snd ..) rfl) _
  | irange lo hi a b r => exact Still.out (onList_still (op := .irange lo hi a b r) (fun _ => Spec.out_snd ..) rfl) _
  | islice a b r => exact Still.out (onList_still (op := .islice a b r) (fun _ => Spec.out_snd ..) rfl) _
  | copy => exact (itemsOf_still _).out _
  | or other => exact (itemsOf_still _).out _
  | ror other => exact (itemsOf_still _).out _
  | _ => cases hq

theorem iterSys_lawful (h : Good c.api O eqv I)
    (ho : ∀ (s : c.State) (k : IterKind κ), I s → ∃ cu s', c.openIter k s = (.ok cu, s') ∧
      Cursor.Yields (c.lists s) cu (Spec.iterValues O k (c.api.iter s)) ∧ c.lists s' = c.lists s ∧
      c.api.iter s' = c.api.iter s ∧ I s') :
    (SD.iterSys (ν := ν) eqv c).Lawful (DictSpec.iterSpec eqv O) (Inv c.api O eqv I) SD.dict SDOp.Valid where
  call op s hv hi := step_refines h op hv s hi
  quiet op s hv hi hq := by
    show c.lists (step eqv c.api op s).2.list = c.lists s.list
    cases op with
    | setitem k v =>
      have hq : contains eqv k s = true := hq
      have e : setitem eqv c.api k v s = (.ok (), { s with dict := PyDict.set eqv s.dict k v }) := by
        simp only [setitem, Py.get_bind, hq, if_true]; rfl
      simp only [step, SD.out, Py.bind_apply, e]; rfl
    | setdefault k v =>
      have hq : contains eqv k s = true := hq
      simp only [step, setdefault, hq]
      refine (getitem_still (eqv := eqv) k).out .val (c.lists s.list) s rfl |> Eq.trans ?_
      simp only [SD.out, Py.get_bind, hq, if_true, Py.bind_apply, Py.get]
    | _ =>
      refine query_still _ ?_ _ s rfl
      exact hq
  opens k s hi := by
    have key : ∀ k', ∃ cu s', onList (c.openIter k') s = (.ok cu, s') ∧
        Cursor.Yields (c.lists s.list) cu (Spec.iterValues O k' (DictSpec.sortedKeys O s.dict)) ∧
        c.lists s'.list = c.lists s.list ∧ s'.dict = s.dict ∧ Inv c.api O eqv I s' := fun k' => by
      obtain ⟨cu, l', e, h1, h2, h3, h4⟩ := ho s.list k' hi.list
      rw [hi.iter] at h1 h3
      refine ⟨cu, { s with list := l' }, ?_, h1, h2, rfl, h4, hi.keyed, h3⟩
      show (((c.openIter k') s.list).1, { s with list := ((c.openIter k') s.list).2 }) = _
      rw [e]
    cases k with
    | keys k => exact key k
    | values => exact key .iter
    | items => exact key .iter
  view k key s _ := by
    cases k with
    | keys k => rfl
    | values => simp only [SD.iterSys, DictSpec.iterSpec]; cases PyDict.getitem eqv s.dict key <;> rfl
    | items => simp only [SD.iterSys, DictSpec.iterSpec]; cases PyDict.getitem eqv s.dict key <;> rfl

end SD
end Verif
