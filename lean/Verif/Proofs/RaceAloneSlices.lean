import Verif.Proofs.RaceAloneSL
/-!
# Slices, `islice`, `irange` and `index`, run alone
-/

namespace Verif
variable {α κ β γ δ : Type}
namespace Race
variable {s : Shared α κ} {t : St α κ}

theorem alone_seeIf (c : Prop) [Decidable c] (f : Shared α κ → Bool) : (seeIf c f).alone s = some (.ok (decide c && f s), s) := by
  unfold seeIf
  by_cases h : c <;> simp [h]

theorem subList_clamp (l : List β) (a b : Nat) : subList l (min a l.length) (min b l.length) = subList l a b := by
  unfold subList
  rw [show l.take (min b l.length) = l.take b by rcases Nat.le_total b l.length with h | h <;> simp [h, List.take_of_length_le]]
  rcases Nat.le_total a l.length with h | h
  · rw [Nat.min_eq_left h]
  · rw [Nat.min_eq_right h, List.drop_of_length_le (by simp; omega), List.drop_of_length_le (by simp; omega)]

theorem indices_nat (n a b : Nat) : PySlice.indices { start := some (a : Int), stop := some (b : Int) } n = .ok ((min a n : Nat), (min b n : Nat), 1) := by
  simp only [PySlice.indices, Option.getD_none, adjustIndex]
  repeat rw [if_neg (by omega)]
  congr 2
  · omega
  · congr 1; omega

theorem cut_nat (l : List β) (a b : Nat) : cut l (some a) (some b) = subList l a b := by
  unfold cut
  rw [indices_nat]
  exact subList_clamp l a b

theorem cut_from (l : List β) (a : Nat) : cut l (some a) none = l.drop a := by
  have : PySlice.indices { start := some (a : Int), stop := none } l.length = PySlice.indices { start := some (a : Int), stop := some (l.length : Int) } l.length := by
    simp [PySlice.indices, adjustIndex]; omega
  unfold cut
  rw [this, indices_nat]
  show subList l (min a l.length) (min l.length l.length) = _
  rw [subList_clamp]; simp [subList]

theorem cut_upto (l : List β) (b : Nat) : cut l none (some b) = l.take b := by
  have : PySlice.indices { start := none, stop := some (b : Int) } l.length = PySlice.indices { start := some ((0 : Nat) : Int), stop := some (b : Int) } l.length := by
    simp [PySlice.indices, adjustIndex]; try omega
  unfold cut
  rw [this, indices_nat]
  show subList l (min 0 l.length) (min b l.length) = _
  rw [subList_clamp]; simp [subList]

theorem span_nat (a b : Nat) : span a b = (Core.natRange a b).map Int.ofNat := by
  unfold span Core.natRange
  rw [List.range'_eq_map_range, List.map_map, show ((b : Int) - a).toNat = b - a by omega]
  exact List.map_congr_left fun i _ => by simp

theorem fetches_nat (l : List β) (is : List Nat) : fetches l (is.map Int.ofNat) = getItems l is := by
  unfold fetches getItems
  induction is with
  | nil => rfl
  | cons i is ih => rw [List.map_cons, mapE, mapE, ih, show fetch l (Int.ofNat i) = getItem l i from fetch_nat l i]

theorem getItems_map (φ : β → γ) (l : List β) (is : List Nat) : getItems (l.map φ) is = (getItems l is).map (List.map φ) := by
  unfold getItems
  induction is with
  | nil => rfl
  | cons i is ih =>
    rw [mapE, mapE, ih, getItem_map]
    cases getItem l i with
    | error e => rfl
    | ok x => cases mapE (getItem l) is <;> rfl

theorem getItem_error {l : List β} {i : Nat} {e : PyErr} (h : getItem l i = .error e) : e = .indexError := by
  unfold getItem at h
  split at h
  · cases h
  · cases h; rfl

namespace Agrees
variable {ε : Type} {g : ε → δ} {q : Py (St α κ) ε}

/-- A sublist that is fetched again, after calls that changed only the positional index -/
theorem reread {k : Nat → Run α κ δ} {i : Nat} {l : List α} (hM : Mirrors s t) (hl : getItem t.lists i = .ok l) (hk : ∀ a, s.lists[i]? = some a → s.cell a = l → Agrees g (k a) s q t) :
    Agrees g (Race.sublist i >>= k) s q t := by
  have h := hM.getItem_lists i
  cases h1 : getItem s.lists i with
  | error e => rw [h1, hl] at h; cases h
  | ok a =>
    rw [h1, hl] at h
    cases h
    exact again (getItem_ok_iff.1 h1) (hk a (getItem_ok_iff.1 h1) rfl)

theorem indices {sl : PySlice} {k : Int × Int × Int → Run α κ δ} {q : Int × Int × Int → Py (St α κ) ε} (hM : Mirrors s t) (hk : ∀ r, sl.indices t.len = .ok r → Agrees g (k r) s (q r) t) :
    Agrees g (Race.indices sl >>= k) s (Py.lift (sl.indices t.len) >>= q) t :=
  reads' (by rw [Race.indices, Task.alone_see, hM.len, if_neg (by omega), Int.toNat_natCast]) hM hk

theorem mapEach {f : β → Run α κ γ} {h : β → Py (St α κ) γ} {I : St α κ → Prop} {xs : List β} (hf : ∀ x ∈ xs, ∀ s t, Mirrors s t → I t → Agrees id (f x) s (h x) t ∧ I (h x t).2)
    (hM : Mirrors s t) (hi : I t) : Agrees id (Race.mapEach f xs) s (Py.mapEach h xs) t := by
  induction xs generalizing s t with
  | nil => exact pure hM rfl
  | cons x xs ih =>
    obtain ⟨h1, h2⟩ := hf x (by simp) s t hM hi
    refine h1.bind fun _ s' t' e _ hM' => (ih (fun y hy => hf y (by simp [hy])) hM' (by rw [e] at h2; exact h2)).bind fun _ _ _ _ _ hM'' => pure hM'' rfl

theorem getInts (ilog2 : Nat → Nat) (is : List Int) (hM : Mirrors s t) (hne : t.len ≠ 0 → t.lists ≠ []) :
    Agrees id (Race.mapEach (Race.getInt ilog2) is) s (Py.mapEach (Core.getInt ilog2) is) t :=
  mapEach (I := fun t => t.len ≠ 0 → t.lists ≠ []) (fun x _ _ _ hM h => ⟨getInt ilog2 x hM h, by
    have := (Core.getInt_quiet ilog2 x).reindexed (by assumption)
    rw [this.len, this.lists]; exact h⟩) hM hne

theorem getSliceFwd (ilog2 : Nat → Nat) {start stop : Int} (h0 : 0 ≤ start) (h1 : start < stop) (hM : Mirrors s t) :
    Agrees id (Race.getSliceFwd ilog2 start stop) s (Core.getSliceFwd ilog2 start stop) t := by
  unfold Race.getSliceFwd Core.getSliceFwd
  refine left (alone_seeIf _ _) (get ?_)
  rw [hM.len]
  refine ite (by simp) (fun _ => .inr ⟨s, by rw [toList, alone_see, hM.contents]; rfl, hM⟩) fun _ => ?_
  unfold Race.getSliceFar
  refine (pos ilog2 start hM).bind fun c s' t' _ _ hr hM' => ?_
  obtain ⟨p, i⟩ := c
  dsimp only [place]
  rw [← hr.lists, ← hr.len]
  refine sublist hM' fun a ha => see ?_
  have hl : getItem t'.lists p = .ok (s'.cell a) := by rw [hM'.getItem_lists, getItem_ok_iff.2 ha]; rfl
  obtain ⟨l, hc⟩ : ∃ l, s'.cell a = l := ⟨_, rfl⟩
  rw [hc] at hl ⊢
  refine ite (by omega) (fun _ => .inr ⟨s', by
    rw [alone_see, hc, show (i : Int) + stop - start = ((i + (stop - start).toNat : Nat) : Int) by omega, cut_nat]; rfl, hM'⟩) fun _ => see ?_
  have hp := (List.getElem?_eq_some_iff.1 (getItem_ok_iff.1 hl)).1
  rw [hM'.len]
  have rest : ∀ (c : Nat × Nat) s'' t'', Reindexed t' t'' → Mirrors s'' t'' → Agrees id (do
      let a ← Race.sublist p
      let pre ← Race.see fun s => cut (s.cell a) (some (i : Int)) none
      let middle ← Race.see fun s => cut s.lists (some ((p : Int) + 1)) (some (c.1 : Int))
      let mid ← Race.see fun s => middle.flatMap s.cell
      let b ← Race.sublist c.1
      let post ← Race.see fun s => cut (s.cell b) none (some (c.2 : Int))
      Pure.pure (pre ++ mid ++ post)) s'' (do
      let lastList ← Py.lift (getItem t'.lists c.1)
      Pure.pure (l.drop i ++ (subList t'.lists (p + 1) c.1).flatten ++ lastList.take c.2)) t'' := by
    intro c s'' t'' hr' hM''
    rw [← hr'.lists]
    refine reread hM'' (hr'.lists ▸ hl) fun a ha hc => see (see (see (sublist hM'' fun b hb => see (pure hM'' ?_))))
    rw [hc, cut_from, cut_upto, show (p : Int) + 1 = ((p + 1 : Nat) : Int) by omega, cut_nat, hM''.lists]
    simp [subList, List.flatMap_def]
  unfold Race.sliceEnd
  by_cases hs : stop = t'.len
  · rw [if_pos hs, if_pos hs]
    cases hl' : getItem t'.lists (t'.lists.length - 1) with
    | error e =>
      exfalso
      unfold getItem at hl'
      rw [List.getElem?_eq_getElem (by omega)] at hl'; cases hl'
    | ok l' =>
    have hM'l := hM'.lists_length
    refine left (b := ((((t'.lists.length - 1 : Nat) : Int)), (l'.length : Int))) (s' := s') ?_ ?_
    · rw [Task.alone_bind', alone_see]
      dsimp only
      rw [← hM'l, show (t'.lists.length : Int) - 1 = ((t'.lists.length - 1 : Nat) : Int) by omega]
      have := hM'.getItem_lists (t'.lists.length - 1)
      rw [hl'] at this
      rw [Task.alone_bind', Race.sublist, Task.alone_see, fetch_nat]
      cases hg : getItem s'.lists (t'.lists.length - 1) with
      | error e' => rw [hg] at this; cases this
      | ok a => rw [hg] at this; cases this; rfl
    · exact rest (_, _) s' t' (.refl _) hM'
  · rw [if_neg hs, if_neg hs]
    exact (pos ilog2 stop hM').bind fun c s'' t'' _ _ hr' hM'' => rest c s'' t'' hr' hM''

theorem getSliceStep1 (ilog2 : Nat → Nat) (start stop : Option Int) (hM : Mirrors s t) (hne : t.len ≠ 0 → t.lists ≠ []) :
    Agrees id (Race.getSliceStep1 ilog2 start stop) s (Core.getSliceStep1 ilog2 start stop) t := by
  unfold Race.getSliceStep1 Core.getSliceStep1
  refine get (indices hM fun r hr => ?_)
  obtain ⟨a, b, c⟩ := r
  refine ite Iff.rfl (fun h => ?_) fun _ => getInts ilog2 _ hM hne
  exact getSliceFwd ilog2 ((indices_bounds hr).1 (by dsimp only at h; omega)).1 h.2 hM

theorem getSlice (ilog2 : Nat → Nat) (sl : PySlice) (hM : Mirrors s t) (hne : t.len ≠ 0 → t.lists ≠ []) :
    Agrees id (Race.getSlice ilog2 sl) s (Core.getSlice ilog2 sl) t := by
  unfold Race.getSlice Core.getSlice
  refine get (indices hM fun r hr => ?_)
  obtain ⟨a, b, c⟩ := r
  refine ite Iff.rfl (fun h => ?_) fun _ => ite Iff.rfl (fun _ => ?_) fun _ => getInts ilog2 _ hM hne
  · exact getSliceFwd ilog2 ((indices_bounds hr).1 (by dsimp only at h; omega)).1 h.2 hM
  · exact (getSliceStep1 ilog2 _ _ hM hne).bind fun _ _ _ _ _ hM' => pure hM' rfl

/-! ## islice -/

theorem alone_islicePos (p i p' i' : Nat) (rev : Bool) (hM : Mirrors s t) : (Race.islicePos p i p' i' rev).alone s = some (Core.islicePos t p i p' i' rev, s) := by
  have hL : ∀ is, getItems t.lists is = (getItems s.lists is).map (List.map s.cell) := fun is => by rw [hM.lists, getItems_map]
  have sub : ∀ n : Nat, (Race.sublist n : Run α κ Nat).alone s = some (getItem s.lists n, s) := fun n => by rw [Race.sublist, Task.alone_see, fetch_nat]
  have e1 : (p : Int) + 1 = ((p + 1 : Nat) : Int) := by omega
  unfold Race.islicePos Core.islicePos
  by_cases h : p > p'
  · rw [if_pos (by omega), if_pos h]; rfl
  rw [if_neg (by omega), if_neg h]
  rw [hM.getItem_lists, hM.getItem_lists]
  by_cases h1 : p = p'
  · rw [if_pos (by omega), if_pos h1, Task.alone_bind', sub]
    cases getItem s.lists p with
    | error e => rfl
    | ok a =>
      simp only [Task.alone_see, span_nat]
      cases rev
      · simp only [Bool.false_eq_true, if_false, fetches_nat]; rfl
      · simp only [if_true, ← List.map_reverse, fetches_nat]; rfl
  rw [if_neg (by omega), if_neg h1, Task.alone_bind', sub]
  cases ha : getItem s.lists p with
  | error e => by_cases h2 : p + 1 = p' <;> simp only [h2, if_true, if_false] <;> rfl
  | ok a =>
  dsimp only
  rw [Task.alone_bind', alone_see]
  dsimp only
  cases hb : getItem s.lists p' with
  | error e =>
    have := getItem_error hb
    subst this
    by_cases h2 : p + 1 = p' <;> simp only [h2, if_true, if_false] <;> cases rev <;> simp [sub, ha, hb] <;> rfl
  | ok b =>
  have z0 : ((0 : Int)) = ((0 : Nat) : Int) := rfl
  cases rev
  · simp only [Bool.false_eq_true, if_false, Task.alone_bind', sub, ha, hb, Task.alone_see, e1, z0, span_nat, fetches_nat]
    by_cases h2 : p + 1 = p'
    · rw [if_pos h2]
      have : Core.natRange (p + 1) p' = [] := by simp [Core.natRange, h2]
      rw [this]
      simp only [getItems, mapE, Bind.bind, Except.bind, Except.map, List.flatMap_nil, List.append_nil]
    · rw [if_neg h2, hL]
      simp only [Bind.bind, Except.bind, Except.map]
      cases getItems (s.cell a) (Core.natRange i (s.cell a).length) with
      | error e => rfl
      | ok xs =>
        dsimp only
        cases getItems s.lists (Core.natRange (p + 1) p') with
        | error e => rfl
        | ok subs =>
          dsimp only
          cases getItems (s.cell b) (Core.natRange 0 i') with
          | error e => rfl
          | ok ys => simp [List.flatMap_def]
  · simp only [if_true, Task.alone_bind', sub, ha, hb, Task.alone_see, e1, z0, span_nat, ← List.map_reverse, fetches_nat]
    by_cases h2 : p + 1 = p'
    · rw [if_pos h2]
      have : Core.natRange (p + 1) p' = [] := by simp [Core.natRange, h2]
      rw [this]
      simp only [getItems, mapE, Bind.bind, Except.bind, Except.map, List.flatMap_nil, List.append_nil, List.reverse_nil]
    · rw [if_neg h2, hL]
      simp only [Bind.bind, Except.bind, Except.map]
      cases getItems (s.cell b) (Core.natRange 0 i').reverse with
      | error e => rfl
      | ok xs =>
        dsimp only
        cases getItems s.lists (Core.natRange (p + 1) p').reverse with
        | error e => rfl
        | ok subs =>
          dsimp only
          cases getItems (s.cell a) (Core.natRange i (s.cell a).length).reverse with
          | error e => rfl
          | ok ys => simp [List.flatMap_def, Function.comp_def]

theorem islicePos (p i p' i' : Nat) (rev : Bool) {t0 : St α κ} (h : t.lists = t0.lists) (hM : Mirrors s t) :
    Agrees id (Race.islicePos p i p' i' rev) s (Py.lift (Core.islicePos t0 p i p' i' rev)) t := by
  rw [show Core.islicePos t0 p i p' i' rev = Core.islicePos t p i p' i' rev by unfold Core.islicePos; rw [h]]
  exact last (alone_islicePos p i p' i' rev hM) hM

theorem islice (ilog2 : Nat → Nat) (start stop : Option Int) (rev : Bool) (hM : Mirrors s t) : Agrees id (Race.islice ilog2 start stop rev) s (Core.islice ilog2 start stop rev) t := by
  unfold Race.islice Core.islice Core.isliceWith
  refine see (get ?_)
  rw [hM.len]
  refine ite (by omega) (fun _ => pure hM rfl) fun h0 => indices hM fun r hr => ?_
  obtain ⟨a, b, c⟩ := r
  refine ite Iff.rfl (fun _ => pure hM rfl) fun _ => ?_
  refine (pos ilog2 a hM).bind fun c s' t' _ _ hr hM' => ?_
  obtain ⟨p, i⟩ := c
  dsimp only [place]
  rw [← hr.lists, ← hr.len]
  unfold Race.isliceEnd
  by_cases hs : b = t'.len
  · rw [if_pos hs, if_pos hs]
    have := hM'.lastItem_lists
    unfold Agrees
    rw [Task.alone_bind', Task.alone_bind', alone_see]
    dsimp only
    rw [Task.alone_bind', Race.sublist, Task.alone_see, fetch_last]
    cases hg : lastItem s'.lists with
    | error e =>
      rw [hg] at this
      rw [this]
      exact .inr ⟨s', rfl, hM'⟩
    | ok a =>
      rw [hg] at this
      rw [this]
      have hk : s'.lists.length ≠ 0 := by
        intro h
        rw [List.length_eq_zero_iff.1 h] at hg; cases hg
      rw [← hM'.lists_length] at hk ⊢
      have e := islicePos p i (t'.lists.length - 1) (s'.cell a).length rev hr.lists hM'
      rw [show ((t'.lists.length - 1 : Nat) : Int) = (t'.lists.length : Int) - 1 by omega] at e
      exact e
  · rw [if_neg hs, if_neg hs]
    refine (pos ilog2 b hM').bind fun c s'' t'' _ _ hr' hM'' => ?_
    exact islicePos p i c.1 c.2 rev (hr'.lists.trans hr.lists) hM''

theorem reversed (hM : Mirrors s t) : Agrees id Race.reversed s (do let s ← Py.get; Pure.pure (Core.reversed s)) t :=
  .inr ⟨s, by
    rw [Race.reversed, alone_see, hM.contents]
    show some (Except.ok (Core.iter t).reverse, s) = some (Except.ok (Core.reversed t), s)
    rw [Core.iter, Core.reversed, List.reverse_flatten, List.map_reverse], hM⟩

/-! ## Deleting a slice -/

section Delete
variable {k : α → κ} {lt : κ → κ → Bool} {keyed : Bool} {M : Methods α κ} {O : Spec.Order α}

theorem delSlice (hO : MethodsOK M O k lt keyed) {clear : Run α κ Unit} {update : List α → Run α κ Unit} {delInt : Int → Run α κ Unit} {fuel : Nat}
    (hc : ∀ (s : Shared α κ) t, Mirrors s t → Agrees id clear s M.clear t)
    (hu : ∀ (s : Shared α κ) t xs, Mirrors s t → Inv k lt keyed t → (Core.iter t).length + xs.length < fuel → Agrees id (update xs) s (M.update xs) t)
    (hd : ∀ (s : Shared α κ) t i, Mirrors s t → Inv k lt keyed t → Agrees id (delInt i) s (Core.delInt M i) t)
    (sl : PySlice) (hM : Mirrors s t) (h : Inv k lt keyed t) (hf : (Core.iter t).length < fuel) :
    Agrees id (delSliceWith M.ilog2 clear update delInt sl) s (Core.delSlice M sl) t := by
  unfold delSliceWith Core.delSlice
  refine get (indices hM fun r hr => ?_)
  obtain ⟨a, b, c⟩ := r
  have hlen : t.len = (Core.iter t).length := h.len_eq
  refine left (alone_seeIf _ _) ?_
  rw [hM.len]
  refine ite (by simp [and_assoc]) (fun _ => hc s t hM) fun _ => ?_
  refine left (alone_seeIf _ _) ?_
  rw [hM.len]
  refine ite (by simp [and_assoc]) (fun hm => ?_) fun _ => ?_
  · have hm : (c = 1 ∧ a < b) ∧ (t.len : Int) ≤ 8 * (b - a) := by simpa using hm
    obtain ⟨⟨rfl, hab⟩, _⟩ := hm
    have hb := (indices_bounds hr).1 (by omega)
    refine (getSliceStep1 M.ilog2 none (some a) hM h.lists_ne_nil).bind fun vs s1 t1 e1 _ hM1 => ?_
    obtain ⟨t1', f1, r1, i1⟩ := h.getSliceStep1_ok hO.log none (some a)
    have ind1 : PySlice.indices { start := none, stop := some a } (Core.iter t).length = .ok (0, a, 1) := by
      simp only [PySlice.indices, Option.getD_none, adjustIndex]
      rw [if_neg (by omega), if_neg (by omega), if_neg (by omega), if_neg (by omega), if_neg (by omega)]
      congr 3
      omega
    rw [spec_getSlice_step1 ind1, e1] at f1
    cases f1
    have hit : Core.iter t1 = Core.iter t := by rw [Core.iter, r1.lists]; rfl
    -- what follows once all values are known
    have rest : ∀ (ws : List α) (s2 : Shared α κ) (t2 : St α κ), Mirrors s2 t2 → Inv k lt keyed t2 → ws.length ≤ (Core.iter t).length →
        Agrees id (clear >>= fun _ => update ws) s2 (M.clear >>= fun _ => M.update ws) t2 := by
      intro ws s2 t2 hM2 i2 hw
      refine (hc s2 t2 hM2).bind fun _ s3 t3 e3 _ hM3 => ?_
      obtain ⟨t3', f3, hc3, i3⟩ := hO.clear_refines.eq_of i2 (r := .ok ()) (l := []) rfl
      rw [e3] at f3
      cases f3
      exact hu s3 t3 ws hM3 i3 (by rw [hc3]; simp; omega)
    refine see ?_
    rw [hM1.len, show t1.len = t.len from r1.len]
    unfold Race.getRest
    by_cases hbl : b < (t.len : Int)
    · rw [if_pos hbl, if_pos hbl]
      refine (getSliceStep1 M.ilog2 (some b) none hM1 i1.lists_ne_nil).bind fun ws s2 t2 e2 _ hM2 => ?_
      obtain ⟨t2', f2, r2, i2⟩ := i1.getSliceStep1_ok hO.log (some b) none
      have ind2 : PySlice.indices { start := some b, stop := none } (Core.iter t).length = .ok (b, ((Core.iter t).length : Int), 1) := by
        simp only [PySlice.indices, Option.getD_none, adjustIndex]
        rw [if_neg (by omega), if_neg (by omega), if_neg (by omega), if_neg (by omega)]
        congr 2
        omega
      rw [hit, spec_getSlice_step1 ind2, e2] at f2
      cases f2
      exact rest _ s2 t2 hM2 i2 (by simp; omega)
    · rw [if_neg hbl, if_neg hbl]
      refine left (b := []) (s' := s1) rfl ?_
      have := rest (((Core.iter t).take a.toNat).drop (0 : Int).toNat ++ []) s1 t1 hM1 i1 (by simp; omega)
      simp only [List.append_nil] at this ⊢
      exact this
  · exact forEach (I := Inv k lt keyed) (fun x _ s t hM h => ⟨hd s t x hM h, ((hO.delInt_refines x) t h).2.2⟩) hM h

end Delete

/-! ## SortedList -/

section SL
variable {E : Env α} {lt : α → α → Bool} {s : Shared α α} {t : St α α}

theorem SL_delSlice (hE : E.Lawful lt) {fuel : Nat} (sl : PySlice) (hM : Mirrors s t) (h : Inv id lt false t) (hf : (Core.iter t).length < fuel) :
    Agrees id (Race.SL.delSlice E fuel sl) s (Core.delSlice (Verif.SL.methods E) sl) t :=
  delSlice (Verif.SL.methods_ok hE) (fun _ _ hM => SL_clear hM) (fun _ _ _ hM h hf => SL_update hE hM h hf) (fun _ _ i hM h => SL_delInt hE fuel i hM h) sl hM h hf

end SL

/-! ## irange -/

/-- The upper end that `irange` finds, as an expression without effects; `L` are the lists searched. -/
def topOf (lt : κ → κ → Except PyErr Bool) (maxes : List κ) (L : List (List κ)) (hi : Option κ) (incMax : Bool) : Except PyErr (Nat × Nat) :=
  match hi with
  | none => do
    let l ← getItem L (maxes.length - 1)
    Pure.pure (maxes.length - 1, l.length)
  | some m => do
    let p ← (if incMax then bisectRight lt maxes m else bisectLeft lt maxes m)
    if p = maxes.length then do
      let l ← getItem L (p - 1)
      Pure.pure (p - 1, l.length)
    else do
      let l ← getItem L p
      let i ← (if incMax then bisectRight lt l m else bisectLeft lt l m)
      Pure.pure (p, i)

/-- What `irange` yields, as an expression without effects -/
def rangeOf (lt : κ → κ → Except PyErr Bool) (t : St α κ) (L : List (List κ)) (lo hi : Option κ) (incMin incMax rev : Bool) : Except PyErr (List α) :=
  if t.maxes = [] then .ok []
  else
    match lo with
    | none => do
      let q ← topOf lt t.maxes L hi incMax
      Core.islicePos t 0 0 q.1 q.2 rev
    | some m => do
      let p ← (if incMin then bisectLeft lt t.maxes m else bisectRight lt t.maxes m)
      if p = t.maxes.length then Pure.pure []
      else do
        let l ← getItem L p
        let i ← (if incMin then bisectLeft lt l m else bisectRight lt l m)
        let q ← topOf lt t.maxes L hi incMax
        Core.islicePos t p i q.1 q.2 rev

section Range
variable {lt : κ → κ → Except PyErr Bool} {L : List (List κ)} {bc : Bool → Nat → κ → Run α κ Nat} {sz : Int → Run α κ Nat}

theorem alone_irangeTop (hM : Mirrors s t) (hk : 0 < t.maxes.length)
    (hbc : ∀ right (p : Nat) x, (bc right p x).alone s = some (getItem L p >>= fun l => if right then bisectRight lt l x else bisectLeft lt l x, s))
    (hsz : ∀ p : Nat, (sz p).alone s = some (getItem L p >>= fun l => .ok l.length, s)) (hi : Option κ) (incMax : Bool) :
    (Race.irangeTop lt bc sz hi incMax).alone s = some ((topOf lt t.maxes L hi incMax).map fun q => ((q.1 : Int), (q.2 : Int)), s) := by
  unfold Race.irangeTop topOf
  cases hi with
  | none =>
    dsimp only
    rw [Task.alone_bind', Race.alone_see]
    dsimp only
    rw [← hM.maxes, show (t.maxes.length : Int) - 1 = ((t.maxes.length - 1 : Nat) : Int) by omega, Task.alone_bind', hsz]
    cases getItem L (t.maxes.length - 1) <;> rfl
  | some m =>
    dsimp only
    rw [Task.alone_bind', alone_bisectMaxes, ← hM.maxes]
    cases (if incMax then bisectRight lt t.maxes m else bisectLeft lt t.maxes m) with
    | error e => rfl
    | ok p =>
      dsimp only
      rw [Task.alone_bind', Race.alone_see]
      dsimp only
      rw [← hM.maxes]
      simp only [Bind.bind, Except.bind]
      by_cases hp : p = t.maxes.length
      · rw [if_pos hp, if_pos hp, show (p : Int) - 1 = ((p - 1 : Nat) : Int) by omega]
        show ((sz _) >>= _).alone s = _
        rw [Task.alone_bind', hsz]
        cases getItem L (p - 1) <;> rfl
      · rw [if_neg hp, if_neg hp]
        show ((bc _ _ _) >>= _).alone s = _
        rw [Task.alone_bind', hbc]
        cases getItem L p with
        | error e => rfl
        | ok l => 
          simp only [Bind.bind, Except.bind]
          cases (if incMax then bisectRight lt l m else bisectLeft lt l m) <;> rfl

theorem alone_irangeWith (hM : Mirrors s t)
    (hbc : ∀ right (p : Nat) x, (bc right p x).alone s = some (getItem L p >>= fun l => if right then bisectRight lt l x else bisectLeft lt l x, s))
    (hsz : ∀ p : Nat, (sz p).alone s = some (getItem L p >>= fun l => .ok l.length, s)) (lo hi : Option κ) (incMin incMax rev : Bool) :
    (Race.irangeWith lt bc sz lo hi incMin incMax rev).alone s = some (rangeOf lt t L lo hi incMin incMax rev, s) := by
  unfold Race.irangeWith rangeOf
  rw [Task.alone_bind', Race.alone_see]
  dsimp only
  rw [← hM.maxes]
  by_cases hn : t.maxes = []
  · rw [if_pos hn, if_pos hn]; rfl
  rw [if_neg hn, if_neg hn]
  have hk : 0 < t.maxes.length := List.length_pos_iff.2 hn
  have flip : ∀ l m, (if (!incMin) = true then bisectRight lt l m else bisectLeft lt l m) = (if incMin = true then bisectLeft lt l m else bisectRight lt l m) := by
    intro l m; cases incMin <;> rfl
  have fin : ∀ p i : Nat, (Race.irangeTop lt bc sz hi incMax >>= fun q => Race.islicePos p i q.1 q.2 rev).alone s =
      some (topOf lt t.maxes L hi incMax >>= fun q => Core.islicePos t p i q.1 q.2 rev, s) := by
    intro p i
    rw [Task.alone_bind', alone_irangeTop hM hk hbc hsz]
    cases topOf lt t.maxes L hi incMax with
    | error e => rfl
    | ok q => exact alone_islicePos p i q.1 q.2 rev hM
  cases lo with
  | none => exact fin 0 0
  | some m =>
    dsimp only
    rw [Task.alone_bind', alone_bisectMaxes, ← hM.maxes, flip]
    cases (if incMin then bisectLeft lt t.maxes m else bisectRight lt t.maxes m) with
    | error e => rfl
    | ok p =>
      dsimp only
      rw [Task.alone_bind', Race.alone_see]
      dsimp only
      rw [← hM.maxes]
      show _ = some (if p = t.maxes.length then _ else _, s)
      by_cases hp : p = t.maxes.length
      · rw [if_pos hp, if_pos hp]; rfl
      · rw [if_neg hp, if_neg hp, Task.alone_bind', hbc]
        cases getItem L p with
        | error e => rfl
        | ok l => 
          have e : (Except.ok l >>= fun l => if (!incMin) = true then bisectRight lt l m else bisectLeft lt l m : Except PyErr Nat) = (if incMin = true then bisectLeft lt l m else bisectRight lt l m) := flip l m
          rw [e]
          show _ = some ((if incMin = true then bisectLeft lt l m else bisectRight lt l m) >>= _, s)
          cases (if incMin then bisectLeft lt l m else bisectRight lt l m) with
          | error e => rfl
          | ok i => exact fin p i

end Range

private theorem lift_eq {σ β γ : Type} {x : Except PyErr β} {f : β → Py σ γ} {g : β → Except PyErr γ} {t : σ} (h : ∀ a, f a t = (g a, t)) : (Py.lift x >>= f) t = (x >>= g, t) := by
  cases x with
  | error e => rfl
  | ok a => exact h a

private theorem ite_eq {σ γ : Type} {c : Prop} [Decidable c] {f f' : Py σ γ} {g g' : Except PyErr γ} {t : σ} (h : c → f t = (g, t)) (h' : ¬c → f' t = (g', t)) :
    (if c then f else f') t = (if c then g else g', t) := by
  by_cases hc : c
  · rw [if_pos hc, if_pos hc]; exact h hc
  · rw [if_neg hc, if_neg hc]; exact h' hc

private theorem bind_assoc' {β γ δ : Type} (x : Except PyErr β) (f : β → Except PyErr γ) (g : γ → Except PyErr δ) : x >>= f >>= g = x >>= fun a => f a >>= g := by
  cases x <;> rfl

private theorem ite_bind {β γ : Type} {c : Prop} [Decidable c] (x y : Except PyErr β) (g : β → Except PyErr γ) : (if c then x else y) >>= g = if c then x >>= g else y >>= g := by
  by_cases hc : c <;> simp [hc]

private theorem top_none {lt : κ → κ → Except PyErr Bool} {L : List (List κ)} {γ : Type} {q : Nat × Nat → Py (St α κ) γ} {g : Nat × Nat → Except PyErr γ} (incMax : Bool) (h : ∀ c, q c t = (g c, t)) :
    (Py.lift (getItem L (t.maxes.length - 1)) >>= fun l => q (t.maxes.length - 1, l.length)) t = (topOf lt t.maxes L none incMax >>= g, t) := by
  unfold topOf
  dsimp only
  rw [bind_assoc']
  exact lift_eq fun l => h _

private theorem top_some {lt : κ → κ → Except PyErr Bool} {L : List (List κ)} {γ : Type} {q : Nat × Nat → Py (St α κ) γ} {g : Nat × Nat → Except PyErr γ} (m : κ) (incMax : Bool) (h : ∀ c, q c t = (g c, t)) :
    (Py.lift (if incMax then bisectRight lt t.maxes m else bisectLeft lt t.maxes m) >>= fun p =>
      if p = t.maxes.length then Py.lift (getItem L (p - 1)) >>= fun l => q (p - 1, l.length)
      else Py.lift (getItem L p) >>= fun l => Py.lift (if incMax then bisectRight lt l m else bisectLeft lt l m) >>= fun i => q (p, i)) t = (topOf lt t.maxes L (some m) incMax >>= g, t) := by
  unfold topOf
  dsimp only
  rw [bind_assoc']
  refine lift_eq fun p => ?_
  rw [ite_bind]
  refine ite_eq (fun _ => ?_) fun _ => ?_
  · rw [bind_assoc']
    exact lift_eq fun l => h _
  · rw [bind_assoc']
    refine lift_eq fun l => ?_
    rw [bind_assoc']
    exact lift_eq fun i => h _

theorem SL_irange_eq (E : Env α) (t : St α α) (lo hi : Option α) (incMin incMax rev : Bool) :
    Verif.SL.irange E lo hi incMin incMax rev t = (rangeOf E.lt t t.lists lo hi incMin incMax rev, t) := by
  refine ite_eq (c := t.maxes = []) (fun _ => rfl) fun hn => ?_
  cases lo with
  | none =>
    cases hi with
    | none => exact top_none (lt := E.lt) (L := t.lists) (g := fun c => Core.islicePos t 0 0 c.1 c.2 rev) (q := fun c => Py.lift (Core.islicePos t 0 0 c.1 c.2 rev)) incMax fun _ => rfl
    | some m => exact top_some (lt := E.lt) (L := t.lists) (g := fun c => Core.islicePos t 0 0 c.1 c.2 rev) (q := fun c => Py.lift (Core.islicePos t 0 0 c.1 c.2 rev)) m incMax fun _ => rfl
  | some x =>
    refine lift_eq fun p => ite_eq (fun _ => rfl) fun _ => lift_eq fun l => lift_eq fun i => ?_
    cases hi with
    | none => exact top_none (lt := E.lt) (L := t.lists) (g := fun c => Core.islicePos t p i c.1 c.2 rev) (q := fun c => Py.lift (Core.islicePos t p i c.1 c.2 rev)) incMax fun _ => rfl
    | some m => exact top_some (lt := E.lt) (L := t.lists) (g := fun c => Core.islicePos t p i c.1 c.2 rev) (q := fun c => Py.lift (Core.islicePos t p i c.1 c.2 rev)) m incMax fun _ => rfl

theorem SKL_irange_key_eq (K : KEnv α κ) (t : St α κ) (lo hi : Option κ) (incMin incMax rev : Bool) :
    Verif.SKL.irange_key K lo hi incMin incMax rev t = (rangeOf K.lt t t.keys lo hi incMin incMax rev, t) := by
  refine ite_eq (c := t.maxes = []) (fun _ => rfl) fun hn => ?_
  cases lo with
  | none =>
    cases hi with
    | none => exact top_none (lt := K.lt) (L := t.keys) (g := fun c => Core.islicePos t 0 0 c.1 c.2 rev) (q := fun c => Py.lift (Core.islicePos t 0 0 c.1 c.2 rev)) incMax fun _ => rfl
    | some m => exact top_some (lt := K.lt) (L := t.keys) (g := fun c => Core.islicePos t 0 0 c.1 c.2 rev) (q := fun c => Py.lift (Core.islicePos t 0 0 c.1 c.2 rev)) m incMax fun _ => rfl
  | some x =>
    refine lift_eq fun p => ite_eq (fun _ => rfl) fun _ => lift_eq fun l => lift_eq fun i => ?_
    cases hi with
    | none => exact top_none (lt := K.lt) (L := t.keys) (g := fun c => Core.islicePos t p i c.1 c.2 rev) (q := fun c => Py.lift (Core.islicePos t p i c.1 c.2 rev)) incMax fun _ => rfl
    | some m => exact top_some (lt := K.lt) (L := t.keys) (g := fun c => Core.islicePos t p i c.1 c.2 rev) (q := fun c => Py.lift (Core.islicePos t p i c.1 c.2 rev)) m incMax fun _ => rfl

theorem SL_irange {E : Env α} {s : Shared α α} {t : St α α} (lo hi : Option α) (incMin incMax rev : Bool) (hM : Mirrors s t) :
    Agrees id (Race.SL.irange E lo hi incMin incMax rev) s (Verif.SL.irange E lo hi incMin incMax rev) t := by
  unfold Race.SL.irange
  rw [Agrees, SL_irange_eq]
  refine .inr ⟨s, ?_, hM⟩
  rw [alone_irangeWith (L := t.lists) hM]
  · cases rangeOf E.lt t t.lists lo hi incMin incMax rev <;> rfl
  · intro right p x
    rw [Task.alone_bind', Race.sublist, Task.alone_see, fetch_nat, hM.getItem_lists]
    cases getItem s.lists p with
    | error e => rfl
    | ok a => exact alone_SL_bisectCell E right a x s
  · intro p
    rw [Task.alone_bind', Race.sublist, Task.alone_see, fetch_nat, hM.getItem_lists]
    cases getItem s.lists p <;> rfl

theorem SKL_irangeKey {K : KEnv α κ} (lo hi : Option κ) (incMin incMax rev : Bool) (hM : Mirrors s t) :
    Agrees id (Race.SKL.irangeKey K lo hi incMin incMax rev) s (Verif.SKL.irange_key K lo hi incMin incMax rev) t := by
  unfold Race.SKL.irangeKey
  rw [Agrees, SKL_irange_key_eq]
  refine .inr ⟨s, ?_, hM⟩
  rw [alone_irangeWith (L := t.keys) hM]
  · cases rangeOf K.lt t t.keys lo hi incMin incMax rev <;> rfl
  · intro right p x
    rw [Task.alone_bind', Race.subkeys, Task.alone_see, fetch_nat, hM.getItem_keys]
    cases getItem s.keys p with
    | error e => rfl
    | ok a => exact alone_SKL_bisectCell K right a x s
  · intro p
    rw [Task.alone_bind', Race.subkeys, Task.alone_see, fetch_nat, hM.getItem_keys]
    cases getItem s.keys p <;> rfl

theorem SKL_irange {K : KEnv α κ} (lo hi : Option α) (incMin incMax rev : Bool) (hM : Mirrors s t) :
    Agrees id (Race.SKL.irange K lo hi incMin incMax rev) s (Verif.SKL.irange K lo hi incMin incMax rev) t :=
  lift hM fun a _ => lift hM fun b _ => SKL_irangeKey a b incMin incMax rev hM

end Agrees
end Race
end Verif
