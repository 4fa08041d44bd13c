import Verif.Spec
/-!
# Stable sorting: existence (by insertion) and uniqueness
-/

namespace Verif

namespace StrictWeakOrder
variable {α : Type} {lt : α → α → Bool} (h : StrictWeakOrder lt)
include h

theorem irrefl (a : α) : lt a a = false := by
  cases e : lt a a with
  | false => rfl
  | true => have := h.asymm a a e; simp_all

theorem trans {a b c : α} (h1 : lt a b = true) (h2 : lt b c = true) : lt a c = true := by
  cases e : lt a c with
  | true => rfl
  | false => have := h.negtrans b a c (h.asymm _ _ h1) e; simp_all

/-- `a <= b < c` gives `a < c` -/
theorem lt_of_not_lt_of_lt {a b c : α} (h1 : lt b a = false) (h2 : lt b c = true) : lt a c = true := by
  cases e : lt a c with
  | true => rfl
  | false => have := h.negtrans b a c h1 e; simp_all

/-- `a < b <= c` gives `a < c` -/
theorem lt_of_lt_of_not_lt {a b c : α} (h1 : lt a b = true) (h2 : lt c b = false) : lt a c = true := by
  cases e : lt a c with
  | true => rfl
  | false => have := h.negtrans a c b e h2; simp_all

theorem equiv_refl (a : α) : equiv lt a a = true := by simp [equiv, h.irrefl]

theorem equiv_trans {a b c : α} (h1 : equiv lt a b = true) (h2 : equiv lt b c = true) :
    equiv lt a c = true := by
  simp only [equiv, Bool.and_eq_true, Bool.not_eq_true'] at *
  exact ⟨h.negtrans _ _ _ h1.1 h2.1, h.negtrans _ _ _ h2.2 h1.2⟩

end StrictWeakOrder

theorem equiv_symm {α : Type} {lt : α → α → Bool} (a b : α) : equiv lt a b = equiv lt b a := by
  simp [equiv, Bool.and_comm]

theorem StrictWeakOrder.comap {α κ : Type} {lt : κ → κ → Bool} (h : StrictWeakOrder lt) (f : α → κ) :
    StrictWeakOrder (fun a b => lt (f a) (f b)) :=
  ⟨fun _ _ => h.asymm _ _, fun _ _ _ => h.negtrans _ _ _⟩

theorem Sorted.unique {α : Type} {lt : α → α → Bool} (h : StrictWeakOrder lt) {l r : List α}
    (hl : Sorted lt l) (hr : Sorted lt r)
    (hf : ∀ v, l.filter (equiv lt v) = r.filter (equiv lt v)) : l = r := by
  induction l generalizing r with
  | nil =>
    cases r with
    | nil => rfl
    | cons b r => have := hf b; simp [h.equiv_refl] at this
  | cons a l ih =>
    cases r with
    | nil => have := hf a; simp [h.equiv_refl] at this
    | cons b r =>
      have mem1 : a ∈ b :: r := by
        have : a ∈ (b :: r).filter (equiv lt a) := by rw [← hf]; simp [h.equiv_refl]
        exact (List.mem_filter.1 this).1
      have mem2 : b ∈ a :: l := by
        have : b ∈ (a :: l).filter (equiv lt b) := by rw [hf]; simp [h.equiv_refl]
        exact (List.mem_filter.1 this).1
      have e : equiv lt a b = true := by
        rw [Sorted, List.pairwise_cons] at hl hr
        simp only [equiv, Bool.and_eq_true, Bool.not_eq_true']
        constructor
        · rcases List.mem_cons.1 mem1 with rfl | m
          · exact h.irrefl _
          · exact hr.1 a m
        · rcases List.mem_cons.1 mem2 with rfl | m
          · exact h.irrefl _
          · exact hl.1 b m
      have hab : a = b := by
        have := hf a
        simp [h.equiv_refl, e] at this
        exact this.1
      subst hab
      congr 1
      apply ih (List.pairwise_cons.1 hl).2 (List.pairwise_cons.1 hr).2
      intro v
      have := hf v
      simp only [List.filter_cons] at this
      split at this
      · exact (List.cons.inj this).2
      · exact this

theorem IsStableSort.unique {α : Type} {lt : α → α → Bool} (h : StrictWeakOrder lt) {xs ys zs : List α}
    (h1 : IsStableSort lt xs ys) (h2 : IsStableSort lt xs zs) : ys = zs :=
  Sorted.unique h h1.sorted h2.sorted fun v => by rw [h1.stable, h2.stable]

theorem IsStableSort.self {α : Type} {lt : α → α → Bool} {xs : List α} (h : Sorted lt xs) :
    IsStableSort lt xs xs := ⟨.refl _, h, fun _ => rfl⟩

theorem IsStableSort.append_right {α : Type} {lt : α → α → Bool} {l xs ys zs : List α}
    (h1 : IsStableSort lt xs ys) (h2 : IsStableSort lt (l ++ ys) zs) : IsStableSort lt (l ++ xs) zs :=
  ⟨h2.perm.trans (h1.perm.append_left l), h2.sorted, fun v => by
    rw [h2.stable, List.filter_append, List.filter_append, h1.stable]⟩

namespace Spec
variable {α : Type} {O : Order α}

theorem insert_split {l A B : List α} {v : α} (hl : l = A ++ B) (hA : ∀ a ∈ A, O.lt v a = false)
    (hB : ∀ b ∈ B, O.lt v b = true) : insert O l v = A ++ v :: B := by
  subst hl
  have h1 : (A ++ B).takeWhile (fun x => !O.lt v x) = A := by
    rw [List.takeWhile_append_of_pos (by simpa using hA)]
    cases B with
    | nil => simp
    | cons b B => simp [hB b]
  have h2 : (A ++ B).dropWhile (fun x => !O.lt v x) = B := by
    rw [List.dropWhile_append_of_pos (by simpa using hA)]
    cases B with
    | nil => simp
    | cons b B => simp [hB b]
  rw [insert, h1, h2]

/-- A sorted list splits into the values not greater than `v` and those greater than `v`. -/
theorem sorted_split_right (hO : StrictWeakOrder O.lt) {l : List α} (hl : Sorted O.lt l) (v : α) :
    ∃ A B, l = A ++ B ∧ (∀ a ∈ A, O.lt v a = false) ∧ (∀ b ∈ B, O.lt v b = true) := by
  induction l with
  | nil => exact ⟨[], [], rfl, by simp, by simp⟩
  | cons x l ih =>
    rw [Sorted, List.pairwise_cons] at hl
    obtain ⟨A, B, rfl, hA, hB⟩ := ih hl.2
    cases hx : O.lt v x with
    | false => exact ⟨x :: A, B, rfl, by simpa [hx] using hA, hB⟩
    | true =>
      refine ⟨[], x :: (A ++ B), rfl, by simp, ?_⟩
      intro b hb
      rcases List.mem_cons.1 hb with rfl | hb
      · exact hx
      · exact hO.lt_of_lt_of_not_lt hx (hl.1 b hb)

theorem insert_perm (l : List α) (v : α) : (insert O l v).Perm (l ++ [v]) := by
  unfold insert
  refine List.perm_middle.trans ?_
  rw [List.takeWhile_append_dropWhile]
  exact (List.perm_append_singleton v l).symm

theorem insert_sorted (hO : StrictWeakOrder O.lt) {l : List α} (hl : Sorted O.lt l) (v : α) :
    Sorted O.lt (insert O l v) := by
  obtain ⟨A, B, rfl, hA, hB⟩ := sorted_split_right hO hl v
  rw [insert_split rfl hA hB]
  obtain ⟨h1, h2, h3⟩ := List.pairwise_append.1 hl
  refine List.pairwise_append.2 ⟨h1, List.pairwise_cons.2 ⟨fun b hb => hO.asymm _ _ (hB b hb), h2⟩, ?_⟩
  intro a ha b hb
  rcases List.mem_cons.1 hb with rfl | hb
  · exact hA a ha
  · exact h3 a ha b hb

theorem insert_filter (hO : StrictWeakOrder O.lt) {l : List α} (hl : Sorted O.lt l) (v w : α) :
    (insert O l v).filter (equiv O.lt w) = (l ++ [v]).filter (equiv O.lt w) := by
  obtain ⟨A, B, rfl, hA, hB⟩ := sorted_split_right hO hl v
  rw [insert_split rfl hA hB]
  cases e : equiv O.lt w v with
  | false => simp [e]
  | true =>
    have : B.filter (equiv O.lt w) = [] := by
      rw [List.filter_eq_nil_iff]
      intro b hb hwb
      have h1 := hO.equiv_trans ((equiv_symm v w).trans e) hwb
      simp [equiv, hB b hb] at h1
    simp [e, this]

theorem insert_isStableSort (hO : StrictWeakOrder O.lt) {l : List α} (hl : Sorted O.lt l) (v : α) :
    IsStableSort O.lt (l ++ [v]) (insert O l v) :=
  ⟨insert_perm l v, insert_sorted hO hl v, insert_filter hO hl v⟩

theorem insertAll_sorted (hO : StrictWeakOrder O.lt) {l : List α} (hl : Sorted O.lt l) (vs : List α) :
    Sorted O.lt (insertAll O l vs) := by
  induction vs generalizing l with
  | nil => exact hl
  | cons v vs ih => exact ih (insert_sorted hO hl v)

theorem insertAll_isStableSort (hO : StrictWeakOrder O.lt) {l : List α} (hl : Sorted O.lt l) (vs : List α) :
    IsStableSort O.lt (l ++ vs) (insertAll O l vs) := by
  induction vs generalizing l with
  | nil => simpa [insertAll] using IsStableSort.self hl
  | cons v vs ih =>
    have h := ih (insert_sorted hO hl v)
    refine ⟨h.perm.trans ?_, h.sorted, ?_⟩
    · have := (insert_perm (O := O) l v).append_right vs
      simpa using this
    · intro w
      have := h.stable w
      rw [List.filter_append, insert_filter hO hl] at this
      rw [← List.filter_append, List.append_assoc] at this
      exact this

theorem sort_eq_insertAll (hO : StrictWeakOrder O.lt) {l : List α} (hl : Sorted O.lt l) {xs ys : List α}
    (h : IsStableSort O.lt (l ++ xs) ys) : ys = insertAll O l xs :=
  h.unique hO (insertAll_isStableSort hO hl xs)

theorem sorted_nil : Sorted O.lt ([] : List α) := List.Pairwise.nil

theorem sort_eq_insertAll_nil (hO : StrictWeakOrder O.lt) {xs ys : List α}
    (h : IsStableSort O.lt xs ys) : ys = insertAll O [] xs :=
  sort_eq_insertAll hO sorted_nil (by simpa using h)

theorem insertAll_of_sort (hO : StrictWeakOrder O.lt) {l : List α} (hl : Sorted O.lt l) {xs ys : List α}
    (h : IsStableSort O.lt xs ys) : insertAll O l ys = insertAll O l xs :=
  sort_eq_insertAll hO hl (h.append_right (insertAll_isStableSort hO hl ys))

theorem insertAll_nil_of_sorted (hO : StrictWeakOrder O.lt) {l : List α} (hl : Sorted O.lt l) :
    insertAll O [] l = l :=
  (sort_eq_insertAll_nil hO (IsStableSort.self hl)).symm

theorem insertAll_nil_append (hO : StrictWeakOrder O.lt) {l : List α} (hl : Sorted O.lt l) (xs : List α) :
    insertAll O [] (l ++ xs) = insertAll O l xs := by
  rw [insertAll, List.foldl_append]
  show insertAll O (insertAll O [] l) xs = _
  rw [insertAll_nil_of_sorted hO hl]

theorem insertAll_sort (hO : StrictWeakOrder O.lt) {l : List α} (hl : Sorted O.lt l) {xs ys zs : List α}
    (h : IsStableSort O.lt xs ys) (h' : IsStableSort O.lt (l ++ ys) zs) : zs = insertAll O l xs :=
  sort_eq_insertAll hO hl (h.append_right h')

end Spec
end Verif
