import Verif.Proofs.Laws
import Verif.Model.SortedSet
/-!
# Lists of pairwise different values, up to an equivalence
-/

namespace Verif
variable {α : Type} {eqv : α → α → Bool}

/-- `==`, an equivalence relation. -/
structure IsEquiv (eqv : α → α → Bool) : Prop where
  refl : ∀ a, eqv a a = true
  symm : ∀ a b, eqv a b = eqv b a
  trans : ∀ a b c, eqv a b = true → eqv b c = true → eqv a c = true

/-- No two values are equal. -/
def Distinct (eqv : α → α → Bool) (l : List α) : Prop := l.Pairwise fun a b => eqv a b = false

theorem IsEquiv.congr (h : IsEquiv eqv) {a b : α} (hab : eqv a b = true) (c : α) : eqv c a = eqv c b := by
  have hba : eqv b a = true := by rw [h.symm]; exact hab
  cases h1 : eqv c a <;> cases h2 : eqv c b <;> try rfl
  · rw [h.trans c b a h2 hba] at h1; cases h1
  · rw [h.trans c a b h1 hab] at h2; cases h2

theorem any_perm {p : α → Bool} {l l' : List α} (h : l.Perm l') : l.any p = l'.any p := by
  rw [Bool.eq_iff_iff, List.any_eq_true, List.any_eq_true]
  simp only [h.mem_iff]

theorem any_congr_eqv (h : IsEquiv eqv) {a b : α} (hab : eqv a b = true) (l : List α) :
    l.any (eqv · a) = l.any (eqv · b) := by
  congr 1; funext c; exact h.congr hab c

theorem any_self (h : IsEquiv eqv) {a : α} {l : List α} (ha : a ∈ l) : l.any (eqv · a) = true :=
  List.any_eq_true.2 ⟨a, ha, h.refl a⟩

theorem Distinct.perm (h : IsEquiv eqv) {l l' : List α} (hp : l.Perm l') (hl : Distinct eqv l) : Distinct eqv l' :=
  hp.pairwise hl fun {a b} hab => by rw [h.symm]; exact hab

theorem Distinct.eraseP_eq_filter (h : IsEquiv eqv) {l : List α} (hl : Distinct eqv l) (v : α) :
    l.eraseP (eqv · v) = l.filter fun y => !eqv y v := by
  induction l with
  | nil => rfl
  | cons a l ih =>
    obtain ⟨h1, h2⟩ := List.pairwise_cons.1 hl
    cases hav : eqv a v with
    | true =>
      rw [List.eraseP_cons_of_pos (p := (eqv · v)) hav, List.filter_cons_of_neg (by simp [hav])]
      refine (List.filter_eq_self.2 fun b hb => ?_).symm
      rw [← h.congr hav, h.symm, h1 b hb]; rfl
    | false =>
      rw [List.eraseP_cons_of_neg (p := (eqv · v)) (by simp [hav]), List.filter_cons_of_pos (by simp [hav]), ih h2]

theorem Distinct.eq_of_eqv (h : IsEquiv eqv) {l : List α} (hl : Distinct eqv l) {i j : Nat} {a b : α}
    (hi : l[i]? = some a) (hj : l[j]? = some b) (hab : eqv a b = true) : i = j := by
  have key : ∀ (i j : Nat) (a b : α), l[i]? = some a → l[j]? = some b → i < j → eqv a b = false := by
    intro i j a b hi hj hlt
    obtain ⟨_, rfl⟩ := List.getElem?_eq_some_iff.1 hi
    obtain ⟨_, rfl⟩ := List.getElem?_eq_some_iff.1 hj
    exact List.pairwise_iff_getElem.1 hl i j _ _ hlt
  rcases Nat.lt_trichotomy i j with hlt | heq | hlt
  · rw [key i j a b hi hj hlt] at hab; cases hab
  · exact heq
  · rw [h.symm, key j i b a hj hi hlt] at hab; cases hab

theorem filter_zipIdx (l : List α) (p : α → Bool) :
    (l.zipIdx.filter fun x => p x.1).map Prod.fst = l.filter p := by
  have := List.filter_map (f := Prod.fst) (p := p) (l := l.zipIdx)
  rw [show l.zipIdx.map Prod.fst = l from by simp] at this
  rw [this]; rfl

/-- Removing the values at some positions by value or by position is the same. -/
theorem Distinct.filter_positions (h : IsEquiv eqv) {l : List α} (hl : Distinct eqv l) (ps : List Nat) :
    (l.filter fun y => !(ps.filterMap (l[·]?)).any (eqv · y)) = Spec.deletePositions ps l := by
  rw [Spec.deletePositions, ← filter_zipIdx]
  congr 1
  refine List.filter_congr fun x hx => ?_
  obtain ⟨a, i⟩ := x
  have hi : l[i]? = some a := List.mem_zipIdx_iff_getElem?.1 hx
  congr 1
  rw [Bool.eq_iff_iff, List.any_eq_true, List.contains_iff_mem]
  constructor
  · rintro ⟨y, hy, hya⟩
    obtain ⟨j, hj, hjy⟩ := List.mem_filterMap.1 hy
    rw [hl.eq_of_eqv h hi hjy (by rw [h.symm]; exact hya)]; exact hj
  · intro hp
    exact ⟨a, List.mem_filterMap.2 ⟨i, hp, hi⟩, h.refl a⟩

theorem deletePositions_singleton (l : List α) (p : Nat) : Spec.deletePositions [p] l = l.eraseIdx p := by
  have key : ∀ (l : List α) (k p : Nat), k ≤ p →
      ((l.zipIdx k).filter fun x => !([p] : List Nat).contains x.2).map Prod.fst = l.eraseIdx (p - k) := by
    intro l
    induction l with
    | nil => intro k p _; simp
    | cons a l ih =>
      intro k p hkp
      rw [List.zipIdx_cons]
      by_cases e : k = p
      · subst e
        rw [List.filter_cons_of_neg (by simp), Nat.sub_self, List.eraseIdx_zero, List.tail_cons]
        rw [List.filter_eq_self.2, List.zipIdx_map_fst]
        intro x hx
        have := List.le_snd_of_mem_zipIdx hx
        simp; omega
      · rw [List.filter_cons_of_pos (by simp; exact e), List.map_cons, ih (k+1) p (by omega)]
        obtain ⟨d, hd⟩ : ∃ d, p - k = d + 1 := ⟨p - k - 1, by omega⟩
        rw [hd, List.eraseIdx_cons_succ, show p - (k+1) = d by omega]
  exact key l 0 p (Nat.zero_le _)

theorem Distinct.filter_position (h : IsEquiv eqv) {l : List α} (hl : Distinct eqv l) {p : Nat} {v : α}
    (hp : l[p]? = some v) : (l.filter fun y => !eqv y v) = l.eraseIdx p := by
  rw [← deletePositions_singleton, ← hl.filter_positions h]
  refine List.filter_congr fun x _ => ?_
  simp [hp, h.symm x v]

/-! ### `addNew` -/

theorem any_append_singleton (l : List α) (x : α) (p : α → Bool) : (l ++ [x]).any p = (l.any p || p x) := by simp

theorem addNew_perm {l l' : List α} (hp : l.Perm l') (x : α) : (addNew eqv l x).Perm (addNew eqv l' x) := by
  simp only [addNew, any_perm hp]
  split
  · exact hp
  · exact hp.append_right _

theorem foldl_addNew_perm {l l' : List α} (hp : l.Perm l') (xs : List α) :
    (xs.foldl (addNew eqv) l).Perm (xs.foldl (addNew eqv) l') := by
  induction xs generalizing l l' with
  | nil => exact hp
  | cons x xs ih => exact ih (addNew_perm hp x)

theorem foldl_addNew_filter (h : IsEquiv eqv) (l acc xs : List α) :
    xs.foldl (addNew eqv) (l ++ acc.filter fun y => !l.any (eqv · y)) =
      l ++ (xs.foldl (addNew eqv) acc).filter fun y => !l.any (eqv · y) := by
  induction xs generalizing acc with
  | nil => rfl
  | cons x xs ih =>
    rw [List.foldl_cons, List.foldl_cons, ← ih]
    congr 1
    cases hx : l.any (eqv · x) with
    | true =>
      have : (addNew eqv acc x).filter (fun y => !l.any (eqv · y)) = acc.filter fun y => !l.any (eqv · y) := by
        simp only [addNew]
        split
        · rfl
        · rw [List.filter_append]; simp [hx]
      rw [this, addNew, if_pos (by rw [List.any_append, hx, Bool.true_or])]
    | false =>
      have key : (acc.filter fun y => !l.any (eqv · y)).any (eqv · x) = acc.any (eqv · x) := by
        rw [Bool.eq_iff_iff, List.any_eq_true, List.any_eq_true]
        constructor
        · rintro ⟨y, hy, hyx⟩; exact ⟨y, (List.mem_filter.1 hy).1, hyx⟩
        · rintro ⟨y, hy, hyx⟩
          exact ⟨y, List.mem_filter.2 ⟨hy, by rw [any_congr_eqv h hyx, hx]; rfl⟩, hyx⟩
      simp only [addNew]
      rw [List.any_append, hx, Bool.false_or, key]
      split
      · rfl
      · rw [List.filter_append, List.append_assoc]
        simp [hx]

theorem foldl_addNew_eq (h : IsEquiv eqv) (l xs : List α) :
    xs.foldl (addNew eqv) l = l ++ (xs.foldl (addNew eqv) []).filter fun y => !l.any (eqv · y) := by
  have := foldl_addNew_filter h l [] xs
  simpa using this

theorem any_foldl_addNew (h : IsEquiv eqv) (l xs : List α) (x : α) :
    (xs.foldl (addNew eqv) l).any (eqv · x) = (l.any (eqv · x) || xs.any (eqv · x)) := by
  induction xs generalizing l with
  | nil => simp
  | cons y xs ih =>
    rw [List.foldl_cons, ih, List.any_cons, ← Bool.or_assoc]
    congr 1
    simp only [addNew]
    split
    · rename_i hy
      cases hyx : eqv y x with
      | false => simp
      | true => rw [any_congr_eqv h hyx] at hy; simp [hy]
    · rw [any_append_singleton]

theorem distinct_foldl_addNew {l : List α} (hl : Distinct eqv l) (xs : List α) :
    Distinct eqv (xs.foldl (addNew eqv) l) := by
  induction xs generalizing l with
  | nil => exact hl
  | cons x xs ih =>
    refine ih ?_
    simp only [addNew]
    split
    · exact hl
    · rename_i hx
      refine List.pairwise_append.2 ⟨hl, List.pairwise_singleton _ _, fun a ha b hb => ?_⟩
      rw [List.mem_singleton] at hb
      subst hb
      cases hab : eqv a b
      · rfl
      · exact absurd (List.any_eq_true.2 ⟨a, ha, hab⟩) hx

theorem foldl_addNew_of_distinct {l xs : List α} (hx : Distinct eqv xs) :
    xs.foldl (addNew eqv) l = l ++ xs.filter fun y => !l.any (eqv · y) := by
  induction xs generalizing l with
  | nil => simp
  | cons x xs ih =>
    obtain ⟨h1, h2⟩ := List.pairwise_cons.1 hx
    rw [List.foldl_cons, ih h2]
    cases hxl : l.any (eqv · x) with
    | true => rw [addNew, if_pos hxl, List.filter_cons_of_neg (by simp [hxl])]
    | false =>
      rw [addNew, if_neg (by simp [hxl]), List.filter_cons_of_pos (by simp [hxl]), List.append_assoc,
        List.singleton_append]
      congr 2
      refine List.filter_congr fun y hy => ?_
      rw [any_append_singleton, h1 y hy, Bool.or_false]

/-- Adding the values of a set, in any order, is adding the values the set was made from. -/
theorem foldl_addNew_ofList (h : IsEquiv eqv) (l : List α) {xs ys : List α} (hp : ys.Perm (xs.foldl (addNew eqv) [])) :
    (ys.foldl (addNew eqv) l).Perm (xs.foldl (addNew eqv) l) := by
  have hd : Distinct eqv ys := (distinct_foldl_addNew (l := []) List.Pairwise.nil xs).perm h hp.symm
  rw [foldl_addNew_of_distinct hd, foldl_addNew_eq h l xs]
  exact (hp.filter _).append_left _

theorem mem_foldl_addNew {l : List α} {a : α} (ha : a ∈ l) (xs : List α) : a ∈ xs.foldl (addNew eqv) l := by
  induction xs generalizing l with
  | nil => exact ha
  | cons x xs ih =>
    refine ih ?_
    simp only [addNew]
    split
    · exact ha
    · exact List.mem_append_left _ ha

theorem of_mem_foldl_addNew {l xs : List α} {a : α} (ha : a ∈ xs.foldl (addNew eqv) l) : a ∈ l ∨ a ∈ xs := by
  induction xs generalizing l with
  | nil => exact .inl ha
  | cons x xs ih =>
    rcases ih ha with h | h
    · simp only [addNew] at h
      split at h
      · exact .inl h
      · rcases List.mem_append.1 h with h | h
        · exact .inl h
        · exact .inr (by simp at h; simp [h])
    · exact .inr (List.mem_cons_of_mem _ h)

/-! ### Counting -/

theorem Distinct.erase_subset (h : IsEquiv eqv) {l : List α} {a : α} (hl : Distinct eqv (a :: l)) {r : List α}
    (hsub : ∀ x ∈ a :: l, r.any (eqv · x) = true) : ∀ x ∈ l, (r.filter fun y => !eqv y a).any (eqv · x) = true := by
  intro x hx
  obtain ⟨y, hy, hyx⟩ := List.any_eq_true.1 (hsub x (List.mem_cons_of_mem _ hx))
  refine List.any_eq_true.2 ⟨y, List.mem_filter.2 ⟨hy, ?_⟩, hyx⟩
  have := (List.pairwise_cons.1 hl).1 x hx
  rw [h.congr hyx.symm.symm a |>.symm] at this
  rw [h.symm, this]; rfl

/-- A set contained in another one is not larger. -/
theorem Distinct.length_le (h : IsEquiv eqv) {l r : List α} (hl : Distinct eqv l) (hr : Distinct eqv r)
    (hsub : ∀ x ∈ l, r.any (eqv · x) = true) : l.length ≤ r.length := by
  induction l generalizing r with
  | nil => exact Nat.zero_le _
  | cons a l ih =>
    have h1 := Distinct.erase_subset h hl hsub
    have hr' : Distinct eqv (r.filter fun y => !eqv y a) := List.Pairwise.filter _ hr
    have h2 := ih (List.pairwise_cons.1 hl).2 hr' h1
    have h3 : (r.filter fun y => !eqv y a).length < r.length := by
      obtain ⟨y, hy, hya⟩ := List.any_eq_true.1 (hsub a (by simp))
      rcases Nat.lt_or_ge (r.filter fun y => !eqv y a).length r.length with h | h
      · exact h
      · have := List.length_filter_eq_length_iff.1 (Nat.le_antisymm (List.length_filter_le _ _) h) y hy
        rw [hya] at this; cases this
    simp only [List.length_cons]; omega

/-- A set contained in another one of the same size contains it. -/
theorem Distinct.superset_of_length (h : IsEquiv eqv) {l r : List α} (hl : Distinct eqv l) (hr : Distinct eqv r)
    (hsub : ∀ x ∈ l, r.any (eqv · x) = true) (hlen : r.length ≤ l.length) : ∀ x ∈ r, l.any (eqv · x) = true := by
  intro x hx
  cases hxl : l.any (eqv · x) with
  | true => rfl
  | false =>
    exfalso
    have hd : Distinct eqv (x :: l) := by
      refine List.pairwise_cons.2 ⟨fun b hb => ?_, hl⟩
      cases hxb : eqv x b
      · rfl
      · rw [List.any_eq_true.2 ⟨b, hb, by rw [h.symm]; exact hxb⟩] at hxl; cases hxl
    have := Distinct.length_le h hd hr (by
      intro y hy
      rcases List.mem_cons.1 hy with rfl | hy
      · exact any_self h hx
      · exact hsub y hy)
    simp only [List.length_cons] at this; omega

end Verif
