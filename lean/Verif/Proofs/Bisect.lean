import Verif.Proofs.Basic
/-!
# Binary search finds the split point; two-level search in the list of sublists
-/

namespace Verif

section
variable {α : Type}

theorem bisectRightLoop_eq (lt : α → α → Except PyErr Bool) (A B : List α) (x : α)
    (hA : ∀ a ∈ A, lt x a = .ok false) (hB : ∀ b ∈ B, lt x b = .ok true) (lo hi : Nat)
    (h1 : lo ≤ A.length) (h2 : A.length ≤ hi) (h3 : hi ≤ A.length + B.length) :
    bisectRightLoop lt (A ++ B) x lo hi = .ok A.length := by
  fun_induction bisectRightLoop lt (A ++ B) x lo hi with
  | case1 lo hi h e he =>
    rw [getItem_ok (by simp; omega)] at he; cases he
  | case2 lo hi h m hm e he =>
    rw [getItem_ok (by simp; omega)] at hm
    cases hm
    rw [List.getElem_append] at he
    split at he
    · rw [hA _ (List.getElem_mem _)] at he; cases he
    · rw [hB _ (List.getElem_mem _)] at he; cases he
  | case3 lo hi h m hm he ih =>
    rw [getItem_ok (by simp; omega)] at hm
    cases hm
    rw [List.getElem_append] at he
    split at he
    · rw [hA _ (List.getElem_mem _)] at he; cases he
    · exact ih h1 (by omega) (by omega)
  | case4 lo hi h m hm he ih =>
    rw [getItem_ok (by simp; omega)] at hm
    cases hm
    rw [List.getElem_append] at he
    split at he
    · exact ih (by omega) h2 h3
    · rw [hB _ (List.getElem_mem _)] at he; cases he
  | case5 lo hi h => congr 1; omega

theorem bisectRight_eq (lt : α → α → Except PyErr Bool) (A B : List α) (x : α)
    (hA : ∀ a ∈ A, lt x a = .ok false) (hB : ∀ b ∈ B, lt x b = .ok true) :
    bisectRight lt (A ++ B) x = .ok A.length :=
  bisectRightLoop_eq lt A B x hA hB _ _ (by omega) (by simp) (by simp)

theorem bisectLeftLoop_eq (lt : α → α → Except PyErr Bool) (A B : List α) (x : α)
    (hA : ∀ a ∈ A, lt a x = .ok true) (hB : ∀ b ∈ B, lt b x = .ok false) (lo hi : Nat)
    (h1 : lo ≤ A.length) (h2 : A.length ≤ hi) (h3 : hi ≤ A.length + B.length) :
    bisectLeftLoop lt (A ++ B) x lo hi = .ok A.length := by
  fun_induction bisectLeftLoop lt (A ++ B) x lo hi with
  | case1 lo hi h e he =>
    rw [getItem_ok (by simp; omega)] at he; cases he
  | case2 lo hi h m hm e he =>
    rw [getItem_ok (by simp; omega)] at hm
    cases hm
    rw [List.getElem_append] at he
    split at he
    · rw [hA _ (List.getElem_mem _)] at he; cases he
    · rw [hB _ (List.getElem_mem _)] at he; cases he
  | case3 lo hi h m hm he ih =>
    rw [getItem_ok (by simp; omega)] at hm
    cases hm
    rw [List.getElem_append] at he
    split at he
    · exact ih (by omega) h2 h3
    · rw [hB _ (List.getElem_mem _)] at he; cases he
  | case4 lo hi h m hm he ih =>
    rw [getItem_ok (by simp; omega)] at hm
    cases hm
    rw [List.getElem_append] at he
    split at he
    · rw [hA _ (List.getElem_mem _)] at he; cases he
    · exact ih h1 (by omega) (by omega)
  | case5 lo hi h => congr 1; omega

theorem bisectLeft_eq (lt : α → α → Except PyErr Bool) (A B : List α) (x : α)
    (hA : ∀ a ∈ A, lt a x = .ok true) (hB : ∀ b ∈ B, lt b x = .ok false) :
    bisectLeft lt (A ++ B) x = .ok A.length :=
  bisectLeftLoop_eq lt A B x hA hB _ _ (by omega) (by simp) (by simp)

/-! ## Splitting sorted lists -/

/-- A list on which `p` holds first and then no longer. -/
def Mono (p : α → Bool) (l : List α) : Prop := l.Pairwise fun a b => p b = true → p a = true

theorem Mono.split {p : α → Bool} {l : List α} (h : Mono p l) :
    ∃ A B, l = A ++ B ∧ (∀ a ∈ A, p a = true) ∧ (∀ b ∈ B, p b = false) := by
  induction l with
  | nil => exact ⟨[], [], rfl, by simp, by simp⟩
  | cons x l ih =>
    rw [Mono, List.pairwise_cons] at h
    obtain ⟨A, B, rfl, hA, hB⟩ := ih h.2
    by_cases hx : p x = true
    · exact ⟨x :: A, B, rfl, by simpa [hx] using hA, hB⟩
    · refine ⟨[], x :: (A ++ B), rfl, by simp, ?_⟩
      intro b hb
      rcases List.mem_cons.1 hb with rfl | hb
      · simpa using hx
      · rcases List.mem_append.1 hb with hb' | hb'
        · exact absurd (h.1 b hb (hA b hb')) hx
        · exact hB b hb'

theorem Mono.sublist {p : α → Bool} {l l' : List α} (h : Mono p l) (hs : l'.Sublist l) : Mono p l' :=
  List.Pairwise.sublist hs h

end

section Locate
variable {α κ : Type} {k : α → κ}

/-- The maxima of the sublists, as keys. -/
def MaxesOK (k : α → κ) (lists : List (List α)) (maxes : List κ) : Prop :=
  maxes.map some = lists.map fun l => l.getLast?.map k

theorem MaxesOK.length_eq {lists : List (List α)} {maxes : List κ} (h : MaxesOK k lists maxes) :
    maxes.length = lists.length := by
  have := congrArg List.length h; simpa using this

theorem MaxesOK.nil_iff {lists : List (List α)} {maxes : List κ} (h : MaxesOK k lists maxes) :
    maxes = [] ↔ lists = [] := by
  rw [← List.length_eq_zero_iff, h.length_eq, List.length_eq_zero_iff]

theorem MaxesOK.append {L1 L2 : List (List α)} {m1 m2 : List κ} (h1 : MaxesOK k L1 m1)
    (h2 : MaxesOK k L2 m2) : MaxesOK k (L1 ++ L2) (m1 ++ m2) := by
  simp only [MaxesOK, List.map_append] at *; rw [h1, h2]

theorem MaxesOK.cons_iff {l : List α} {L : List (List α)} {m : κ} {ms : List κ} :
    MaxesOK k (l :: L) (m :: ms) ↔ l.getLast?.map k = some m ∧ MaxesOK k L ms := by
  simp only [MaxesOK, List.map_cons, List.cons.injEq]
  constructor
  · rintro ⟨h, h'⟩; exact ⟨h.symm, h'⟩
  · rintro ⟨h, h'⟩; exact ⟨h.symm, h'⟩

theorem MaxesOK.cons {l : List α} {L : List (List α)} {m : κ} {ms : List κ}
    (h1 : l.getLast?.map k = some m) (h2 : MaxesOK k L ms) : MaxesOK k (l :: L) (m :: ms) :=
  MaxesOK.cons_iff.2 ⟨h1, h2⟩

@[simp] theorem MaxesOK.nil : MaxesOK k [] [] := rfl

theorem MaxesOK.split {A C : List (List α)} {maxes : List κ} (h : MaxesOK k (A ++ C) maxes) :
    ∃ m1 m2, maxes = m1 ++ m2 ∧ MaxesOK k A m1 ∧ MaxesOK k C m2 := by
  rw [MaxesOK, List.map_append, List.map_eq_append_iff] at h
  obtain ⟨m1, m2, rfl, h1, h2⟩ := h
  exact ⟨m1, m2, rfl, h1, h2⟩

theorem MaxesOK.split_cons {A C : List (List α)} {B : List α} {maxes : List κ}
    (h : MaxesOK k (A ++ B :: C) maxes) :
    ∃ m1 m m2, maxes = m1 ++ m :: m2 ∧ MaxesOK k A m1 ∧ B.getLast?.map k = some m ∧ MaxesOK k C m2 := by
  obtain ⟨m1, m2, rfl, h1, h2⟩ := h.split
  cases m2 with
  | nil => simp [MaxesOK] at h2
  | cons m m2 =>
    rw [MaxesOK.cons_iff] at h2
    exact ⟨m1, m, m2, rfl, h1, h2.1, h2.2⟩

theorem MaxesOK.split_maxes {lists : List (List α)} {m1 m2 : List κ} (h : MaxesOK k lists (m1 ++ m2)) :
    ∃ A C, lists = A ++ C ∧ MaxesOK k A m1 ∧ MaxesOK k C m2 := by
  rw [MaxesOK, List.map_append, Eq.comm, List.map_eq_append_iff] at h
  obtain ⟨A, C, rfl, h1, h2⟩ := h
  exact ⟨A, C, rfl, h1.symm, h2.symm⟩

theorem MaxesOK.mem {lists : List (List α)} {maxes : List κ} (h : MaxesOK k lists maxes) {m : κ}
    (hm : m ∈ maxes) : ∃ l ∈ lists, l.getLast?.map k = some m := by
  have : some m ∈ maxes.map some := List.mem_map_of_mem hm
  rw [h] at this
  simpa using this

theorem MaxesOK.of_mem {lists : List (List α)} {maxes : List κ} (h : MaxesOK k lists maxes) {l : List α}
    (hl : l ∈ lists) : ∃ m ∈ maxes, l.getLast?.map k = some m := by
  have : l.getLast?.map k ∈ lists.map (fun l => l.getLast?.map k) :=
    List.mem_map.2 ⟨l, hl, rfl⟩
  rw [← h] at this
  obtain ⟨m, h1, h2⟩ := List.mem_map.1 this
  exact ⟨m, h1, h2.symm⟩

/-- Where a two-level binary search for the first value not satisfying `p` ends. -/
inductive Located (k : α → κ) (p : κ → Bool) (lists : List (List α)) (maxes : List κ) : Prop where
  /-- all values satisfy `p` -/
  | atEnd : (∀ x ∈ lists.flatten, p (k x) = true) → (∀ m ∈ maxes, p m = true) → Located k p lists maxes
  /-- `B1 ++ B2` is the first sublist with a value that does not satisfy `p`, and `B2` starts with it -/
  | at (A : List (List α)) (B1 B2 : List α) (C : List (List α)) (MA : List κ) (m : κ) (MC : List κ) :
      lists = A ++ (B1 ++ B2) :: C → B2 ≠ [] → maxes = MA ++ m :: MC → MaxesOK k A MA →
      (B1 ++ B2).getLast?.map k = some m → MaxesOK k C MC →
      (∀ x ∈ A.flatten, p (k x) = true) → (∀ x ∈ B1, p (k x) = true) →
      (∀ x ∈ B2, p (k x) = false) → (∀ x ∈ C.flatten, p (k x) = false) →
      (∀ x ∈ MA, p x = true) → p m = false → (∀ x ∈ MC, p x = false) → Located k p lists maxes

theorem locate {p : κ → Bool} {lists : List (List α)} {maxes : List κ}
    (hm : MaxesOK k lists maxes) (hmono : Mono (p ∘ k) lists.flatten) : Located k p lists maxes := by
  have monoMax : Mono p maxes := by
    induction lists generalizing maxes with
    | nil =>
      have : maxes = [] := by simpa [MaxesOK] using hm
      subst this; exact List.Pairwise.nil
    | cons l L ih =>
      cases maxes with
      | nil => exact List.Pairwise.nil
      | cons m ms =>
        rw [MaxesOK.cons_iff] at hm
        rw [List.flatten_cons] at hmono
        refine List.pairwise_cons.2 ⟨?_, ih hm.2 (hmono.sublist (List.sublist_append_right _ _))⟩
        intro m' hm' hp
        obtain ⟨l', hl', e'⟩ := hm.2.mem hm'
        obtain ⟨a, ha, rfl⟩ := Option.map_eq_some_iff.1 hm.1
        obtain ⟨b, hb, rfl⟩ := Option.map_eq_some_iff.1 e'
        exact (List.pairwise_append.1 hmono).2.2 a (List.mem_of_getLast? ha) b
          (List.mem_flatten.2 ⟨l', hl', List.mem_of_getLast? hb⟩) hp
  obtain ⟨MA, MB, rfl, hMA, hMB⟩ := monoMax.split
  have allP : ∀ {L : List (List α)} {M : List κ}, MaxesOK k L M → Mono (p ∘ k) L.flatten →
      (∀ m ∈ M, p m = true) → ∀ x ∈ L.flatten, p (k x) = true := by
    intro L M hLM hmono hM x hx
    obtain ⟨l, hl, hxl⟩ := List.mem_flatten.1 hx
    obtain ⟨m, hm, e⟩ := hLM.of_mem hl
    obtain ⟨a, ha, rfl⟩ := Option.map_eq_some_iff.1 e
    have hl' : Mono (p ∘ k) l := hmono.sublist (List.sublist_flatten_of_mem hl)
    obtain ⟨l0, rfl⟩ : ∃ l0, l = l0 ++ [a] := ⟨l.dropLast, by
      have hne : l ≠ [] := by rintro rfl; simp at hxl
      rw [List.getLast?_eq_some_getLast hne] at ha
      cases ha; rw [List.dropLast_concat_getLast]⟩
    rcases List.mem_append.1 hxl with h | h
    · exact (List.pairwise_append.1 hl').2.2 x h a (by simp) (hM _ hm)
    · simp at h; subst h; exact hM _ hm
  obtain ⟨A, R, rfl, hA, hR⟩ := hm.split_maxes
  rw [List.flatten_append] at hmono
  have hAp := allP hA (hmono.sublist (List.sublist_append_left _ _)) hMA
  cases MB with
  | nil =>
    have : R = [] := by simpa [MaxesOK] using hR
    subst this
    refine .atEnd ?_ ?_
    · simpa using hAp
    · simpa using hMA
  | cons m MC =>
    cases R with
    | nil => simp [MaxesOK] at hR
    | cons B C =>
      rw [MaxesOK.cons_iff] at hR
      have hmonoBC : Mono (p ∘ k) (B ++ C.flatten) := hmono.sublist (by simp)
      obtain ⟨B1, B2, rfl, hB1, hB2⟩ := (hmonoBC.sublist (List.sublist_append_left _ _)).split
      obtain ⟨a, ha, rfl⟩ := Option.map_eq_some_iff.1 hR.1
      have hpa : p (k a) = false := hMB _ (by simp)
      have hB2ne : B2 ≠ [] := by
        rintro rfl
        have := hB1 a (by simpa using List.mem_of_getLast? ha)
        simp [hpa] at this
      refine .at A B1 B2 C MA (k a) MC rfl hB2ne rfl hA hR.1 hR.2 hAp hB1 hB2 ?_ hMA hpa
        (fun x hx => hMB x (by simp [hx]))
      intro x hx
      refine Bool.eq_false_iff.2 fun hcon => ?_
      have := (List.pairwise_append.1 hmonoBC).2.2 a (List.mem_of_getLast? ha) x hx hcon
      simp [hpa] at this

end Locate
end Verif
