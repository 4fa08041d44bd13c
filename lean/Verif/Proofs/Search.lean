import Verif.Proofs.Shape
/-!
# Two-level binary search, shared by all queries of both classes
-/

namespace Verif
variable {α κ : Type} {k : α → κ} {lt : κ → κ → Bool} {keyed : Bool}

/-- `bis` finds the boundary between the keys that satisfy `p` and the rest. -/
def IsBis (bis : List κ → Except PyErr Nat) (p : κ → Bool) : Prop :=
  ∀ A B : List κ, (∀ a ∈ A, p a = true) → (∀ b ∈ B, p b = false) → bis (A ++ B) = .ok A.length

theorem isBis_left {ltE : κ → κ → Except PyErr Bool} (h : ∀ a b, ltE a b = .ok (lt a b)) (v : κ) :
    IsBis (bisectLeft ltE · v) (lt · v) := fun A B hA hB =>
  bisectLeft_eq ltE A B v (fun a ha => by rw [h]; exact congrArg _ (hA a ha))
    (fun b hb => by rw [h]; exact congrArg _ (hB b hb))

theorem isBis_right {ltE : κ → κ → Except PyErr Bool} (h : ∀ a b, ltE a b = .ok (lt a b)) (v : κ) :
    IsBis (bisectRight ltE · v) (fun m => !lt v m) := fun A B hA hB =>
  bisectRight_eq ltE A B v (fun a ha => by rw [h]; simpa using hA a ha) (fun b hb => by rw [h]; simpa using hB b hb)

theorem mono_left (hlt : StrictWeakOrder lt) {l : List α} (hs : Sorted (fun a b => lt (k a) (k b)) l) (v : κ) :
    Mono ((lt · v) ∘ k) l :=
  List.Pairwise.imp (fun hab hb => hlt.lt_of_not_lt_of_lt hab hb) hs

theorem mono_right (hlt : StrictWeakOrder lt) {l : List α} (hs : Sorted (fun a b => lt (k a) (k b)) l) (v : κ) :
    Mono ((fun m => !lt v m) ∘ k) l :=
  List.Pairwise.imp (fun {a b} hab hb => by
    simp only [Function.comp, Bool.not_eq_true'] at *
    exact hlt.negtrans _ _ _ hb hab) hs

/-- How a two-level search ends. -/
inductive Search (k : α → κ) (p : κ → Bool) (bis : List κ → Except PyErr Nat) (s : St α κ) : Prop where
  | atEnd : (∀ x ∈ Core.iter s, p (k x) = true) → bis s.maxes = .ok s.maxes.length → Search k p bis s
  | inside (A : List (List α)) (B1 : List α) (x : α) (B2 : List α) (C : List (List α)) :
      s.lists = A ++ (B1 ++ x :: B2) :: C → bis s.maxes = .ok A.length → A.length ≠ s.maxes.length →
      bis ((B1 ++ x :: B2).map k) = .ok B1.length →
      (∀ y ∈ A.flatten ++ B1, p (k y) = true) → p (k x) = false → (∀ y ∈ B2 ++ C.flatten, p (k y) = false) →
      Search k p bis s

theorem Inv.search {s : St α κ} (h : Inv k lt keyed s) {p : κ → Bool} {bis : List κ → Except PyErr Nat}
    (hbis : IsBis bis p) (hmono : Mono (p ∘ k) (Core.iter s)) : Search k p bis s := by
  rcases locate (p := p) h.maxes hmono with ⟨hall, hallm⟩ |
    ⟨A, B1, B2, C, MA, m, MC, hl, hB2, hm, hA, hB, hC, pA, pB1, pB2, pC, pMA, pm, pMC⟩
  · refine .atEnd hall ?_
    have := hbis s.maxes [] hallm (by simp)
    simpa using this
  · cases B2 with
    | nil => exact absurd rfl hB2
    | cons x B2 =>
      refine .inside A B1 x B2 C hl ?_ ?_ ?_ ?_ (pB2 x (by simp)) ?_
      · rw [hm, ← hA.length_eq]
        refine hbis MA (m :: MC) pMA ?_
        intro b hb
        rcases List.mem_cons.1 hb with rfl | hb
        · exact pm
        · exact pMC b hb
      · rw [hm, ← hA.length_eq]; simp
      · rw [List.map_append, hbis]
        · simp
        · simpa using pB1
        · simpa using pB2
      · intro y hy
        rcases List.mem_append.1 hy with hy | hy
        · exact pA y hy
        · exact pB1 y hy
      · intro y hy
        rcases List.mem_append.1 hy with hy | hy
        · exact pB2 y (by simp [hy])
        · exact pC y hy

section
variable {s : St α κ} {A : List (List α)} {B1 B2 : List α} {x : α} {C : List (List α)}

theorem iter_split (hl : s.lists = A ++ (B1 ++ x :: B2) :: C) :
    Core.iter s = (A.flatten ++ B1) ++ x :: (B2 ++ C.flatten) := by
  rw [Core.iter, hl]; simp

theorem getItem_lists (hl : s.lists = A ++ (B1 ++ x :: B2) :: C) : getItem s.lists A.length = .ok (B1 ++ x :: B2) := by
  rw [hl]; simp

theorem Inv.getItem_keys (h : Inv k lt true s) (hl : s.lists = A ++ (B1 ++ x :: B2) :: C) :
    getItem s.keys A.length = .ok ((B1 ++ x :: B2).map k) := by
  rw [h.keys_eq rfl, hl, List.map_append, List.map_cons]
  exact getItem_append_cons _ _ _ (by simp)

theorem at_of_split (hl : s.lists = A ++ (B1 ++ x :: B2) :: C) :
    At s.lists A.length B1.length (A.flatten ++ B1).length x := by
  refine ⟨A, B1, B2, C, hl, rfl, rfl, ?_⟩
  simp only [List.length_append]

theorem cut_of_split (hl : s.lists = A ++ (B1 ++ x :: B2) :: C) :
    Cut s.lists A.length B1.length (A.flatten ++ B1).length := (at_of_split hl).cut

end

theorem countP_split {p : α → Bool} {P Q : List α} {x : α} (hP : ∀ y ∈ P, p y = true) (hx : p x = false)
    (hQ : ∀ y ∈ Q, p y = false) : (P ++ x :: Q).countP p = P.length := by
  rw [List.countP_append, List.countP_cons, List.countP_eq_length.2 hP, List.countP_eq_zero.2]
  · simp [hx]
  · intro a ha; simp [hQ a ha]

theorem countP_all {p : α → Bool} {P : List α} (hP : ∀ y ∈ P, p y = true) : P.countP p = P.length :=
  List.countP_eq_length.2 hP

theorem Mono.filter_eq {p : α → Bool} {l : List α} (h : Mono p l) : l.filter p = l.take (l.countP p) := by
  obtain ⟨A, B, rfl, hA, hB⟩ := h.split
  rw [List.filter_append, List.countP_append, List.filter_eq_self.2 hA, List.filter_eq_nil_iff.2 (by simpa using hB),
    List.countP_eq_length.2 hA, List.countP_eq_zero.2 (by simpa using hB)]
  simp

theorem Mono.filter_not_eq {p : α → Bool} {l : List α} (h : Mono p l) :
    l.filter (fun x => !p x) = l.drop (l.countP p) := by
  obtain ⟨A, B, rfl, hA, hB⟩ := h.split
  rw [List.filter_append, List.countP_append, List.filter_eq_nil_iff.2 (by simpa using hA),
    List.filter_eq_self.2 (by simpa using hB),
    List.countP_eq_length.2 hA, List.countP_eq_zero.2 (by simpa using hB)]
  simp

/-- The values that do not satisfy `p` but satisfy `q` are a segment. -/
theorem filter_segment {p q : α → Bool} {l : List α} (hp : Mono p l) (hq : Mono q l) :
    l.filter (fun x => !p x && q x) = (l.take (l.countP q)).drop (l.countP p) := by
  rw [← List.filter_filter, hq.filter_eq, (hp.sublist (List.take_sublist _ _)).filter_not_eq]
  obtain ⟨A, B, rfl, hA, hB⟩ := hp.split
  generalize (A ++ B).countP q = n
  have e1 : (A ++ B).countP p = A.length := by
    rw [List.countP_append, List.countP_eq_length.2 hA, List.countP_eq_zero.2 (by simpa using hB)]; rfl
  have e2 : (A.take n ++ B.take (n - A.length)).countP p = (A.take n).length := by
    rw [List.countP_append, List.countP_eq_length.2 fun a ha => hA a (List.mem_of_mem_take ha),
      List.countP_eq_zero.2 fun a ha => by simpa using hB a (List.mem_of_mem_take ha)]; rfl
  rw [e1, List.take_append, e2]
  rcases Nat.le_total n A.length with hn | hn
  · rw [show n - A.length = 0 by omega]
    rw [List.drop_eq_nil_of_le (by simp), List.drop_eq_nil_of_le (by simp; omega)]
  · rw [List.take_of_length_le hn]

theorem eraseP_split {q : α → Bool} {P Q : List α} {x : α} (hP : ∀ y ∈ P, q y = false) (hx : q x = true) :
    (P ++ x :: Q).eraseP q = (P ++ x :: Q).eraseIdx P.length := by
  rw [List.eraseP_append_right _ (by simpa using hP)]
  rw [List.eraseIdx_append_of_length_le (Nat.le_refl _)]
  simp [hx]

theorem eraseP_none {q : α → Bool} {l : List α} (h : ∀ y ∈ l, q y = false) : l.eraseP q = l :=
  List.eraseP_of_forall_not (by simpa using h)

theorem any_none {q : α → Bool} {l : List α} (h : ∀ y ∈ l, q y = false) : l.any q = false := by
  simpa using h

/-! ## `index` in the specification -/

theorem spec_index_some {O : Spec.Order α} {v : α} {start stop : Option Int} {l : List α} {i : Nat} {x : α}
    (hlo : Spec.indexBound l.length 0 start ≤ i) (hhi : (i : Int) < Spec.indexBound l.length l.length stop)
    (hx : l[i]? = some x) (hs : O.same x v = true)
    (hfirst : ∀ (j : Nat) y, j < i → Spec.indexBound l.length 0 start ≤ j → l[j]? = some y → O.same y v = false) :
    Spec.index O v start stop l = (.ok (i : Int), l) := by
  unfold Spec.index
  have hi : i < l.length := (List.getElem?_eq_some_iff.1 hx).1
  have : (List.range l.length).find? (fun (i : Nat) =>
      decide (Spec.indexBound l.length 0 start ≤ (i : Int)) &&
      decide ((i : Int) < Spec.indexBound l.length l.length stop) && (l[i]?.any (O.same · v))) = some i := by
    rw [List.find?_range_eq_some]
    refine ⟨by simp [hlo, hhi, hx, hs], by simpa using hi, ?_⟩
    intro j hj
    by_cases h1 : Spec.indexBound l.length 0 start ≤ (j : Int)
    · have hj' : j < l.length := by omega
      have := hfirst j l[j] hj h1 (by simp [hj'])
      simp [hj', this]
    · simp [h1]
  simp only [this]

theorem spec_index_none {O : Spec.Order α} {v : α} {start stop : Option Int} {l : List α}
    (h : ∀ (j : Nat) y, Spec.indexBound l.length 0 start ≤ j → (j : Int) < Spec.indexBound l.length l.length stop →
      l[j]? = some y → O.same y v = false) :
    Spec.index O v start stop l = (.error .valueError, l) := by
  unfold Spec.index
  have : (List.range l.length).find? (fun (i : Nat) =>
      decide (Spec.indexBound l.length 0 start ≤ (i : Int)) &&
      decide ((i : Int) < Spec.indexBound l.length l.length stop) && (l[i]?.any (O.same · v))) = none := by
    rw [List.find?_eq_none]
    intro j hj
    have hj' : j < l.length := by simpa using hj
    by_cases h1 : Spec.indexBound l.length 0 start ≤ (j : Int)
    · by_cases h2 : (j : Int) < Spec.indexBound l.length l.length stop
      · simp [hj', h j l[j] h1 h2 (by simp [hj'])]
      · simp [h2]
    · simp [h1]
  simp only [this]

/-- The model's bounds of `index`. -/
theorem indexBounds_eq (len : Nat) (start stop : Option Int) :
    (SL.indexBounds len start stop).1 = Spec.indexBound len 0 start ∧
    0 ≤ (SL.indexBounds len start stop).1 ∧
    (SL.indexBounds len start stop).2 ≤ len ∧
    (SL.indexBounds len start stop).2 ≤ Spec.indexBound len len stop ∧
    ((SL.indexBounds len start stop).2 < Spec.indexBound len len stop →
      (SL.indexBounds len start stop).2 = len ∨ Spec.indexBound len len stop = 0) := by
  cases start <;> cases stop <;> simp only [SL.indexBounds, Spec.indexBound, Option.getD_none, Option.getD_some] <;>
    refine ⟨?_, ?_, ?_, ?_, ?_⟩ <;> split <;> omega

end Verif
