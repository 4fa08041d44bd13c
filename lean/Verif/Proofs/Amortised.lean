import Verif.Proofs.CountedSize
import Verif.Proofs.Iter
import Verif.Model.CountedAPI
/-!
# Splits, merges and rebuilds of the index, over a history of calls

A potential argument: `pot` measures how far the sublists are from the load factor.  A call that adds or deletes one value raises
it by at most two, and each split or merge lowers it by half the load.
-/

namespace Verif

/-! ## What a metered program does and spends -/

section
variable {σ α κ β γ : Type}

/-- From `s`, whatever the meter shows, the outcome of `mc`, the state it leaves and what it adds to the meter satisfy `Q`. -/
def Spends (mc : CPy σ β) (s : σ) (Q : Except PyErr β → σ → Calls → Prop) : Prop :=
  ∀ k, ∃ d, (mc (s, k)).2.2 = k + d ∧ Q (mc (s, k)).1 (mc (s, k)).2.1 d

namespace Spends
variable {s : σ} {Q Q' : Except PyErr β → σ → Calls → Prop}

theorem mono {mc : CPy σ β} (h : Spends mc s Q) (hQ : ∀ r s' d, Q r s' d → Q' r s' d) : Spends mc s Q' := by
  intro k
  obtain ⟨d, e, h⟩ := h k
  exact ⟨d, e, hQ _ _ _ h⟩

theorem free {m : Py σ β} (h : Q (m s).1 (m s).2 0) : Spends (CPy.free m) s Q := fun k =>
  ⟨0, by rw [Calls.add_zero]; rfl, h⟩

theorem pure {b : β} (h : Q (.ok b) s 0) : Spends (Pure.pure b : CPy σ β) s Q := fun k =>
  ⟨0, by rw [Calls.add_zero]; rfl, h⟩

theorem bind {mc : CPy σ γ} {fc : γ → CPy σ β} {P : Except PyErr γ → σ → Calls → Prop} (h : Spends mc s P)
    (hok : ∀ a s' d, P (.ok a) s' d → Spends (fc a) s' fun r s'' d' => Q r s'' (d + d'))
    (herr : ∀ e s' d, P (.error e) s' d → Q (.error e) s' d) : Spends (mc >>= fc) s Q := by
  intro k
  obtain ⟨d, e, h⟩ := h k
  show ∃ d, (Py.bind mc fc (s, k)).2.2 = k + d ∧ Q (Py.bind mc fc (s, k)).1 (Py.bind mc fc (s, k)).2.1 d
  simp only [Py.bind]
  rcases em : mc (s, k) with ⟨r, s', k'⟩
  rw [em] at e h
  cases r with
  | error er => exact ⟨d, e, herr _ _ _ h⟩
  | ok a =>
    obtain ⟨d', e', h'⟩ := hok _ _ _ h k'
    refine ⟨d + d', ?_, h'⟩
    dsimp only at e e' ⊢
    rw [e', e, Calls.add_assoc]

theorem get_bind {fc : σ → CPy σ β} (h : Spends (fc s) s Q) : Spends (CPy.free Py.get >>= fc) s Q := h

theorem lift_bind {x : Except PyErr γ} {fc : γ → CPy σ β} (h : ∀ a, x = .ok a → Spends (fc a) s Q)
    (he : ∀ e, x = .error e → Q (.error e) s 0) : Spends (CPy.free (Py.lift x) >>= fc) s Q := by
  cases x with
  | error e => exact free (m := Py.raise e) (he e rfl)
  | ok a => exact h a rfl

theorem modify_bind {g : σ → σ} {fc : Unit → CPy σ β} (h : Spends (fc ()) (g s) Q) :
    Spends (CPy.free (Py.modify g) >>= fc) s Q := h

theorem ite {p : Prop} [Decidable p] {a b : CPy σ β} (h1 : p → Spends a s Q) (h2 : ¬p → Spends b s Q) :
    Spends (if p then a else b) s Q := by
  split
  · exact h1 ‹_›
  · exact h2 ‹_›

theorem tick {c : Calls} {t : CPy σ Unit} (ht : ∀ k, t (s, k) = (.ok (), s, k + c)) {fc : Unit → CPy σ β}
    (h : Spends (fc ()) s fun r s' d => Q r s' (c + d)) : Spends (t >>= fc) s Q := by
  intro k
  obtain ⟨d, e, h⟩ := h (k + c)
  show ∃ d, (Py.bind t fc (s, k)).2.2 = k + d ∧ Q (Py.bind t fc (s, k)).1 (Py.bind t fc (s, k)).2.1 d
  simp only [Py.bind, ht]
  exact ⟨c + d, by rw [← Calls.add_assoc]; exact e, h⟩

theorem moving_bind {n : Nat} {fc : Unit → CPy σ β} (h : Spends (fc ()) s fun r s' d => Q r s' ({ moved := n } + d)) :
    Spends (Counted.moving n >>= fc) s Q := tick (fun _ => rfl) h

theorem shifting_bind {n : Nat} {fc : Unit → CPy σ β} (h : Spends (fc ()) s fun r s' d => Q r s' ({ shifted := n } + d)) :
    Spends (Counted.shifting n >>= fc) s Q := tick (fun _ => rfl) h

theorem reshaping_bind {fc : Unit → CPy σ β} (h : Spends (fc ()) s fun r s' d => Q r s' ({ reshaped := 1 } + d)) :
    Spends (Counted.reshaping >>= fc) s Q := tick (fun _ => rfl) h

theorem visiting_bind {fc : Unit → CPy σ β} (h : Spends (fc ()) s fun r s' d => Q r s' ({ node := 1 } + d)) :
    Spends (Counted.visiting >>= fc) s Q := tick (fun _ => rfl) h

theorem counts {B : Calls} {mc : CPy σ β} {m : Py σ β} (h : Counts B mc m s) (hQ : ∀ d, d ≤ B → Q (m s).1 (m s).2 d) :
    Spends mc s Q := by
  intro k
  obtain ⟨d, hd, e⟩ := h k
  refine ⟨d, by rw [e], ?_⟩
  rw [e]
  exact hQ d hd

/-- A metered search followed by the rest. -/
theorem lifted_bind {B : Calls} {mc : CPy σ γ} {x : Except PyErr γ} {fc : γ → CPy σ β} (h : Counts B mc (Py.lift x) s)
    (hok : ∀ a d, d ≤ B → x = .ok a → Spends (fc a) s fun r s' d' => Q r s' (d + d'))
    (herr : ∀ e d, d ≤ B → x = .error e → Q (.error e) s d) : Spends (mc >>= fc) s Q :=
  bind (P := fun r s' d => d ≤ B ∧ s' = s ∧ r = x) (counts h fun d hd => ⟨hd, rfl, rfl⟩)
    (fun a s' d ⟨hd, es, er⟩ => by rw [es]; exact hok a d hd er.symm)
    (fun e s' d ⟨hd, es, er⟩ => by rw [es]; exact herr e d hd er.symm)

/-- Both what is known from `Counts` and what is known from `Spends`. -/
theorem both {B : Calls} {mc : CPy σ β} {m : Py σ β} (h : Counts B mc m s) (h' : Spends mc s Q) :
    ∀ k, ∃ d, d ≤ B ∧ mc (s, k) = ((m s).1, (m s).2, k + d) ∧ Q (m s).1 (m s).2 d := by
  intro k
  obtain ⟨d, hd, e⟩ := h k
  obtain ⟨d', e', hq⟩ := h' k
  rw [e] at e' hq
  have hdd : d = d' := by
    have e' : k + d = k + d' := e'
    have := congrArg Calls.cmp e'
    have := congrArg Calls.key e'
    have := congrArg Calls.node e'
    have := congrArg Calls.built e'
    have := congrArg Calls.moved e'
    have := congrArg Calls.shifted e'
    have := congrArg Calls.reshaped e'
    have := congrArg Calls.sorted e'
    simp only [Calls.add_cmp, Calls.add_key, Calls.add_node, Calls.add_built, Calls.add_moved, Calls.add_shifted,
      Calls.add_reshaped, Calls.add_sorted] at *
    apply Calls.ext' <;> omega
  subst hdd
  exact ⟨d, hd, e, hq⟩

end Spends
end

/-! ## The potential -/

section
variable {α κ : Type}

/-- How far a sublist of `x` values is from the load `L`: too short weighs twice as much as too long. -/
def far (L x : Nat) : Nat := (x - L) + 2 * (L - x)

/-- The potential of the sublists: a single sublist may be short. -/
def pot (L : Nat) (lists : List (List α)) : Nat :=
  if lists.length ≤ 1 then (lists.map fun l => l.length - L).sum else (lists.map fun l => far L l.length).sum

/-- The sum of the distances. -/
def fars (L : Nat) (lists : List (List α)) : Nat := (lists.map fun l => far L l.length).sum

theorem fars_append (L : Nat) (A B : List (List α)) : fars L (A ++ B) = fars L A + fars L B := by simp [fars]
theorem fars_cons (L : Nat) (l : List α) (A : List (List α)) : fars L (l :: A) = far L l.length + fars L A := by simp [fars]

theorem pot_many {L : Nat} {lists : List (List α)} (h : 2 ≤ lists.length) : pot L lists = fars L lists := by
  unfold pot; rw [if_neg (by omega)]; rfl
theorem pot_nil (L : Nat) : pot L ([] : List (List α)) = 0 := rfl
theorem pot_one (L : Nat) (l : List α) : pot L [l] = l.length - L := by simp [pot]
theorem pot_le (L : Nat) : ∀ lists : List (List α), pot L lists ≤ fars L lists
  | [] => Nat.le_refl _
  | [l] => by rw [pot_one, fars_cons]; unfold far; omega
  | _ :: _ :: _ => by rw [pot_many (by simp)]; exact Nat.le_refl _

/-- Replacing one sublist. -/
theorem pot_set (L : Nat) (A C : List (List α)) (l l' : List α) {c : Nat} (hc : l'.length - L ≤ (l.length - L) + c)
    (hf : far L l'.length ≤ far L l.length + c) : pot L (A ++ l' :: C) ≤ pot L (A ++ l :: C) + c := by
  by_cases h : A = [] ∧ C = []
  · obtain ⟨rfl, rfl⟩ := h
    simp only [List.nil_append, pot_one]
    exact hc
  · have h2 : 1 ≤ A.length + C.length := by
      rcases Nat.eq_zero_or_pos (A.length + C.length) with h0 | h0
      · exact absurd ⟨List.length_eq_zero_iff.1 (by omega), List.length_eq_zero_iff.1 (by omega)⟩ h
      · exact h0
    rw [pot_many (by simp; omega), pot_many (by simp; omega)]
    simp only [fars_append, fars_cons]
    omega

/-- What one call does to the sublists and the index, and spends on them.  `c` is the rise of the potential. -/
structure Moves (w c : Nat) (s s' : St α κ) (d : Calls) : Prop where
  load : s'.load = s.load
  built : d.built = 0
  shape : s.load / 2 * d.reshaped + pot s.load s'.lists ≤ pot s.load s.lists + c
  shift : ∀ K, s.lists.length ≤ K → d.shifted ≤ (w + 1) * (K * d.reshaped + 1)
  index : s.index ≠ [] → s'.index ≠ [] ∨ 0 < d.reshaped

theorem bumpPath_spends {σ : Type} (f : Nat → Except PyErr Nat) (s : σ) : ∀ (child : Nat) (index : List Nat),
    Spends (Counted.bumpPath f index child) s fun r s' d => s' = s ∧ d.built = 0 ∧ d.shifted = 0 ∧ d.reshaped = 0 ∧
      ∀ i, r = .ok i → i.length = index.length := by
  intro child
  induction child using Nat.strongRecOn with
  | _ child ih =>
    intro index
    rw [Counted.bumpPath]
    refine .visiting_bind (.lift_bind (fun x _ => .lift_bind (fun y _ => ?_) ?_) ?_)
    · split
      · exact .pure ⟨rfl, rfl, rfl, rfl, fun i e => by cases e; simp⟩
      · refine (ih ((child - 1) / 2) (by omega) _).mono fun r s' d h => ?_
        simpa using h
    all_goals exact fun e _ => ⟨rfl, rfl, rfl, rfl, fun _ h => nomatch h⟩

theorem touchIndex_spends (f : Nat → Except PyErr Nat) (p : Nat) (s : St α κ) :
    Spends (Counted.touchIndex f p) s fun _ s' d => s'.lists = s.lists ∧ s'.load = s.load ∧ d.built = 0 ∧ d.shifted = 0 ∧
      d.reshaped = 0 ∧ (s.index ≠ [] → s'.index ≠ []) := by
  refine .get_bind (.ite (fun _ => .pure ⟨rfl, rfl, rfl, rfl, rfl, id⟩) fun hne => ?_)
  refine .bind (bumpPath_spends f s _ _) (fun i s' d h => .free ?_) (fun e s' d h => ?_)
  · obtain ⟨rfl, h1, h2, h3, h4⟩ := h
    refine ⟨rfl, rfl, ?_, ?_, ?_, fun _ e => ?_⟩
    · simpa using h1
    · simpa using h2
    · simpa using h3
    · have h4 := h4 i rfl
      have e : i = [] := e
      rw [e] at h4
      exact hne (List.length_eq_zero_iff.1 h4.symm)
  · obtain ⟨rfl, h1, h2, h3, -⟩ := h
    exact ⟨rfl, rfl, h1, h2, h3, id⟩

/-- What `_expand` does to the sublists `A ++ B :: C` at position `len(A)`. -/
def Expands (w : Nat) (A : List (List α)) (B : List α) (C : List (List α)) (s s' : St α κ) (d : Calls) : Prop :=
  s'.load = s.load ∧ d.built = 0 ∧
  (B.length ≤ 2 * s.load ∧ s'.lists = A ++ B :: C ∧ d.reshaped = 0 ∧ d.shifted = 0 ∧ (s.index ≠ [] → s'.index ≠ []) ∨
   2 * s.load < B.length ∧ s'.lists = A ++ B.take s.load :: B.drop s.load :: C ∧ d.reshaped = 1 ∧
     d.shifted = (w + 1) * (s.lists.length - A.length))

theorem getItem_mid {A C : List (List α)} {B l : List α} (h : getItem (A ++ B :: C) A.length = .ok l) : l = B := by
  rw [getItem_ok_iff] at h
  simpa using h.symm

theorem set_mid (A C : List (List α)) (B l : List α) : (A ++ B :: C).set A.length l = A ++ l :: C := by simp

theorem insertAt_mid (A C : List (List α)) (B l : List α) : insertAt (A ++ B :: C) (A.length + 1) l = A ++ B :: l :: C := by
  unfold insertAt
  rw [List.take_append, List.drop_append, List.take_of_length_le (by omega), List.drop_eq_nil_of_le (by omega)]
  simp

/-- Adding a value to a sublist, then `_expand`. -/
theorem Moves.of_add {w : Nat} {A C : List (List α)} {B B1 : List α} {s s1 s' s'' : St α κ} {d d' : Calls}
    (h : Expands w A B1 C s1 s' d) (hl : s.lists = A ++ B :: C)
    (hB : B.length ≤ 2 * s.load) (hB1 : B1.length = B.length + 1) (hl1 : s1.lists = A ++ B1 :: C) (hload : s1.load = s.load)
    (hix : s1.index = s.index) (e1 : s''.lists = s'.lists) (e2 : s''.load = s'.load)
    (e3 : s''.index = s'.index) (d1 : d'.built = d.built) (d2 : d'.shifted = d.shifted) (d3 : d'.reshaped = d.reshaped) :
    Moves w 1 s s'' d' := by
  obtain ⟨h1, h2, h⟩ := h
  refine ⟨by rw [e2, h1, hload], by omega, ?_, fun K hK => ?_, ?_⟩
  · rw [e1, d3, hl]
    rcases h with ⟨h3, h4, h5, h6, h7⟩ | ⟨h3, h4, h5, h6⟩
    · rw [h4, h5, Nat.mul_zero, Nat.zero_add]
      exact pot_set _ _ _ _ _ (by omega) (by unfold far; omega)
    · rw [h4, h5, hload, Nat.mul_one]
      rw [hload] at h3
      have hm := pot_many (L := s.load) (lists := A ++ B1.take s.load :: B1.drop s.load :: C) (by simp; omega)
      rw [hm]
      have hsum : s.load + fars s.load A + fars s.load C ≤ pot s.load (A ++ B :: C) := by
        by_cases h : A = [] ∧ C = []
        · obtain ⟨rfl, rfl⟩ := h
          simp only [List.nil_append, pot_one]
          simp [fars]; omega
        · rw [pot_many]
          · rw [fars_append, fars_cons]; unfold far; omega
          · rw [List.length_append, List.length_cons]
            rcases Nat.eq_zero_or_pos (A.length + C.length) with h0 | h0
            · exact absurd ⟨List.length_eq_zero_iff.1 (by omega), List.length_eq_zero_iff.1 (by omega)⟩ h
            · omega
      simp only [fars_append, fars_cons, List.length_take, List.length_drop]
      unfold far
      omega
  · rw [d2, d3]
    rcases h with ⟨h3, h4, h5, h6, h7⟩ | ⟨h3, h4, h5, h6⟩
    · rw [h6]; exact Nat.zero_le _
    · rw [h6, h5]
      refine Nat.mul_le_mul_left _ ?_
      rw [hl] at hK
      rw [hl1]
      simp only [List.length_append, List.length_cons] at hK ⊢
      omega
  · intro hne
    rw [d3, e3]
    rcases h with ⟨h3, h4, h5, h6, h7⟩ | ⟨h3, h4, h5, h6⟩
    · exact .inl (h7 (by rw [hix]; exact hne))
    · exact .inr (by omega)

/-- Deleting a value from a sublist, merging it with a neighbour, then `_expand`.  `u` and `v` are the lengths of the two
neighbours before, `Z` is the merged sublist. -/
theorem Moves.of_merge {w : Nat} {A C : List (List α)} {U V Z : List α} {s s1 s' : St α κ} {d d' : Calls} (h : Expands w A Z C s1 s' d)
    (hl : s.lists = A ++ U :: V :: C)
    (hU : U.length ≤ 2 * s.load) (hV : V.length ≤ 2 * s.load) (hload0 : 1 ≤ s.load)
    (hZ : Z.length + 1 = U.length + V.length) (hsmall : U.length ≤ s.load / 2 + 1 ∨ V.length ≤ s.load / 2 + 1)
    (hne : 1 ≤ U.length ∧ 1 ≤ V.length)
    (hl1 : s1.lists = A ++ Z :: C) (hload : s1.load = s.load)
    (d1 : d'.built = d.built) (d2 : d'.shifted ≤ (w + 1) * (s.lists.length - (A.length + 1)) + d.shifted)
    (d3 : d'.reshaped = 1 + d.reshaped) : Moves w 2 s s' d' := by
  obtain ⟨h1, h2, h⟩ := h
  refine ⟨by rw [h1, hload], by omega, ?_, fun K hK => ?_, fun _ => .inr (by omega)⟩
  · rw [d3]
    have hm := pot_many (L := s.load) (lists := A ++ U :: V :: C) (by simp; omega)
    rw [hl, hm]
    refine Nat.le_trans (Nat.add_le_add_left (pot_le _ _) _) ?_
    rcases h with ⟨h3, h4, h5, h6, h7⟩ | ⟨h3, h4, h5, h6⟩
    · rw [h4, h5]
      rw [hload] at h3
      simp only [fars_append, fars_cons]
      unfold far
      omega
    · rw [h4, h5, hload]
      rw [hload] at h3
      simp only [fars_append, fars_cons, List.length_take, List.length_drop]
      unfold far
      omega
  · have hlen : s1.lists.length + 1 = s.lists.length := by rw [hl, hl1]; simp; omega
    rcases h with ⟨h3, h4, h5, h6, h7⟩ | ⟨h3, h4, h5, h6⟩
    · rw [d3, h5]
      have : (w + 1) * (s.lists.length - (A.length + 1)) ≤ (w + 1) * (K * (1 + 0) + 1) := Nat.mul_le_mul_left _ (by omega)
      omega
    · rw [d3, h5]
      have : (w + 1) * (s.lists.length - (A.length + 1)) + (w + 1) * (s1.lists.length - A.length) ≤ (w + 1) * (K * (1 + 1) + 1) := by
        rw [← Nat.mul_add]
        exact Nat.mul_le_mul_left _ (by omega)
      omega

/-- Deleting a value from a sublist that stays. -/
theorem Moves.of_shrink {w : Nat} {A C : List (List α)} {B B1 : List α} {s s' : St α κ} {d : Calls} (hl : s.lists = A ++ B :: C)
    (hB : B1.length + 1 = B.length) (hl' : s'.lists = A ++ B1 :: C) (hload : s'.load = s.load) (hix : s.index ≠ [] → s'.index ≠ [])
    (d1 : d.built = 0) (d2 : d.shifted = 0) (d3 : d.reshaped = 0) : Moves w 2 s s' d := by
  refine ⟨hload, d1, ?_, fun K _ => by omega, fun h => .inl (hix h)⟩
  rw [d3, hl, hl', Nat.mul_zero, Nat.zero_add]
  exact pot_set _ _ _ _ _ (by omega) (by unfold far; omega)

end

theorem SL.expand_spends {α : Type} {s : St α α} {A C : List (List α)} {B : List α} (hl : s.lists = A ++ B :: C) :
    Spends (Counted.SL.expand A.length) s fun r s' d => ∀ a, r = .ok a → Expands 1 A B C s s' d := by
  refine .get_bind (.lift_bind (fun l hg => ?_) fun _ _ _ h => nomatch h)
  rw [hl] at hg
  cases getItem_mid hg
  refine .ite (fun hlong => ?_) fun hshort => ?_
  · refine .moving_bind (.shifting_bind (.reshaping_bind (.modify_bind (.lift_bind (fun _ _ => .lift_bind (fun _ _ =>
      .modify_bind (.modify_bind (.lift_bind (fun _ _ => .modify_bind (.free ?_)) ?_))) ?_) ?_))))
    · intro a _
      refine ⟨rfl, rfl, .inr ⟨by omega, ?_, rfl, by simp⟩⟩
      show insertAt (s.lists.set A.length _) (A.length + 1) _ = _
      rw [hl, set_mid, insertAt_mid]
    all_goals exact fun _ _ _ h => nomatch h
  · refine (touchIndex_spends _ _ _).mono fun r s' d h a _ => ?_
    obtain ⟨h1, h2, h3, h4, h5, h6⟩ := h
    exact ⟨h2, h3, .inl ⟨by omega, h1.trans hl, h5, h4, h6⟩⟩

theorem SKL.expand_spends {α κ : Type} {s : St α κ} {key : α → κ} {A C : List (List α)} {B : List α} (hl : s.lists = A ++ B :: C)
    (hk : s.keys = s.lists.map (List.map key)) :
    Spends (Counted.SKL.expand A.length) s fun r s' d => ∀ a, r = .ok a → Expands 2 A B C s s' d := by
  refine .get_bind (.lift_bind (fun ks hks => ?_) fun _ _ _ h => nomatch h)
  have hks : ks = B.map key := by
    rw [getItem_ok_iff, hk, hl] at hks
    simpa using hks.symm
  subst hks
  refine .ite (fun hlong => .lift_bind (fun l hg => ?_) fun _ _ _ h => nomatch h) fun hshort => ?_
  · rw [hl] at hg
    cases getItem_mid hg
    refine .moving_bind (.shifting_bind (.reshaping_bind (.modify_bind (.modify_bind (.lift_bind (fun _ _ => .lift_bind (fun _ _ =>
      .modify_bind (.modify_bind (.modify_bind (.lift_bind (fun _ _ => .modify_bind (.free ?_)) ?_)))) ?_) ?_)))))
    · intro a _
      rw [List.length_map] at hlong
      refine ⟨rfl, rfl, .inr ⟨by omega, ?_, rfl, by simp⟩⟩
      show insertAt (s.lists.set A.length _) (A.length + 1) _ = _
      rw [hl, set_mid, insertAt_mid]
    all_goals exact fun _ _ _ h => nomatch h
  · rw [List.length_map] at hshort
    refine (touchIndex_spends _ _ _).mono fun r s' d h a _ => ?_
    obtain ⟨h1, h2, h3, h4, h5, h6⟩ := h
    exact ⟨h2, h3, .inl ⟨by omega, h1.trans hl, h5, h4, h6⟩⟩


/-! ## Adding and deleting one value -/

section
variable {α κ : Type}

theorem split_getItem {L : List (List α)} {p : Nat} {l : List α} (h : getItem L p = .ok l) :
    ∃ A C, L = A ++ l :: C ∧ p = A.length := by
  rw [getItem_ok_iff] at h
  obtain ⟨hp, e⟩ := List.getElem?_eq_some_iff.1 h
  refine ⟨L.take p, L.drop (p + 1), ?_, by rw [List.length_take]; omega⟩
  rw [← e, List.getElem_cons_drop hp, List.take_append_drop]

theorem length_delItem_eq {β : Type} {l l' : List β} {i : Nat} (h : delItem l i = .ok l') : l'.length + 1 = l.length := by
  unfold delItem at h
  split at h
  · cases h; rw [List.length_eraseIdx, if_pos (by assumption)]; omega
  · cases h

theorem delItem_mid {A C : List (List α)} {B : List α} {L : List (List α)} (h : delItem (A ++ B :: C) A.length = .ok L) : L = A ++ C := by
  unfold delItem at h
  rw [if_pos (by simp)] at h
  cases h
  simp [List.eraseIdx_append_of_length_le]

end

macro "noerr" : tactic => `(tactic| exact fun _ _ _ h => nomatch h)

namespace SL
variable {α : Type} {lt : α → α → Bool} {s : St α α}

theorem delete_spends (h : Inv id lt false s) (p i : Nat) :
    Spends (Counted.SL.delete p i) s fun r s' d => ∀ a, r = .ok a → Moves 1 2 s s' d := by
  refine .get_bind (.lift_bind (fun l hg => ?_) (by noerr))
  obtain ⟨A, C, hl, rfl⟩ := split_getItem hg
  have hup := h.upper
  have hnn := h.ne_nil
  have hlp := h.load_pos
  refine .moving_bind (.lift_bind (fun l' hl' => .modify_bind (.lift_bind (fun n _ => .modify_bind ?_) (by noerr))) (by noerr))
  have hlen := length_delItem_eq hl'
  refine .ite (fun hbig => ?_) fun hsmall => .ite (fun h2 => ?_) fun h1 => .ite (fun h0 => ?_) fun h0 => ?_
  · refine .lift_bind (fun _ _ => .lift_bind (fun _ _ => .modify_bind ?_) (by noerr)) (by noerr)
    refine (touchIndex_spends _ _ _).mono fun r s' d ⟨e1, e2, e3, e4, e5, e6⟩ _ _ => ?_
    refine .of_shrink hl hlen ?_ e2 e6 (by simpa using e3) (by simpa using e4) (by simpa using e5)
    rw [e1]; show s.lists.set _ _ = _
    rw [hl, set_mid]
  · refine .get_bind ?_
    cases A with
    | nil =>
      cases C with
      | nil => rw [hl] at h2; simp at h2
      | cons c C =>
        simp only [hl, List.nil_append, List.length_nil, List.set_cons_zero, if_true, Nat.zero_add, Nat.sub_self]
        refine .lift_bind (fun a ha => .lift_bind (fun b hb => ?_) (by noerr)) (by noerr)
        cases ha; cases hb
        refine .moving_bind (.shifting_bind (.reshaping_bind (.modify_bind (.lift_bind (fun _ _ => .lift_bind (fun _ _ => .modify_bind
          (.get_bind (.lift_bind (fun L hL => .modify_bind (.lift_bind (fun _ _ => .modify_bind (.modify_bind ?_)) (by noerr)))
            (by noerr)))) (by noerr)) (by noerr)))))
        have eL : L = [] ++ (l' ++ c) :: C := by cases hL; simp
        refine (expand_spends (A := []) eL).mono fun r s' d hq a ha => ?_
        have hU := hup l (by rw [hl]; simp)
        have hV := hup c (by rw [hl]; simp)
        have hU0 := List.length_pos_iff.2 (hnn l (by rw [hl]; simp))
        have hV0 := List.length_pos_iff.2 (hnn c (by rw [hl]; simp))
        refine .of_merge (U := l) (V := c) (hq a ha) hl (by omega) (by omega) hlp (by rw [List.length_append]; omega) (.inl (by omega))
          ⟨hU0, hV0⟩ eL rfl (by simp) ?_ (by simp)
        rw [hl]; simp
    | cons a0 A0 =>
      have hA : a0 :: A0 ≠ [] := by simp
      generalize hAA : a0 :: A0 = A at *
      obtain ⟨A', a, rfl⟩ : ∃ A' a, A = A' ++ [a] := ⟨_, _, (List.dropLast_concat_getLast hA).symm⟩
      clear hAA hA
      have hpos : ¬ A'.length + 1 = 0 := by omega
      have hprev : A'.length + 1 - 1 = A'.length := by simp
      have hidx : (A' ++ [a]).length = A'.length + 1 := by simp
      have hl2 : s.lists = A' ++ a :: l :: C := by rw [hl]; simp
      have hset : s.lists.set (A'.length + 1) l' = A' ++ a :: l' :: C := by rw [hl2]; simp [List.set_append]
      simp only [if_neg hpos, hprev, hidx, hset]
      refine .lift_bind (fun x hx => .lift_bind (fun b hb => ?_) (by noerr)) (by noerr)
      cases getItem_mid hx
      have hb : b = l' := by
        rw [show A' ++ a :: l' :: C = (A' ++ [a]) ++ l' :: C by simp, ← hidx] at hb
        exact getItem_mid hb
      subst hb
      refine .moving_bind (.shifting_bind (.reshaping_bind (.modify_bind (.lift_bind (fun _ _ => .lift_bind (fun _ _ => .modify_bind
        (.get_bind (.lift_bind (fun L hL => .modify_bind (.lift_bind (fun _ _ => .modify_bind (.modify_bind ?_)) (by noerr)))
          (by noerr)))) (by noerr)) (by noerr)))))
      have eL : L = A' ++ (a ++ b) :: C := by
        have hL : delItem ((A' ++ a :: b :: C).set A'.length (a ++ b)) (A'.length + 1) = .ok L := hL
        rw [show (A' ++ a :: b :: C).set A'.length (a ++ b) = (A' ++ [a ++ b]) ++ b :: C by simp, show A'.length + 1 = (A' ++ [a ++ b]).length by simp] at hL
        rw [delItem_mid hL]; simp
      refine (expand_spends eL).mono fun r s' d hq y hy => ?_
      have hU := hup a (by rw [hl2]; simp)
      have hV := hup l (by rw [hl2]; simp)
      have hU0 := List.length_pos_iff.2 (hnn a (by rw [hl2]; simp))
      have hV0 := List.length_pos_iff.2 (hnn l (by rw [hl2]; simp))
      refine .of_merge (U := a) (V := l) (hq y hy) hl2 (by omega) (by omega) hlp (by rw [List.length_append]; omega) (.inr (by omega))
        ⟨hU0, hV0⟩ eL rfl (by simp) ?_ (by simp)
      rw [hl2]; simp
  · refine .lift_bind (fun _ _ => .lift_bind (fun _ _ => .free fun _ _ => ?_) (by noerr)) (by noerr)
    refine .of_shrink hl hlen ?_ rfl id rfl rfl rfl
    show s.lists.set _ _ = _
    rw [hl, set_mid]
  · refine .get_bind (.shifting_bind (.lift_bind (fun L hL => .modify_bind (.lift_bind (fun _ _ => .modify_bind (.free fun _ _ => ?_))
      (by noerr))) (by noerr)))
    have hAC : A = [] ∧ C = [] := by
      rw [hl] at h1
      simp at h1
      exact ⟨List.length_eq_zero_iff.1 (by omega), List.length_eq_zero_iff.1 (by omega)⟩
    obtain ⟨rfl, rfl⟩ := hAC
    have hL : L = [] := by
      rw [show s.lists.set ([] : List (List α)).length l' = [l'] by rw [hl]; rfl] at hL
      cases hL; rfl
    refine ⟨rfl, rfl, ?_, fun K hK => ?_, fun hne => ?_⟩
    · show _ + pot s.load L ≤ _
      rw [hL, pot_nil]; simp
    · rw [hl] at hK ⊢
      simp at hK ⊢
    · have := (h.index_ok hne).2
      rw [hl] at this; simp at this

end SL

section
variable {α κ : Type}

theorem delItem_map {β γ : Type} {f : β → γ} {l l' : List β} {k' : List γ} {i : Nat} (hk : delItem (l.map f) i = .ok k')
    (hl : delItem l i = .ok l') : k' = l'.map f := by
  unfold delItem at hk hl
  rw [List.length_map] at hk
  split at hl
  · rw [if_pos (by assumption)] at hk
    cases hk; cases hl
    rw [List.eraseIdx_eq_take_drop_succ, List.eraseIdx_eq_take_drop_succ, List.map_append, List.map_take, List.map_drop]
  · cases hl

theorem eq_of_getItem_map {β γ : Type} {f : β → γ} {l : List β} {b : β} {c : γ} {i : Nat} (hk : getItem (l.map f) i = .ok c)
    (hl : getItem l i = .ok b) : c = f b := by
  rw [getItem_ok_iff] at hk hl
  rw [List.getElem?_map, hl] at hk
  simpa using hk.symm

end

namespace SKL
variable {α κ : Type} {key : α → κ} {klt : κ → κ → Bool} {s : St α κ}

theorem delete_spends (h : Inv key klt true s) (p i : Nat) :
    Spends (Counted.SKL.delete p i) s fun r s' d => ∀ a, r = .ok a → Moves 2 2 s s' d := by
  have hkeys := h.keys_eq rfl
  refine .get_bind (.lift_bind (fun ks hks => .lift_bind (fun l hg => ?_) (by noerr)) (by noerr))
  rw [hkeys] at hks
  cases eq_of_getItem_map hks hg
  obtain ⟨A, C, hl, rfl⟩ := split_getItem hg
  have hup := h.upper
  have hnn := h.ne_nil
  have hlp := h.load_pos
  refine .moving_bind (.lift_bind (fun ks' hks' => .modify_bind (.lift_bind (fun l' hl' => .modify_bind
    (.lift_bind (fun n _ => .modify_bind ?_) (by noerr))) (by noerr))) (by noerr))
  cases delItem_map hks' hl'
  have hlen := length_delItem_eq hl'
  have hkl : s.keys.length = s.lists.length := by rw [hkeys, List.length_map]
  refine .ite (fun hbig => ?_) fun hsmall => .ite (fun h2 => ?_) fun h1 => .ite (fun h0 => ?_) fun h0 => ?_
  · refine .lift_bind (fun _ _ => .lift_bind (fun _ _ => .modify_bind ?_) (by noerr)) (by noerr)
    refine (touchIndex_spends _ _ _).mono fun r s' d ⟨e1, e2, e3, e4, e5, e6⟩ _ _ => ?_
    refine .of_shrink hl hlen ?_ e2 e6 (by simpa using e3) (by simpa using e4) (by simpa using e5)
    rw [e1]; show s.lists.set _ _ = _
    rw [hl, set_mid]
  · rw [List.length_map] at hsmall
    refine .get_bind ?_
    cases A with
    | nil =>
      cases C with
      | nil => rw [hkl, hl] at h2; simp at h2
      | cons c C =>
        have hset : s.lists.set 0 l' = l' :: c :: C := by rw [hl]; rfl
        have hkset : s.keys.set 0 (l'.map key) = (l' :: c :: C).map (List.map key) := by rw [hkeys, hl]; rfl
        simp only [List.length_nil, hset, hkset, if_true, Nat.zero_add, Nat.sub_self]
        refine .lift_bind (fun ka ha => .lift_bind (fun kb hb => .modify_bind ?_) (by noerr)) (by noerr)
        refine .lift_bind (fun a ha' => .lift_bind (fun b hb' => ?_) (by noerr)) (by noerr)
        cases ha; cases hb; cases ha'; cases hb'
        refine .moving_bind (.shifting_bind (.reshaping_bind (.modify_bind (.lift_bind (fun _ _ => .lift_bind (fun _ _ => .modify_bind
          (.get_bind (.lift_bind (fun L hL => .modify_bind (.lift_bind (fun L' hL' => .modify_bind (.lift_bind (fun _ _ =>
            .modify_bind (.modify_bind ?_)) (by noerr))) (by noerr)))
            (by noerr)))) (by noerr)) (by noerr)))))
        have eL : L = [] ++ (l' ++ c) :: C := by cases hL; simp
        have eL' : L' = L.map (List.map key) := by rw [eL]; cases hL'; simp
        refine (expand_spends (A := []) (key := key) eL eL').mono fun r s' d hq a ha => ?_
        have hU := hup l (by rw [hl]; simp)
        have hV := hup c (by rw [hl]; simp)
        have hU0 := List.length_pos_iff.2 (hnn l (by rw [hl]; simp))
        have hV0 := List.length_pos_iff.2 (hnn c (by rw [hl]; simp))
        refine .of_merge (U := l) (V := c) (hq a ha) hl (by omega) (by omega) hlp (by rw [List.length_append]; omega) (.inl (by omega))
          ⟨hU0, hV0⟩ eL rfl (by simp) ?_ (by simp)
        rw [hl]; simp
    | cons a0 A0 =>
      have hA : a0 :: A0 ≠ [] := by simp
      generalize hAA : a0 :: A0 = A at *
      obtain ⟨A', a, rfl⟩ : ∃ A' a, A = A' ++ [a] := ⟨_, _, (List.dropLast_concat_getLast hA).symm⟩
      clear hAA hA
      have hpos : ¬ A'.length + 1 = 0 := by omega
      have hprev : A'.length + 1 - 1 = A'.length := by simp
      have hidx : (A' ++ [a]).length = A'.length + 1 := by simp
      have hl2 : s.lists = A' ++ a :: l :: C := by rw [hl]; simp
      have hset : s.lists.set (A'.length + 1) l' = A' ++ a :: l' :: C := by rw [hl2]; simp [List.set_append]
      have hkset : s.keys.set (A'.length + 1) (l'.map key) = (A' ++ a :: l' :: C).map (List.map key) := by
        rw [hkeys, ← hset, List.map_set]
      simp only [if_neg hpos, hprev, hidx, hset, hkset]
      refine .lift_bind (fun ka hka => .lift_bind (fun kb hkb => .modify_bind ?_) (by noerr)) (by noerr)
      refine .lift_bind (fun x hx => .lift_bind (fun b hb => ?_) (by noerr)) (by noerr)
      cases eq_of_getItem_map hka hx
      cases eq_of_getItem_map hkb hb
      cases getItem_mid hx
      have hb : b = l' := by
        have hb : getItem (A' ++ a :: l' :: C) (A'.length + 1) = .ok b := hb
        rw [show A' ++ a :: l' :: C = (A' ++ [a]) ++ l' :: C by simp, ← hidx] at hb
        exact getItem_mid hb
      subst hb
      refine .moving_bind (.shifting_bind (.reshaping_bind (.modify_bind (.lift_bind (fun _ _ => .lift_bind (fun _ _ => .modify_bind
          (.get_bind (.lift_bind (fun L hL => .modify_bind (.lift_bind (fun L' hL' => .modify_bind (.lift_bind (fun _ _ =>
            .modify_bind (.modify_bind ?_)) (by noerr))) (by noerr)))
            (by noerr)))) (by noerr)) (by noerr)))))
      have hL : delItem ((A' ++ a :: b :: C).set A'.length (a ++ b)) (A'.length + 1) = .ok L := hL
      have hL' : delItem (((A' ++ a :: b :: C).map (List.map key)).set A'.length (a.map key ++ b.map key)) (A'.length + 1) = .ok L' := hL'
      have eL' : L' = L.map (List.map key) := by
        rw [← List.map_append, ← List.map_set] at hL'
        exact delItem_map hL' hL
      have eL : L = A' ++ (a ++ b) :: C := by
        rw [show (A' ++ a :: b :: C).set A'.length (a ++ b) = (A' ++ [a ++ b]) ++ b :: C by simp, show A'.length + 1 = (A' ++ [a ++ b]).length by simp] at hL
        rw [delItem_mid hL]; simp
      refine (expand_spends (key := key) eL eL').mono fun r s' d hq y hy => ?_
      have hU := hup a (by rw [hl2]; simp)
      have hV := hup l (by rw [hl2]; simp)
      have hU0 := List.length_pos_iff.2 (hnn a (by rw [hl2]; simp))
      have hV0 := List.length_pos_iff.2 (hnn l (by rw [hl2]; simp))
      refine .of_merge (U := a) (V := l) (hq y hy) hl2 (by omega) (by omega) hlp (by rw [List.length_append]; omega) (.inr (by omega))
        ⟨hU0, hV0⟩ eL rfl (by simp) ?_ (by simp)
      rw [hl2]; simp
  · refine .lift_bind (fun _ _ => .lift_bind (fun _ _ => .free fun _ _ => ?_) (by noerr)) (by noerr)
    refine .of_shrink hl hlen ?_ rfl id rfl rfl rfl
    show s.lists.set _ _ = _
    rw [hl, set_mid]
  · refine .get_bind (.shifting_bind (.lift_bind (fun L hL => .modify_bind (.lift_bind (fun _ _ => .modify_bind (.lift_bind (fun _ _ =>
      .modify_bind (.free fun _ _ => ?_)) (by noerr))) (by noerr))) (by noerr)))
    have hAC : A = [] ∧ C = [] := by
      rw [hkl, hl] at h1
      simp at h1
      exact ⟨List.length_eq_zero_iff.1 (by omega), List.length_eq_zero_iff.1 (by omega)⟩
    obtain ⟨rfl, rfl⟩ := hAC
    have hL : L = [] := by
      rw [show s.lists.set ([] : List (List α)).length l' = [l'] by rw [hl]; rfl] at hL
      cases hL; rfl
    refine ⟨rfl, rfl, ?_, fun K hK => ?_, fun hne => ?_⟩
    · show _ + pot s.load L ≤ _
      rw [hL, pot_nil]; simp
    · rw [hl] at hK ⊢
      simp at hK ⊢
    · have := (h.index_ok hne).2
      rw [hl] at this; simp at this

end SKL
end Verif
