import Verif.Proofs.API
/-!
# Plain-language consequences of the specification

What the specification says about ordinary lists, in the terms used by the property theorems.
-/

namespace Verif
variable {σ α β : Type} {O : Spec.Order α}

theorem Refines.run {I : σ → Prop} {abs : σ → List α} {m : Py σ β} {f : Py (List α) β} (h : Refines I abs m f) {s : σ}
    (hs : I s) : ∃ s', m s = ((f (abs s)).1, s') ∧ abs s' = (f (abs s)).2 := by
  obtain ⟨h1, h2, _⟩ := h s hs
  exact ⟨(m s).2, by rw [← h1], h2⟩

/-- `eraseP` drops the first match. -/
theorem eraseP_cases (p : α → Bool) (l : List α) :
    (∃ A y B, l = A ++ y :: B ∧ p y = true ∧ (∀ z ∈ A, p z = false) ∧ l.eraseP p = A ++ B) ∨
    ((∀ y ∈ l, p y = false) ∧ l.eraseP p = l) := by
  induction l with
  | nil => exact .inr ⟨by simp, rfl⟩
  | cons x l ih =>
    cases hx : p x with
    | true => exact .inl ⟨[], x, l, rfl, hx, by simp, by simp [hx]⟩
    | false =>
      rcases ih with ⟨A, y, B, rfl, hy, hA, e⟩ | ⟨h, e⟩
      · refine .inl ⟨x :: A, y, B, rfl, hy, ?_, by simp [hx, e]⟩
        intro z hz
        rcases List.mem_cons.1 hz with rfl | hz
        · exact hx
        · exact hA z hz
      · refine .inr ⟨?_, by simp [hx, e]⟩
        intro z hz
        rcases List.mem_cons.1 hz with rfl | hz
        · exact hx
        · exact h z hz

theorem any_eq_true_iff {p : α → Bool} {l : List α} : l.any p = true ↔ ∃ y ∈ l, p y = true := by simp

theorem position_nonneg {len n : Nat} (h : n < len) : Spec.position len n = some n := by
  unfold Spec.position; rw [if_pos (by omega)]; simp

theorem position_neg {len n : Nat} (h : n < len) : Spec.position len (-(n : Int) - 1) = some (len - 1 - n) := by
  unfold Spec.position; rw [if_neg (by omega), if_pos (by omega)]; congr 1; omega

theorem position_out {len : Nat} {i : Int} (h : (len : Int) ≤ i ∨ i < -(len : Int)) : Spec.position len i = none := by
  unfold Spec.position; rw [if_neg (by omega), if_neg (by omega)]

/-- Every subscript is of one of three kinds. -/
theorem position_cases (len : Nat) (i : Int) :
    (∃ n, n < len ∧ i = n ∧ Spec.position len i = some n) ∨
    (∃ n, n < len ∧ i = -(n : Int) - 1 ∧ Spec.position len i = some (len - 1 - n)) ∨
    (((len : Int) ≤ i ∨ i < -(len : Int)) ∧ Spec.position len i = none) := by
  by_cases h1 : (len : Int) ≤ i ∨ i < -(len : Int)
  · exact .inr (.inr ⟨h1, position_out h1⟩)
  · by_cases h2 : 0 ≤ i
    · obtain ⟨n, rfl⟩ := Int.eq_ofNat_of_zero_le h2
      exact .inl ⟨n, by omega, rfl, position_nonneg (by omega)⟩
    · obtain ⟨n, hn⟩ := Int.eq_ofNat_of_zero_le (show 0 ≤ -i - 1 by omega)
      obtain rfl : i = -(n : Int) - 1 := by omega
      exact .inr (.inl ⟨n, by omega, rfl, position_neg (by omega)⟩)

theorem position_lt {len : Nat} {i : Int} {p : Nat} (h : Spec.position len i = some p) : p < len := by
  unfold Spec.position at h
  split at h
  · cases h; omega
  · split at h
    · cases h; omega
    · cases h

/-! ## Sequences compared lexicographically -/

theorem SeqEq.length_eq {lt : α → α → Bool} {l r : List α} (h : SeqEq lt l r) : l.length = r.length := by
  induction h with
  | nil => rfl
  | cons _ _ ih => simp [ih]

theorem seqEq_cons {lt : α → α → Bool} {a b : α} {as bs : List α} :
    SeqEq lt (a :: as) (b :: bs) ↔ equiv lt a b = true ∧ SeqEq lt as bs :=
  ⟨fun h => by cases h with | cons h1 h2 => exact ⟨h1, h2⟩, fun h => .cons h.1 h.2⟩

theorem seqLt_cons {lt : α → α → Bool} {a b : α} {as bs : List α} :
    SeqLt lt (a :: as) (b :: bs) ↔ lt a b = true ∨ (equiv lt a b = true ∧ SeqLt lt as bs) :=
  ⟨fun h => by
    cases h with
    | head h => exact .inl h
    | tail h1 h2 => exact .inr ⟨h1, h2⟩,
   fun h => by
    rcases h with h | ⟨h1, h2⟩
    · exact .head h
    · exact .tail h1 h2⟩

theorem compareFrom_seqCmp {lt : α → α → Bool} (h : StrictWeakOrder lt) (op : CmpOp) (l r : List α) (n : Nat)
    (hlen : op = .eq ∨ op = .ne → l.length = r.length) :
    ∃ b, Spec.compareFrom (fun op a b => .ok (op.ofLt lt a b)) op (n + l.length) (n + r.length) (l.zip r) = .ok b ∧
      (b = true ↔ SeqCmp lt op l r) := by
  induction l generalizing r n with
  | nil =>
    simp only [List.zip_nil_left, Spec.compareFrom]
    refine ⟨_, rfl, ?_⟩
    cases r with
    | nil =>
      have e1 : SeqEq lt ([] : List α) [] := .nil
      have e2 : ¬ SeqLt lt ([] : List α) [] := fun h => nomatch h
      cases op <;> simp [CmpOp.onNat, SeqCmp, e1, e2]
    | cons b bs =>
      have e1 : ¬ SeqEq lt ([] : List α) (b :: bs) := fun h => nomatch h
      have e2 : SeqLt lt ([] : List α) (b :: bs) := .nil
      have e3 : ¬ SeqLt lt (b :: bs) ([] : List α) := fun h => nomatch h
      cases op with
      | eq => simp at hlen
      | ne => simp at hlen
      | _ => simp [CmpOp.onNat, SeqCmp, e1, e2, e3]
  | cons a as ih =>
    cases r with
    | nil =>
      simp only [List.zip_nil_right, Spec.compareFrom]
      refine ⟨_, rfl, ?_⟩
      have e1 : ¬ SeqEq lt (a :: as) ([] : List α) := fun h => nomatch h
      have e2 : SeqLt lt ([] : List α) (a :: as) := .nil
      have e3 : ¬ SeqLt lt (a :: as) ([] : List α) := fun h => nomatch h
      cases op with
      | eq => simp at hlen
      | ne => simp at hlen
      | _ => simp [CmpOp.onNat, SeqCmp, e1, e2, e3]
    | cons b bs =>
      simp only [List.zip_cons_cons, Spec.compareFrom]
      cases e : equiv lt a b with
      | true =>
        have : CmpOp.ofLt lt .ne a b = false := by simp [CmpOp.ofLt, e]
        rw [this]
        obtain ⟨c, h1, h2⟩ := ih bs (n + 1) (by simpa using hlen)
        refine ⟨c, ?_, h2.trans ?_⟩
        · rw [← h1]; simp only [List.length_cons]; congr 1 <;> omega
        · have e' : equiv lt b a = true := by rw [equiv_symm]; exact e
          have e2 : lt a b = false ∧ lt b a = false := by simpa [equiv] using e
          cases op <;> simp [SeqCmp, seqEq_cons, seqLt_cons, e, e', e2]
      | false =>
        have : CmpOp.ofLt lt .ne a b = true := by simp [CmpOp.ofLt, e]
        rw [this]
        refine ⟨_, rfl, ?_⟩
        have e' : equiv lt b a = false := by rw [equiv_symm]; exact e
        cases op with
        | eq => simp [CmpOp.ofLt, SeqCmp, seqEq_cons, e]
        | ne => simp [CmpOp.ofLt, SeqCmp, seqEq_cons, e]
        | lt => simp [CmpOp.ofLt, SeqCmp, seqLt_cons, e]
        | gt => simp [CmpOp.ofLt, SeqCmp, seqLt_cons, e']
        | le =>
          simp only [CmpOp.ofLt, SeqCmp, seqLt_cons, seqEq_cons, e]
          cases h1 : lt a b with
          | true => simp [h.asymm _ _ h1]
          | false =>
            have : lt b a = true := by simpa [equiv, h1] using e
            simp [this]
        | ge =>
          simp only [CmpOp.ofLt, SeqCmp, seqLt_cons, seqEq_cons, e, e']
          cases h1 : lt a b with
          | true => simp [h.asymm _ _ h1]
          | false =>
            have : lt b a = true := by simpa [equiv, h1] using e
            simp [this]

theorem compare_seqCmp {lt : α → α → Bool} (h : StrictWeakOrder lt) (op : CmpOp) (l r : List α) :
    ∃ b, Spec.compare (Spec.Order.ofValues lt) op r l = (.ok b, l) ∧ (b = true ↔ SeqCmp lt op l r) := by
  unfold Spec.compare
  by_cases h1 : l.length ≠ r.length ∧ op = .eq
  · rw [if_pos h1]
    obtain ⟨h1, rfl⟩ := h1
    exact ⟨false, rfl, by simpa [SeqCmp] using fun h => h1 h.length_eq⟩
  · rw [if_neg h1]
    by_cases h2 : l.length ≠ r.length ∧ op = .ne
    · rw [if_pos h2]
      obtain ⟨h2, rfl⟩ := h2
      exact ⟨true, rfl, by simpa [SeqCmp] using fun h => h2 h.length_eq⟩
    · rw [if_neg h2]
      obtain ⟨b, e, hb⟩ := compareFrom_seqCmp h op l r 0 (by
        rintro (rfl | rfl)
        · simpa using h1
        · simpa using h2)
      refine ⟨b, ?_, hb⟩
      simp only [Nat.zero_add] at e
      show (Spec.compareFrom (fun op a b => .ok (op.ofLt lt a b)) op l.length r.length (l.zip r), l) = _
      rw [e]

/-! ## Queries and failed calls leave a list alone -/

theorem Spec.out_snd {β' : Type} (f : β' → Out α) (m : Py σ β') (s : σ) : (Spec.out f m s).2 = (m s).2 := by
  unfold Spec.out
  split <;> rename_i e <;> rw [e]

theorem Spec.out_error {β' : Type} {f : β' → Out α} {m : Py σ β'} {s : σ} {e : PyErr}
    (h : (Spec.out f m s).1 = .error e) : (m s).1 = .error e := by
  unfold Spec.out at h
  split at h
  · cases h
  · rename_i e'; rw [e']; cases h; rfl

theorem Spec.step_query (op : Op α) (h : op.isQuery = true) (l : List α) : (Spec.step O op l).2 = l := by
  cases op <;> simp only [Op.isQuery] at h <;> first | contradiction | skip
  all_goals simp only [Spec.step, Spec.out_snd]
  case getInt i => simp only [Spec.getInt]; split <;> rfl
  case getSlice sl => simp only [Spec.getSlice]; split <;> rfl
  case index v a b => simp only [Spec.index]; split <;> rfl
  case islice a b r => simp only [Spec.islice]; split <;> rfl
  case compare op other => simp only [Spec.compare]; split <;> first | rfl | (split <;> rfl)
  all_goals rfl

theorem Spec.step_error (op : Op α) (l : List α) {e : PyErr} (h : (Spec.step O op l).1 = .error e) :
    (Spec.step O op l).2 = l := by
  cases op <;> simp only [Spec.step, Spec.out_snd] at * <;> replace h := Spec.out_error h
  case remove v =>
    simp only [Spec.remove] at *
    split at h
    · cases h
    · rename_i hn; rw [if_neg hn]
  case getInt i => simp only [Spec.getInt]; split <;> rfl
  case getSlice sl => simp only [Spec.getSlice]; split <;> rfl
  case delInt i => simp only [Spec.delInt] at *; split at h <;> simp_all
  case delSlice sl => simp only [Spec.delSlice] at *; split at h <;> simp_all
  case pop i =>
    simp only [Spec.pop] at *
    split at h
    · simp_all
    · split at h <;> simp_all
  case index v a b => simp only [Spec.index]; split <;> rfl
  case islice a b r => simp only [Spec.islice]; split <;> rfl
  case compare op other => simp only [Spec.compare]; split <;> first | rfl | (split <;> rfl)
  case unsupported u => rfl
  all_goals first | rfl | (exact absurd h (by intro h; cases h))

/-- Which errors a call can raise. -/
theorem Spec.index_cases (v : α) (start stop : Option Int) (l : List α) :
    let lo := Spec.indexBound l.length 0 start
    let hi := Spec.indexBound l.length l.length stop
    (∃ (n : Nat) (y : α), Spec.index O v start stop l = (.ok (n : Int), l) ∧ lo ≤ n ∧ (n : Int) < hi ∧
      l[n]? = some y ∧ O.same y v = true ∧
      ∀ (m : Nat) (z : α), lo ≤ m → m < n → l[m]? = some z → O.same z v = false) ∨
    (Spec.index O v start stop l = (.error .valueError, l) ∧
      ∀ (m : Nat) (z : α), lo ≤ m → (m : Int) < hi → l[m]? = some z → O.same z v = false) := by
  intro lo hi
  unfold Spec.index
  simp only
  split
  · rename_i n e
    refine .inl ⟨n, ?_⟩
    have h1 := List.find?_some e
    simp only [Bool.and_eq_true, decide_eq_true_eq, Option.any_eq_true] at h1
    obtain ⟨⟨h1, h2⟩, y, h3, h4⟩ := h1
    refine ⟨y, rfl, h1, h2, h3, h4, ?_⟩
    intro m z hm hmn hz
    rw [List.find?_range_eq_some] at e
    have := e.2.2 m hmn
    simp only [Bool.not_eq_true', Bool.and_eq_false_iff, decide_eq_false_iff_not] at this
    rcases this with (h | h) | h
    · exact absurd hm h
    · exact absurd (show (m : Int) < hi by omega) h
    · simpa [hz] using h
  · rename_i e
    refine .inr ⟨rfl, ?_⟩
    intro m z hm hmn hz
    rw [List.find?_eq_none] at e
    have hml : m < l.length := (List.getElem?_eq_some_iff.1 hz).1
    have := e m (by simpa using hml)
    simp only [Bool.not_eq_true, Bool.and_eq_false_iff, decide_eq_false_iff_not] at this
    rcases this with (h | h) | h
    · exact absurd hm h
    · exact absurd hmn h
    · simpa [hz] using h

theorem Spec.kstep_query {κ : Type} {key : α → κ} {klt : κ → κ → Bool} (op : KOp α κ) (h : op.isQuery = true)
    (l : List α) : (Spec.kstep key klt O op l).2 = l := by
  cases op with
  | op o => exact Spec.step_query o h l
  | bisectKeyLeft k => rfl
  | bisectKeyRight k => rfl
  | irangeKey lo hi a b r => rfl

theorem Spec.kstep_error {κ : Type} {key : α → κ} {klt : κ → κ → Bool} (op : KOp α κ) (l : List α) {e : PyErr}
    (h : (Spec.kstep key klt O op l).1 = .error e) : (Spec.kstep key klt O op l).2 = l := by
  cases op with
  | op o => exact Spec.step_error o l h
  | bisectKeyLeft k => rfl
  | bisectKeyRight k => rfl
  | irangeKey lo hi a b r => rfl

/-! ## Stability over a history -/

theorem deletePositions_sublist (ps : List Nat) (l : List α) : (Spec.deletePositions ps l).Sublist l := by
  unfold Spec.deletePositions
  have := (List.filter_sublist (p := fun x : α × Nat => !ps.contains x.2) (l := l.zipIdx)).map Prod.fst
  rwa [List.zipIdx_map_fst] at this

/-- Every call but `*=` removes some values and then inserts the new ones. -/
theorem Spec.step_sublist (op : Op α) (hm : ∀ n, op ≠ .imul n) (l : List α) :
    ∃ l', l'.Sublist l ∧ (Spec.step O op l).2 = Spec.insertAll O l' op.inserted := by
  cases op with
  | add v => exact ⟨l, List.Sublist.refl l, by simp [Spec.step, Spec.out_snd, Spec.add, Op.inserted, Spec.insertAll]⟩
  | update xs => exact ⟨l, List.Sublist.refl l, rfl⟩
  | iadd xs => exact ⟨l, List.Sublist.refl l, rfl⟩
  | imul n => exact absurd rfl (hm n)
  | clear => exact ⟨[], List.nil_sublist l, rfl⟩
  | discard v => exact ⟨_, List.eraseP_sublist, rfl⟩
  | remove v =>
    simp only [Spec.step, Spec.out_snd, Spec.remove]
    split
    · exact ⟨_, List.eraseP_sublist, rfl⟩
    · exact ⟨l, List.Sublist.refl l, rfl⟩
  | delInt i =>
    simp only [Spec.step, Spec.out_snd, Spec.delInt]
    split
    · exact ⟨_, List.eraseIdx_sublist _ _, rfl⟩
    · exact ⟨l, List.Sublist.refl l, rfl⟩
  | delSlice sl =>
    simp only [Spec.step, Spec.out_snd, Spec.delSlice]
    split
    · exact ⟨l, List.Sublist.refl l, rfl⟩
    · exact ⟨_, deletePositions_sublist _ l, rfl⟩
  | pop i =>
    simp only [Spec.step, Spec.out_snd, Spec.pop]
    split
    · exact ⟨l, List.Sublist.refl l, rfl⟩
    · split
      · exact ⟨_, List.eraseIdx_sublist _ _, rfl⟩
      · exact ⟨l, List.Sublist.refl l, rfl⟩
  | reset load => exact ⟨l, List.Sublist.refl l, rfl⟩
  | unsupported u => exact ⟨l, List.Sublist.refl l, rfl⟩
  | _ => exact ⟨l, List.Sublist.refl l, Spec.step_query _ rfl l⟩

theorem Spec.kstep_sublist {κ : Type} {key : α → κ} {klt : κ → κ → Bool} (op : KOp α κ) (hm : ∀ n, op ≠ .op (.imul n))
    (l : List α) : ∃ l', l'.Sublist l ∧ (Spec.kstep key klt O op l).2 = Spec.insertAll O l' op.inserted := by
  cases op with
  | op o => exact Spec.step_sublist o (fun n h => hm n (by rw [h])) l
  | bisectKeyLeft k => exact ⟨l, List.Sublist.refl l, rfl⟩
  | bisectKeyRight k => exact ⟨l, List.Sublist.refl l, rfl⟩
  | irangeKey lo hi a b r => exact ⟨l, List.Sublist.refl l, rfl⟩

theorem Spec.hist_sublist {κ : Type} {key : α → κ} {klt : κ → κ → Bool} (hO : StrictWeakOrder O.lt)
    (ops : List (KOp α κ)) (hm : ∀ op ∈ ops, ∀ n, op ≠ .op (.imul n)) (l acc : List α) (hl : Sorted O.lt l) (v : α)
    (h : (l.filter (equiv O.lt v)).Sublist (acc.filter (equiv O.lt v))) :
    ((runHist (Spec.kstep key klt O) ops l).2.filter (equiv O.lt v)).Sublist
      ((acc ++ ops.flatMap KOp.inserted).filter (equiv O.lt v)) := by
  induction ops generalizing l acc with
  | nil => simpa [runHist] using h
  | cons op ops ih =>
    obtain ⟨l', h1, h2⟩ := Spec.kstep_sublist (O := O) (key := key) (klt := klt) op (hm op (by simp)) l
    have hl' : Sorted O.lt l' := List.Pairwise.sublist h1 hl
    have hst := Spec.insertAll_isStableSort hO hl' op.inserted
    simp only [runHist]
    have := ih (fun o ho => hm o (by simp [ho])) (Spec.kstep key klt O op l).2 (acc ++ op.inserted)
      (by rw [h2]; exact hst.sorted) (by
        rw [h2, hst.stable, List.filter_append, List.filter_append]
        exact List.Sublist.append ((h1.filter _).trans h) (List.Sublist.refl _))
    simpa [List.append_assoc] using this

theorem Spec.hist_insertAll {κ : Type} {key : α → κ} {klt : κ → κ → Bool} (ops : List (KOp α κ))
    (hk : ∀ op ∈ ops, op.keeps = true) (l : List α) :
    (runHist (Spec.kstep key klt O) ops l).2 = Spec.insertAll O l (ops.flatMap KOp.inserted) := by
  induction ops generalizing l with
  | nil => rfl
  | cons op ops ih =>
    have hop := hk op (by simp)
    have h : (Spec.kstep key klt O op l).2 = Spec.insertAll O l op.inserted := by
      cases op with
      | op o =>
        cases o <;> simp only [KOp.keeps, KOp.isQuery, Op.isQuery, Bool.false_eq_true] at hop <;>
          first | rfl | exact Spec.step_query _ rfl l
      | bisectKeyLeft k => rfl
      | bisectKeyRight k => rfl
      | irangeKey lo hi a b r => rfl
    simp only [runHist]
    rw [ih (fun o ho => hk o (by simp [ho])), h]
    simp [Spec.insertAll, List.foldl_append]

end Verif
