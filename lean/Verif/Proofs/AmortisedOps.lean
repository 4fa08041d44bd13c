import Verif.Proofs.Amortised
/-!
# What each metered call does to the sublists and the index
-/

namespace Verif

/-! ## Programs that only look -/

section
variable {α κ β γ : Type}

/-- From every object, `mc` keeps an index that is there, and leaves an index if it has built one. -/
def Keep (mc : CPy (St α κ) β) : Prop :=
  ∀ s, Spends mc s fun _ s' d => (s.index ≠ [] → s'.index ≠ []) ∧ (d.built = 0 ∨ s'.index ≠ [])

namespace Keep

theorem bind {mc : CPy (St α κ) γ} {fc : γ → CPy (St α κ) β} (h : Keep mc) (hf : ∀ a, Keep (fc a)) : Keep (mc >>= fc) := by
  intro s
  refine .bind (h s) (fun a s1 d ⟨h1, h2⟩ => (hf a s1).mono fun r s' d' ⟨h3, h4⟩ => ⟨fun h => h3 (h1 h), ?_⟩) (fun _ _ _ h => h)
  rcases h4 with h4 | h4
  · rcases h2 with h2 | h2
    · exact .inl (by simp [h2, h4])
    · exact .inr (h3 h2)
  · exact .inr h4

theorem pure (b : β) : Keep (Pure.pure b : CPy (St α κ) β) := fun _ => .pure ⟨id, .inl rfl⟩
theorem get : Keep (CPy.free Py.get : CPy (St α κ) _) := fun _ => .free ⟨id, .inl rfl⟩
theorem raise (e : PyErr) : Keep (CPy.free (Py.raise e) : CPy (St α κ) β) := fun _ => .free ⟨id, .inl rfl⟩
theorem lift (x : Except PyErr β) : Keep (CPy.free (Py.lift x) : CPy (St α κ) β) := fun _ => .free ⟨id, .inl rfl⟩
theorem counts {mc : CPy (St α κ) β} (h : ∀ s, ∃ B x, B.built = 0 ∧ Counts B mc (Py.lift x) s) : Keep mc := by
  intro s
  obtain ⟨B, x, h0, h⟩ := h s
  exact .counts h fun d hd => ⟨id, .inl (by have := (Calls.le_iff.1 hd).2.2.2.1; omega)⟩
theorem comparing (x : Except PyErr β) : Keep (Counted.comparing x : CPy (St α κ) β) := counts fun _ => ⟨_, x, rfl, .comparing x⟩
theorem keying (x : Except PyErr β) : Keep (Counted.keying x : CPy (St α κ) β) := counts fun _ => ⟨_, x, rfl, .keying x⟩
theorem visiting : Keep (Counted.visiting : CPy (St α κ) _) := fun _ k => ⟨{ node := 1 }, rfl, id, .inl rfl⟩
theorem ite {p : Prop} [Decidable p] {a b : CPy (St α κ) β} (h1 : Keep a) (h2 : Keep b) : Keep (if p then a else b) := by
  split
  · exact h1
  · exact h2
theorem out {f : β → Out γ} {mc : CPy (St α κ) β} (h : Keep mc) : Keep (Spec.out f mc) := by
  intro s
  refine Spends.bind (mc := mc) (h s) (fun a s' d h => .pure ?_) fun _ _ _ h => h
  rw [Calls.add_zero]; exact h
theorem bisectLeft {δ : Type} (f : δ → δ → Except PyErr Bool) (l : List δ) (v : δ) :
    Keep (Counted.bisectLeft (fun a b => Counted.comparing (f a b)) l v : CPy (St α κ) _) :=
  counts fun s => ⟨_, _, rfl, bisectLeft_counts f l v s⟩
theorem bisectRight {δ : Type} (f : δ → δ → Except PyErr Bool) (l : List δ) (v : δ) :
    Keep (Counted.bisectRight (fun a b => Counted.comparing (f a b)) l v : CPy (St α κ) _) :=
  counts fun s => ⟨_, _, rfl, bisectRight_counts f l v s⟩

end Keep

/-- Goes through a program step by step. -/
macro "keep" : tactic => `(tactic| repeat' first
  | exact Keep.pure _ | exact Keep.get | exact Keep.raise _ | exact Keep.lift _ | exact Keep.visiting
  | exact Keep.bisectLeft _ _ _ | exact Keep.bisectRight _ _ _ | exact Keep.comparing _ | exact Keep.keying _
  | assumption
  | refine Keep.ite ?_ ?_ | refine Keep.bind ?_ fun _ => ?_ | split)

theorem ensureIndex_keep (ilog2 : Nat → Nat) : Keep (Counted.ensureIndex ilog2 : CPy (St α κ) Unit) := by
  intro s
  refine .get_bind (.ite (fun he k => ?_) fun _ => .pure ⟨id, .inl rfl⟩)
  refine ⟨{ built := (Core.buildIndex ilog2 s).2.index.length }, rfl, fun h => absurd he h, ?_⟩
  show (Core.buildIndex ilog2 s).2.index.length = 0 ∨ (Core.buildIndex ilog2 s).2.index ≠ []
  by_cases h : (Core.buildIndex ilog2 s).2.index = []
  · exact .inl (by rw [h]; rfl)
  · exact .inr h

theorem locLoop_keep (index : List Nat) : ∀ pos total, Keep (Counted.locLoop index pos total : CPy (St α κ) Nat) := by
  intro pos
  induction pos using Nat.strongRecOn with
  | _ pos ih =>
    intro total
    rw [Counted.locLoop]
    split
    · exact .pure _
    · have h1 := fun t => ih ((pos - 1) / 2) (by omega) t
      refine .bind .visiting fun _ => .ite (.bind (.lift _) fun x => h1 _) (h1 _)

theorem loc_keep (ilog2 : Nat → Nat) (p i : Nat) : Keep (Counted.loc ilog2 p i : CPy (St α κ) Nat) :=
  .ite (.pure _) (.bind (ensureIndex_keep _) fun _ => .bind .get fun _ => .bind (locLoop_keep _ _ _) fun _ => .pure _)

theorem posLoop_keep (index : List Nat) : ∀ n child pos idx, index.length - child ≤ n →
    Keep (Counted.posLoop index pos child idx : CPy (St α κ) _) := by
  intro n
  induction n with
  | zero =>
    intro child pos idx h
    rw [Counted.posLoop, dif_neg (by omega)]
    exact .pure _
  | succ n ih =>
    intro child pos idx h
    rw [Counted.posLoop]
    split
    · exact .bind .visiting fun _ => .ite (ih _ _ _ (by omega)) (ih _ _ _ (by omega))
    · exact .pure _

theorem pos_keep (ilog2 : Nat → Nat) (i : Int) : Keep (Counted.pos ilog2 i : CPy (St α κ) _) := by
  have hn : ∀ n, Keep (Counted.posNonneg ilog2 n : CPy (St α κ) _) := by
    intro n
    unfold Counted.posNonneg
    refine .bind .get fun _ => .bind (.lift _) fun _ => .ite (.pure _) (.bind (ensureIndex_keep _) fun _ => .bind .get fun _ =>
      .bind (posLoop_keep _ _ _ _ _ (Nat.le_refl _)) fun _ => ?_)
    keep
  unfold Counted.pos
  refine .bind .get fun _ => .ite (.bind (.lift _) fun _ => .ite (.pure _) (.ite (.raise _) (hn _))) (.ite (.raise _) (hn _))

theorem getInt_keep (ilog2 : Nat → Nat) (i : Int) : Keep (Counted.getInt ilog2 i : CPy (St α κ) α) := by
  have := pos_keep (α := α) (κ := κ) ilog2 i
  unfold Counted.getInt
  keep

end

/-- The same, with the walks in the index. -/
macro "keeps" : tactic => `(tactic| repeat' first
  | exact Keep.pure _ | exact Keep.get | exact Keep.raise _ | exact Keep.lift _ | exact Keep.visiting
  | exact Keep.bisectLeft _ _ _ | exact Keep.bisectRight _ _ _ | exact Keep.comparing _ | exact Keep.keying _
  | exact loc_keep _ _ _ | exact pos_keep _ _ | assumption
  | refine Keep.ite ?_ ?_ | refine Keep.bind ?_ fun _ => ?_ | split | dsimp only)

namespace SL
variable {α : Type} (E : Env α)

theorem contains_keep (v : α) : Keep (Counted.SL.contains E.metered v) := by
  unfold Counted.SL.contains; keeps
theorem bisect_left_keep (v : α) : Keep (Counted.SL.bisect_left E.metered v) := by
  unfold Counted.SL.bisect_left; keeps
theorem bisect_right_keep (v : α) : Keep (Counted.SL.bisect_right E.metered v) := by
  unfold Counted.SL.bisect_right; keeps
theorem count_keep (v : α) : Keep (Counted.SL.count E.metered v) := by
  unfold Counted.SL.count; keeps
theorem index_keep (v : α) (a b : Option Int) : Keep (Counted.SL.index E.metered v a b) := by
  have := bisect_right_keep E v
  unfold Counted.SL.index; keeps
theorem irange_keep (lo hi : Option α) (a b r : Bool) : Keep (Counted.SL.irange E.metered lo hi a b r) := by
  unfold Counted.SL.irange; keeps

theorem step_keep {op : Op α} (h : op.search = true) : Keep (Counted.SL.step E.metered op) := by
  cases op with
  | contains v => exact (contains_keep E v).out
  | getInt i => exact (getInt_keep E.ilog2 i).out
  | bisectLeft v => exact (bisect_left_keep E v).out
  | bisectRight v => exact (bisect_right_keep E v).out
  | count v => exact (count_keep E v).out
  | index v a b => exact (index_keep E v a b).out
  | irange lo hi a b r => exact (irange_keep E lo hi a b r).out
  | _ => cases h

end SL

namespace SKL
variable {α κ : Type} (K : KEnv α κ)

theorem bisect_key_left_keep (v : κ) : Keep (Counted.SKL.bisect_key_left K.metered v) := by
  unfold Counted.SKL.bisect_key_left; keeps
theorem bisect_key_right_keep (v : κ) : Keep (Counted.SKL.bisect_key_right K.metered v) := by
  unfold Counted.SKL.bisect_key_right; keeps
theorem bisect_left_keep (v : α) : Keep (Counted.SKL.bisect_left K.metered v) :=
  .bind (.keying _) fun _ => bisect_key_left_keep K _
theorem bisect_right_keep (v : α) : Keep (Counted.SKL.bisect_right K.metered v) :=
  .bind (.keying _) fun _ => bisect_key_right_keep K _
theorem irange_key_keep (lo hi : Option κ) (a b r : Bool) : Keep (Counted.SKL.irange_key K.metered lo hi a b r) := by
  unfold Counted.SKL.irange_key; keeps
theorem keyOpt_keep (x : Option α) : Keep (Counted.SKL.keyOpt K.metered x) := by
  cases x
  · exact .pure _
  · exact .bind (.keying _) fun _ => .pure _
theorem irange_keep (lo hi : Option α) (a b r : Bool) : Keep (Counted.SKL.irange K.metered lo hi a b r) :=
  .bind (keyOpt_keep K _) fun _ => .bind (keyOpt_keep K _) fun _ => irange_key_keep K _ _ _ _ _

theorem findLoop_keep (lists : List (List α)) (keys : List (List κ)) (v : α) (key : κ) (p x n : Nat) :
    Keep (Counted.SKL.findLoop K.metered lists keys v key p x n) := by
  fun_induction Counted.SKL.findLoop K.metered lists keys v key p x n with
  | case1 => exact .raise _
  | case2 => exact .raise _
  | case3 p x n ks hk k hx ih1 ih2 =>
    keeps
    exact ih1 _

theorem find_keep (v : α) : Keep (Counted.SKL.find K.metered v) := by
  have := findLoop_keep K
  unfold Counted.SKL.find; keeps
  exact this _ _ _ _ _ _ _
theorem contains_keep (v : α) : Keep (Counted.SKL.contains K.metered v) := by
  have := find_keep K v
  unfold Counted.SKL.contains; keeps

theorem countLoop_keep (lists : List (List α)) (keys : List (List κ)) (v : α) (key : κ) (p x n t : Nat) :
    Keep (Counted.SKL.countLoop K.metered lists keys v key p x n t) := by
  fun_induction Counted.SKL.countLoop K.metered lists keys v key p x n t with
  | case1 => exact .raise _
  | case2 => exact .raise _
  | case3 p x n t ks hk k hx ih1 ih2 =>
    keeps
    all_goals first | exact ih1 true _ | exact ih1 false _ | exact ih2 true | exact ih2 false

theorem count_keep (v : α) : Keep (Counted.SKL.count K.metered v) := by
  have := countLoop_keep K
  unfold Counted.SKL.count; keeps
  exact this _ _ _ _ _ _ _ _

theorem indexLoop_keep (lists : List (List α)) (keys : List (List κ)) (v : α) (key : κ) (a b : Int) (p x n : Nat) :
    Keep (Counted.SKL.indexLoop K.metered lists keys v key a b p x n) := by
  fun_induction Counted.SKL.indexLoop K.metered lists keys v key a b p x n with
  | case1 => exact .raise _
  | case2 => exact .raise _
  | case3 p x n ks hk k hx ih1 ih2 =>
    keeps
    all_goals first | exact ih1 _ | exact ih2

theorem index_keep (v : α) (a b : Option Int) : Keep (Counted.SKL.index K.metered v a b) := by
  have := indexLoop_keep K
  unfold Counted.SKL.index; keeps
  all_goals exact this _ _ _ _ _ _ _ _ _

theorem step_keep {op : KOp α κ} (h : op.search = true) : Keep (Counted.SKL.step K.metered op) := by
  cases op with
  | op o =>
    cases o with
    | contains v => exact (contains_keep K v).out
    | getInt i => exact (getInt_keep K.ilog2 i).out
    | bisectLeft v => exact (bisect_left_keep K v).out
    | bisectRight v => exact (bisect_right_keep K v).out
    | count v => exact (count_keep K v).out
    | index v a b => exact (index_keep K v a b).out
    | irange lo hi a b r => exact (irange_keep K lo hi a b r).out
    | _ => cases h
  | bisectKeyLeft k => exact (bisect_key_left_keep K k).out
  | bisectKeyRight k => exact (bisect_key_right_keep K k).out
  | irangeKey lo hi a b r => exact (irange_key_keep K lo hi a b r).out

end SKL

/-! ## The bill of a call, and of a history -/

section
variable {α κ β : Type} {w K : Nat} {s s' s'' : St α κ} {d d' : Calls}

/-- What is owed for the index: a new one has at most three entries per sublist. -/
def owed (K : Nat) (s : St α κ) : Nat := if s.index = [] then 3 * K else 0

/-- What `a` adds and `r` deletions spend at most, with never more than `K` sublists. -/
structure Bill (w K a r : Nat) (s s' : St α κ) (d : Calls) : Prop where
  load : s'.load = s.load
  shape : s.load / 2 * d.reshaped + pot s.load s'.lists ≤ pot s.load s.lists + (a + 2 * r)
  shift : d.shifted ≤ (w + 1) * (K * d.reshaped + (a + r))
  index : d.built + owed K s' ≤ owed K s + 3 * K * d.reshaped
  move : d.moved ≤ (a + r) * (w * (12 * s.load))

theorem Bill.refl (s : St α κ) : Bill w K 0 0 s s 0 :=
  ⟨rfl, by simp, by simp, by simp, by simp⟩

theorem Bill.trans {a r a' r' : Nat} (h : Bill w K a r s s' d) (h' : Bill w K a' r' s' s'' d') :
    Bill w K (a + a') (r + r') s s'' (d + d') := by
  obtain ⟨h1, h2, h3, h4, h5⟩ := h
  obtain ⟨g1, g2, g3, g4, g5⟩ := h'
  rw [h1] at g1 g2 g5
  refine ⟨g1, ?_, ?_, ?_, ?_⟩
  · rw [Calls.add_reshaped, Nat.mul_add]; omega
  · rw [Calls.add_reshaped, Calls.add_shifted, show (w + 1) * (K * (d.reshaped + d'.reshaped) + (a + a' + (r + r'))) =
      (w + 1) * (K * d.reshaped + (a + r)) + (w + 1) * (K * d'.reshaped + (a' + r')) by
        rw [← Nat.mul_add, Nat.mul_add K]; congr 1; omega]
    omega
  · rw [Calls.add_reshaped, Calls.add_built, Nat.mul_add]; omega
  · rw [Calls.add_moved, show a + a' + (r + r') = (a + r) + (a' + r') by omega, Nat.add_mul]; omega

/-- A look, which may build the index. -/
structure Look (s s' : St α κ) (d : Calls) : Prop where
  re : Reindexed s s'
  keep : s.index ≠ [] → s'.index ≠ []
  kept : d.built = 0 ∨ s'.index ≠ []
  built : d.built ≤ debt s
  moved : d.moved = 0
  shifted : d.shifted = 0
  reshaped : d.reshaped = 0

theorem Look.refl (s : St α κ) (h1 : d.built = 0) (h2 : d.moved = 0) (h3 : d.shifted = 0) (h4 : d.reshaped = 0) : Look s s d :=
  ⟨.refl s, id, .inl h1, by omega, h2, h3, h4⟩

theorem Look.bill (h : Look s s' d) (hK : s.lists.length ≤ K) : Bill w K 0 0 s s' d := by
  obtain ⟨h1, h2, h3, h4, h5, h6, h7⟩ := h
  refine ⟨h1.load, by rw [h7, h1.lists]; simp, by rw [h6]; exact Nat.zero_le _, ?_, by rw [h5]; exact Nat.zero_le _⟩
  unfold owed
  unfold debt at h4
  rw [h7, Nat.mul_zero, Nat.add_zero]
  by_cases e : s.index = []
  · rw [if_pos e] at h4 ⊢
    rcases h3 with h3 | h3
    · split <;> omega
    · rw [if_neg h3]; omega
  · rw [if_neg e] at h4
    rw [if_neg e, if_neg (h2 e)]; omega

theorem Moves.bill {c a r : Nat} (h : Moves w c s s' d) (hc : c ≤ a + 2 * r) (hr : 1 ≤ a + r) (hK : s.lists.length ≤ K)
    (hm : d.moved ≤ (a + r) * (w * (12 * s.load))) : Bill w K a r s s' d := by
  refine ⟨h.load, Nat.le_trans h.shape (by omega), Nat.le_trans (h.shift K hK) (Nat.mul_le_mul_left _ (by omega)), ?_, hm⟩
  rw [h.built]
  unfold owed
  by_cases e : s.index = []
  · rw [if_pos e]; split <;> omega
  · rw [if_neg e]
    rcases h.index e with h1 | h1
    · rw [if_neg h1]; omega
    · have : 3 * K * 1 ≤ 3 * K * d.reshaped := Nat.mul_le_mul_left _ h1
      split <;> omega

theorem Bill.mono {a r a' r' : Nat} (h : Bill w K a r s s' d) (ha : a ≤ a') (hr : r ≤ r') : Bill w K a' r' s s' d := by
  obtain ⟨h1, h2, h3, h4, h5⟩ := h
  exact ⟨h1, by omega, Nat.le_trans h3 (Nat.mul_le_mul_left _ (by omega)), h4,
    Nat.le_trans h5 (Nat.mul_le_mul_right _ (by omega))⟩

/-- The metered call does what the call does, and its bill is bounded. -/
def Billed (w K a r : Nat) (mc : CPy (St α κ) β) (m : Py (St α κ) β) (s : St α κ) : Prop :=
  ∀ k, ∃ d, mc (s, k) = ((m s).1, (m s).2, k + d) ∧ Bill w K a r s (m s).2 d ∧ d.reshaped ≤ 2 * (a + r)

theorem Counts.out {σ γ : Type} {B : Calls} {mc : CPy σ β} {m : Py σ β} {s : σ} {f : β → Out γ} (h : Counts B mc m s) :
    Counts B (Spec.out f mc) (Spec.out f m) s :=
  (Counts.bind (B' := 0) h fun _ _ => .pure _).mono (by rw [Calls.add_zero]; exact Calls.le_refl _)

theorem Spends.out {σ γ : Type} {mc : CPy σ β} {s : σ} {f : β → Out γ} {Q : σ → Calls → Prop} (h : Spends mc s fun _ => Q) :
    Spends (Spec.out f mc) s fun _ => Q :=
  .bind (P := fun _ => Q) h (fun _ _ d h => .pure (by rw [Calls.add_zero]; exact h)) fun _ _ _ h => h

/-- From what a call looks at. -/
theorem Billed.look {mc : CPy (St α κ) β} {m : Py (St α κ) β} {B : Calls} (h : Counts B mc m s) (hk : Keep mc) (hq : Quiet m)
    (hB : B.built ≤ debt s ∧ B.moved = 0 ∧ B.shifted = 0 ∧ B.reshaped = 0) (hK : s.lists.length ≤ K) : Billed w K 0 0 mc m s := by
  intro k
  obtain ⟨d, hd, e, h1, h2⟩ := Spends.both h (hk s) k
  rw [Calls.le_iff] at hd
  have hl : Look s (m s).2 d := ⟨hq.reindexed s, h1, h2, by omega, by omega, by omega, by omega⟩
  exact ⟨d, e, hl.bill hK, by omega⟩

/-- From what a call spends. -/
theorem Billed.of {mc : CPy (St α κ) β} {m : Py (St α κ) β} {B : Calls} {a r : Nat} (h : Counts B mc m s)
    (hs : Spends mc s fun _ s' d => d.moved ≤ (a + r) * (w * (12 * s.load)) → Bill w K a r s s' d)
    (hB : B.moved ≤ (a + r) * (w * (12 * s.load)) ∧ B.reshaped ≤ 2 * (a + r)) : Billed w K a r mc m s := by
  intro k
  obtain ⟨d, hd, e, h1⟩ := Spends.both h hs k
  rw [Calls.le_iff] at hd
  exact ⟨d, e, h1 (by omega), by omega⟩

end


/-! ## Deletions by position -/

section
variable {α κ : Type} {k : α → κ} {lt : κ → κ → Bool} {keyed : Bool} {w K : Nat} {s : St α κ}

theorem at_of_getItem {lists : List (List α)} {p i : Nat} {l : List α} {v : α} (h1 : getItem lists p = .ok l) (h2 : getItem l i = .ok v) :
    ∃ n, At lists p i n v := by
  obtain ⟨A, C, e, rfl⟩ := split_getItem h1
  rw [getItem_ok_iff] at h2
  obtain ⟨hi, e2⟩ := List.getElem?_eq_some_iff.1 h2
  refine ⟨_, A, l.take i, l.drop (i + 1), C, ?_, rfl, ?_, rfl⟩
  · rw [e, ← e2, List.getElem_cons_drop hi, List.take_append_drop]
  · rw [List.length_take]; omega

theorem pos_spends {ilog2 : Nat → Nat} (hlog : ∀ n, 1 ≤ n → n < 2 ^ (ilog2 n + 1)) (ht : Log2Tight ilog2) (h : Ready k lt keyed s) (i : Int) :
    Spends (Counted.pos ilog2 i) s fun r s' d => Look s s' d ∧ Ready k lt keyed s' ∧ ∀ x, r = .ok x → ∃ n v, At s'.lists x.1 x.2 n v := by
  intro c
  obtain ⟨d, hd, e, h1, h2⟩ := Spends.both (pos_counts hlog ht h.inv h.snug i) (pos_keep ilog2 i s) c
  rw [Calls.le_iff] at hd
  dsimp only at hd
  have hl : Look s (Core.pos ilog2 i s).2 d :=
    ⟨(Core.pos_quiet (ilog2 := ilog2) i).reindexed s, h1, h2, by omega, by omega, by omega, by omega⟩
  rw [e]
  refine ⟨d, rfl, hl, ?_⟩
  have hs := pos_trimM hlog ht i s h.snug
  cases hn : Spec.position s.lists.flatten.length i with
  | none => rw [h.inv.pos_none hn]; exact ⟨h, fun _ hx => nomatch hx⟩
  | some n =>
    obtain ⟨p, y, v, s', e, hat, hr, hi⟩ := h.inv.pos_some hlog hn
    rw [e] at hs ⊢
    exact ⟨⟨hi, hs⟩, fun x hx => by cases hx; exact ⟨n, v, by rw [hr.lists]; exact hat⟩⟩

variable {delete : Nat → Nat → CPy (St α κ) Unit} {ilog2 : Nat → Nat}
  (hdel : ∀ s', Ready k lt keyed s' → ∀ p i n v, At s'.lists p i n v → Spends (delete p i) s' fun _ s'' d => Moves w 2 s' s'' d)
  (hlog : ∀ n, 1 ≤ n → n < 2 ^ (ilog2 n + 1)) (ht : Log2Tight ilog2) (h : Ready k lt keyed s) (hK : s.lists.length ≤ K)
include hdel hlog ht h hK

theorem delInt_bill (i : Int) : Spends (Counted.delInt delete ilog2 i) s fun _ s' d =>
    d.moved ≤ (0 + 1) * (w * (12 * s.load)) → Bill w K 0 1 s s' d := by
  refine .bind (pos_spends hlog ht h i) (fun x s1 d ⟨h1, h2, h3⟩ => ?_) (fun e s1 d ⟨h1, _⟩ _ => (h1.bill hK).mono (by omega) (by omega))
  obtain ⟨n, v, hat⟩ := h3 x rfl
  refine (hdel s1 h2 _ _ _ _ hat).mono fun _ s' d' hm hd => ?_
  have hb := (h1.bill (w := w) hK).trans (hm.bill (a := 0) (r := 1) (K := K) (by omega) (by omega) (by rw [h1.re.lists]; exact hK) ?_)
  · simpa using hb
  · rw [h1.re.load]; rw [Calls.add_moved, h1.moved] at hd; omega

theorem pop_bill (i : Int) : Spends (Counted.pop delete ilog2 i) s fun _ s' d =>
    d.moved ≤ (0 + 1) * (w * (12 * s.load)) → Bill w K 0 1 s s' d := by
  have hz : ∀ d : Calls, d.built = 0 → d.moved = 0 → d.shifted = 0 → d.reshaped = 0 → Bill w K 0 1 s s d := fun d h1 h2 h3 h4 =>
    ((Look.refl s h1 h2 h3 h4).bill hK).mono (by omega) (by omega)
  have hz0 : Bill w K 0 1 s s 0 := hz 0 rfl rfl rfl rfl
  have hone : ∀ s1 d1 p x n v (val : α), Look s s1 d1 → Ready k lt keyed s1 → At s1.lists p x n v →
      Spends (delete p x >>= fun _ => Pure.pure val) s1 fun _ s' d =>
        (d1 + d).moved ≤ (0 + 1) * (w * (12 * s.load)) → Bill w K 0 1 s s' (d1 + d) := by
    intro s1 d1 p x n v val hl hi hat
    refine .bind (hdel s1 hi _ _ _ _ hat) (fun _ s' d hm => .pure fun hd => ?_) (fun _ s' d hm hd => ?_)
    · rw [Calls.add_zero] at *
      have hb := (hl.bill (w := w) hK).trans (hm.bill (a := 0) (r := 1) (K := K) (by omega) (by omega) (by rw [hl.re.lists]; exact hK) ?_)
      · simpa using hb
      · rw [hl.re.load]; rw [Calls.add_moved, hl.moved] at hd; omega
    · have hb := (hl.bill (w := w) hK).trans (hm.bill (a := 0) (r := 1) (K := K) (by omega) (by omega) (by rw [hl.re.lists]; exact hK) ?_)
      · simpa using hb
      · rw [hl.re.load]; rw [Calls.add_moved, hl.moved] at hd; omega
  have hnow : ∀ p x l (val : α), getItem s.lists p = .ok l → getItem l x = .ok val →
      Spends (delete p x >>= fun _ => Pure.pure val) s fun _ s' d => d.moved ≤ (0 + 1) * (w * (12 * s.load)) → Bill w K 0 1 s s' d := by
    intro p x l val h1 h2
    obtain ⟨n, hat⟩ := at_of_getItem h1 h2
    have := hone s 0 p x n val val (Look.refl s rfl rfl rfl rfl) h hat
    simpa only [Calls.zero_add] using this
  refine .get_bind (.ite (fun _ => .free fun _ => hz0) fun _ => .ite (fun _ => .lift_bind (fun l hl => .lift_bind (fun v hv => hnow _ _ _ _ hl hv)
    fun _ _ _ => hz0) fun _ _ _ => hz0) fun _ => .ite (fun _ => .lift_bind (fun l hl => .lift_bind (fun v hv => hnow _ _ _ _ hl hv)
    fun _ _ _ => hz0) fun _ _ _ => hz0) fun _ => .lift_bind (fun first hf => .ite (fun _ => .lift_bind (fun v hv => hnow _ _ _ _ hf hv)
    fun _ _ _ => hz0) fun _ => .lift_bind (fun last _ => .ite (fun _ => .lift_bind (fun l hl => .lift_bind (fun v hv => hnow _ _ _ _ hl hv)
    fun _ _ _ => hz0) fun _ _ _ => hz0) fun _ => ?_) fun _ _ _ => hz0) fun _ _ _ => hz0)
  refine .bind (pos_spends hlog ht h i) (fun x s1 d ⟨h1, h2, h3⟩ => ?_) (fun e s1 d ⟨h1, _⟩ _ => (h1.bill hK).mono (by omega) (by omega))
  obtain ⟨n, v, hat⟩ := h3 x rfl
  have hb1 : Bill w K 0 1 s s1 d := (h1.bill hK).mono (by omega) (by omega)
  exact .lift_bind (fun l _ => .lift_bind (fun v _ => hone _ _ _ _ _ _ _ h1 h2 hat) fun _ _ _ => by rw [Calls.add_zero]; exact hb1)
    fun _ _ _ => by rw [Calls.add_zero]; exact hb1

end


/-- Nothing but comparisons, calls of the key function and visits. -/
structure Idle (d : Calls) : Prop where
  built : d.built = 0
  moved : d.moved = 0
  shifted : d.shifted = 0
  reshaped : d.reshaped = 0

theorem Idle.zero : Idle 0 := ⟨rfl, rfl, rfl, rfl⟩
theorem Idle.add {d d' : Calls} (h : Idle d) (h' : Idle d') : Idle (d + d') :=
  ⟨by simp [h.built, h'.built], by simp [h.moved, h'.moved], by simp [h.shifted, h'.shifted], by simp [h.reshaped, h'.reshaped]⟩
theorem Idle.le {d B : Calls} (hd : d ≤ B) (h : Idle B) : Idle d := by
  rw [Calls.le_iff] at hd
  obtain ⟨h1, h2, h3, h4⟩ := h
  exact ⟨by omega, by omega, by omega, by omega⟩
theorem Idle.cmp {d : Calls} {n k : Nat} (hd : d ≤ { cmp := n, key := k }) : Idle d := .le hd ⟨rfl, rfl, rfl, rfl⟩

theorem Moves.bill_after {α κ : Type} {w K : Nat} {s s' : St α κ} {d d' : Calls} (h : Moves w 2 s s' d') (hd : Idle d)
    (hK : s.lists.length ≤ K) (hm : (d + d').moved ≤ (0 + 1) * (w * (12 * s.load))) : Bill w K 0 1 s s' (d + d') := by
  have hb := ((Look.refl s hd.built hd.moved hd.shifted hd.reshaped).bill (w := w) hK).trans
    (h.bill (a := 0) (r := 1) (K := K) (by omega) (by omega) hK (by rw [Calls.add_moved] at hm; omega))
  simpa using hb

/-! ## SortedList -/

/-- A partial account becomes total when the call succeeds. -/
theorem Spends.of_ok {σ β : Type} {mc : CPy σ β} {m : Py σ β} {s : σ} {B : Calls} {Q : σ → Calls → Prop} (h : Counts B mc m s)
    (hs : Spends mc s fun r s' d => ∀ a, r = .ok a → Q s' d) (hok : ∃ a, (m s).1 = .ok a) : Spends mc s fun _ s' d => Q s' d := by
  intro k
  obtain ⟨a, ha⟩ := hok
  obtain ⟨d, _, e, h1⟩ := Spends.both h hs k
  rw [e]
  exact ⟨d, rfl, h1 a ha⟩

theorem len_insertAt {γ : Type} (l : List γ) (i : Nat) (x : γ) : (insertAt l i x).length = l.length + 1 := by
  unfold insertAt
  simp [List.length_take, List.length_drop]
  omega

namespace SL
variable {α : Type} {lt : α → α → Bool} {E : Env α} {s : St α α} {K : Nat}

theorem delete_moves (h : Ready id lt false s) {p i n : Nat} {v : α} (hat : At s.lists p i n v) :
    Spends (Counted.SL.delete p i) s fun _ s' d => Moves 1 2 s s' d := by
  obtain ⟨s', e, _⟩ := delete_ok h.inv hat
  exact .of_ok (delete_counts h p i) (delete_spends h.inv p i) ⟨(), by rw [e]⟩

theorem add_spends (h : Inv id lt false s) (v : α) :
    Spends (Counted.SL.add E.metered v) s fun r s' d => ∀ a, r = .ok a → Moves 1 1 s s' d := by
  have hm := h.maxes.length_eq
  refine .get_bind (.ite (fun hne => ?_) fun he => ?_)
  · refine .lifted_bind (bisectRight_counts _ _ _ _) (fun p d hd _ => .ite (fun _ => .lift_bind (fun l hg => ?_) (by noerr))
      fun _ => .lift_bind (fun l hg => ?_) (by noerr)) (fun _ _ _ _ _ h => nomatch h)
    · obtain ⟨A, C, hl, hp⟩ := split_getItem hg
      rw [hp]
      have hu := h.upper l (mem_of_getItem hg)
      rw [Calls.le_iff] at hd
      dsimp only at hd
      refine .moving_bind (.modify_bind (.modify_bind (.bind (expand_spends (A := A) (B := l ++ [v]) (C := C) ?_) (fun _ s1 d1 hx => ?_) ?_)))
      · show s.lists.set _ _ = _
        rw [hl, set_mid]
      · refine .free fun _ _ => .of_add (hx _ rfl) hl (by omega) (by simp) ?_ rfl rfl rfl rfl rfl ?_ ?_ ?_
        · show s.lists.set _ _ = _
          rw [hl, set_mid]
        all_goals simp; omega
      · exact fun _ _ _ _ _ h => nomatch h
    · obtain ⟨A, C, hl, hp⟩ := split_getItem hg
      rw [hp]
      have hu := h.upper l (mem_of_getItem hg)
      rw [Calls.le_iff] at hd
      dsimp only at hd
      refine .lifted_bind (insort_counts _ _ _ _) (fun l' d2 hd2 hl' => ?_) (fun _ _ _ _ _ h => nomatch h)
      have hlen := insort_length hl'
      rw [Calls.le_iff] at hd2
      dsimp only at hd2
      refine .modify_bind (.bind (expand_spends (A := A) (B := l') (C := C) ?_) (fun _ s1 d1 hx => ?_) ?_)
      · show s.lists.set _ _ = _
        rw [hl, set_mid]
      · refine .free fun _ _ => .of_add (hx _ rfl) hl (by omega) hlen ?_ rfl rfl rfl rfl rfl ?_ ?_ ?_
        · show s.lists.set _ _ = _
          rw [hl, set_mid]
        all_goals simp; omega
      · exact fun _ _ _ _ _ h => nomatch h
  · have he : s.lists = [] := h.maxes.nil_iff.1 (by simpa using he)
    refine .moving_bind (.shifting_bind (.modify_bind (.modify_bind (.free fun _ _ => ?_))))
    have hp := h.load_pos
    refine ⟨rfl, rfl, ?_, fun K _ => by simp, fun hne => .inl hne⟩
    show _ + pot s.load (s.lists ++ [[v]]) ≤ _
    rw [he, List.nil_append, pot_one, pot_nil]
    simp

theorem add_moves (hE : E.Lawful lt) (h : Ready id lt false s) (v : α) :
    Spends (Counted.SL.add E.metered v) s fun _ s' d => Moves 1 1 s s' d := by
  obtain ⟨s', e, _⟩ := add_ok hE h.inv v
  exact .of_ok (add_counts h h.inv.within v) (add_spends h.inv v) ⟨(), by rw [e]⟩

section
variable (h : Ready id lt false s) (hK : s.lists.length ≤ K)
include h hK

/-- What follows the search in `discard` and `remove`. -/
theorem tail_bill (v : α) {rest : CPy (St α α) Unit} (hrest : ∀ d, Idle d → Spends rest s fun _ s' d' =>
      (d + d').moved ≤ (0 + 1) * (1 * (12 * s.load)) → Bill 1 K 0 1 s s' (d + d')) :
    Spends (do
      let pos ← Counted.bisectLeft E.metered.lt s.maxes v
      if pos = s.maxes.length then rest
      else
        let l ← CPy.free (Py.lift (getItem s.lists pos))
        let idx ← Counted.bisectLeft E.metered.lt l v
        let x ← CPy.free (Py.lift (getItem l idx))
        if ← E.metered.cmp .eq x v then Counted.SL.delete pos idx
        else rest) s fun _ s' d => d.moved ≤ (0 + 1) * (1 * (12 * s.load)) → Bill 1 K 0 1 s s' d := by
  have hz : ∀ d : Calls, Idle d → Bill 1 K 0 1 s s d := fun d hd =>
    ((Look.refl s hd.built hd.moved hd.shifted hd.reshaped).bill hK).mono (by omega) (by omega)
  refine .lifted_bind (bisectLeft_counts _ _ _ _) (fun p d hd hp => ?_) (fun _ d hd _ _ => hz _ (.cmp hd))
  refine .ite (fun _ => hrest _ (.cmp hd)) fun _ => .lift_bind (fun l hl => ?_) (fun _ _ _ => hz _ ((Idle.cmp hd).add .zero))
  refine .lifted_bind (bisectLeft_counts _ _ _ _) (fun x d1 hd1 _ => ?_) (fun _ d1 hd1 _ _ => hz _ ((Idle.cmp hd).add (.cmp hd1)))
  refine .lift_bind (fun y hy => ?_) (fun _ _ _ => hz _ ((Idle.cmp hd).add ((Idle.cmp hd1).add .zero)))
  refine .lifted_bind (.comparing _) (fun b d2 hd2 _ => ?_) (fun _ d2 hd2 _ _ => hz _ ((Idle.cmp hd).add ((Idle.cmp hd1).add (.cmp hd2))))
  refine .ite (fun _ => ?_) fun _ => ?_
  · obtain ⟨n, hat⟩ := at_of_getItem hl hy
    refine (delete_moves h hat).mono fun _ s' d3 hm hd3 => ?_
    simp only [← Calls.add_assoc] at hd3 ⊢
    exact hm.bill_after (((Idle.cmp hd).add (.cmp hd1)).add (.cmp hd2)) hK hd3
  · have := hrest _ (((Idle.cmp hd).add (.cmp hd1)).add (.cmp hd2))
    simpa only [Calls.add_assoc] using this

theorem discard_bill (v : α) : Spends (Counted.SL.discard E.metered v) s fun _ s' d =>
    d.moved ≤ (0 + 1) * (1 * (12 * s.load)) → Bill 1 K 0 1 s s' d := by
  have hz : ∀ d : Calls, Idle d → Bill 1 K 0 1 s s d := fun d hd =>
    ((Look.refl s hd.built hd.moved hd.shifted hd.reshaped).bill hK).mono (by omega) (by omega)
  exact .get_bind (.ite (fun _ => .pure fun _ => hz 0 .zero) fun hne => tail_bill h hK v fun d hd => .pure fun _ => hz _ (hd.add .zero))

theorem remove_bill (v : α) : Spends (Counted.SL.remove E.metered v) s fun _ s' d =>
    d.moved ≤ (0 + 1) * (1 * (12 * s.load)) → Bill 1 K 0 1 s s' d := by
  have hz : ∀ d : Calls, Idle d → Bill 1 K 0 1 s s d := fun d hd =>
    ((Look.refl s hd.built hd.moved hd.shifted hd.reshaped).bill hK).mono (by omega) (by omega)
  exact .get_bind (.ite (fun _ => .free fun _ => hz 0 .zero) fun hne => tail_bill h hK v fun d hd => .free fun _ => hz _ (hd.add .zero))

end


theorem step_billed (hE : E.Lawful lt) (ht : Log2Tight E.ilog2) (h : Ready id lt false s) (hK : s.lists.length ≤ K) {op : Op α}
    (hop : (op.adds || op.deletes || op.search) = true) :
    Billed 1 K op.adds.toNat op.deletes.toNat (Counted.SL.step E.metered op) ((SL.api E).step op) s := by
  have hload := h.inv.load_pos
  have hb := @debt_le α α s
  have hu := h.inv.within
  have hdel : ∀ s', Ready id lt false s' → s'.lists = s.lists → s'.load = s.load → ∀ p i,
      Counts (deleteCost s 1) (Counted.SL.delete p i) ((SL.methods E).delete p i) s' := by
    intro s' h' e e' p i
    unfold deleteCost
    rw [← e, ← e']
    exact SL.delete_counts h' p i
  have hmov : ∀ s', Ready id lt false s' → ∀ p i n v, At s'.lists p i n v →
      Spends (Counted.SL.delete p i) s' fun _ s'' d => Moves 1 2 s' s'' d := fun s' h' _ _ _ _ hat => delete_moves h' hat
  cases op with
  | add v =>
    refine .of (add_counts h hu v).out (Spends.out ((add_moves hE h v).mono fun _ _ _ hm hd =>
      hm.bill (by simp [Op.adds, Op.deletes]) (by simp [Op.adds, Op.deletes]) hK hd)) ?_
    simp only [Calls.add_moved, Calls.add_reshaped, addCost, Op.adds, Op.deletes, Bool.toNat_true, Bool.toNat_false]
    omega
  | discard v =>
    refine .of (discard_counts h hu v).out (Spends.out (discard_bill h hK v)) ?_
    simp only [Calls.add_moved, Calls.add_reshaped, deleteCost, Op.adds, Op.deletes, Bool.toNat_true, Bool.toNat_false]
    omega
  | remove v =>
    refine .of (remove_counts h hu v).out (Spends.out (remove_bill h hK v)) ?_
    simp only [Calls.add_moved, Calls.add_reshaped, deleteCost, Op.adds, Op.deletes, Bool.toNat_true, Bool.toNat_false]
    omega
  | delInt i =>
    refine .of (delInt_counts (M := SL.methods E) (d := deleteCost s 1) hdel hE.ilog2 ht h i).out (Spends.out (delInt_bill hmov hE.ilog2 ht h hK i)) ?_
    simp only [Calls.add_moved, Calls.add_reshaped, deleteCost, Op.adds, Op.deletes, Bool.toNat_true, Bool.toNat_false]
    omega
  | pop i =>
    refine .of (pop_counts (M := SL.methods E) (d := deleteCost s 1) hdel hE.ilog2 ht h i).out (Spends.out (pop_bill hmov hE.ilog2 ht h hK i)) ?_
    simp only [Calls.add_moved, Calls.add_reshaped, deleteCost, Op.adds, Op.deletes, Bool.toNat_true, Bool.toNat_false]
    omega
  | contains v =>
    exact .look (contains_counts h hu v).out (step_keep E (op := .contains v) rfl) (step_quiet E (.contains v) rfl) (by simp) hK
  | getInt i =>
    exact .look (getInt_counts hE.ilog2 ht h.inv h.snug i).out (step_keep E (op := .getInt i) rfl) (step_quiet E (.getInt i) rfl) (by simp) hK
  | bisectLeft v =>
    exact .look (bisect_left_counts h hu hE.ilog2 ht v).out (step_keep E (op := .bisectLeft v) rfl) (step_quiet E (.bisectLeft v) rfl) (by simp) hK
  | bisectRight v =>
    exact .look (bisect_right_counts h hu hE.ilog2 ht v).out (step_keep E (op := .bisectRight v) rfl) (step_quiet E (.bisectRight v) rfl) (by simp) hK
  | count v =>
    exact .look (count_counts h hu hE.ilog2 ht v).out (step_keep E (op := .count v) rfl) (step_quiet E (.count v) rfl) (by simp) hK
  | index v a b =>
    exact .look (index_counts h hu hE.ilog2 ht v a b).out (step_keep E (op := .index v a b) rfl) (step_quiet E (.index v a b) rfl) (by simp) hK
  | irange lo hi a b r =>
    exact .look (irange_counts h hu lo hi a b r).out (step_keep E (op := .irange lo hi a b r) rfl) (step_quiet E (.irange lo hi a b r) rfl) (by simp) hK
  | _ => cases hop

end SL

/-! ## SortedKeyList -/

namespace SKL
variable {α κ : Type} {key : α → κ} {klt : κ → κ → Bool} {veq : α → α → Bool} {E : KEnv α κ} {s : St α κ} {K : Nat}

theorem delete_moves (h : Ready key klt true s) {p i n : Nat} {v : α} (hat : At s.lists p i n v) :
    Spends (Counted.SKL.delete p i) s fun _ s' d => Moves 2 2 s s' d := by
  obtain ⟨s', e, _⟩ := delete_ok h.inv hat
  exact .of_ok (delete_counts h p i) (delete_spends h.inv p i) ⟨(), by rw [e]⟩

theorem map_insertAt {β γ : Type} (f : β → γ) (l : List β) (i : Nat) (x : β) : insertAt (l.map f) i (f x) = (insertAt l i x).map f := by
  simp [insertAt, List.map_take, List.map_drop]

theorem add_spends (hE : E.Lawful key klt veq) (h : Inv key klt true s) (v : α) :
    Spends (Counted.SKL.add E.metered v) s fun r s' d => ∀ a, r = .ok a → Moves 2 1 s s' d := by
  have hkeys := h.keys_eq rfl
  refine .get_bind (.lifted_bind (.keying _) (fun k d0 hd0 hk => ?_) (fun _ _ _ _ _ h => nomatch h))
  rw [hE.key_ok] at hk; cases hk
  rw [Calls.le_iff] at hd0
  dsimp only at hd0
  refine .ite (fun hne => ?_) fun he => ?_
  · refine .lifted_bind (bisectRight_counts _ _ _ _) (fun p d hd _ => .ite (fun _ => .lift_bind (fun l hg => ?_) (by noerr))
      fun _ => .lift_bind (fun ks hks => ?_) (by noerr)) (fun _ _ _ _ _ h => nomatch h)
    · obtain ⟨A, C, hl, hp⟩ := split_getItem hg
      have hu := h.upper l (mem_of_getItem hg)
      rw [Calls.le_iff] at hd
      dsimp only at hd
      refine .moving_bind (.modify_bind (.lift_bind (fun ks hks => .modify_bind (.modify_bind ?_)) (by noerr)))
      rw [hkeys] at hks
      cases eq_of_getItem_map hks hg
      rw [hp]
      have e1 : s.lists.set A.length (l ++ [v]) = A ++ (l ++ [v]) :: C := by rw [hl, set_mid]
      refine .bind (expand_spends (A := A) (B := l ++ [v]) (C := C) (key := key) e1 ?_) (fun _ s1 d1 hx => ?_) (fun _ _ _ _ _ h => nomatch h)
      · show s.keys.set A.length (l.map key ++ [key v]) = (s.lists.set A.length (l ++ [v])).map (List.map key)
        rw [hkeys, List.map_set, List.map_append, List.map_singleton]
      · refine .free fun _ _ => .of_add (hx _ rfl) hl (by omega) (by simp) e1 rfl rfl rfl rfl rfl ?_ ?_ ?_
        all_goals simp; omega
    · refine .lifted_bind (bisectRight_counts _ _ _ _) (fun x d2 hd2 _ => .lift_bind (fun l hg => ?_) (by noerr)) (fun _ _ _ _ _ h => nomatch h)
      rw [hkeys] at hks
      cases eq_of_getItem_map hks hg
      obtain ⟨A, C, hl, hp⟩ := split_getItem hg
      have hu := h.upper l (mem_of_getItem hg)
      rw [Calls.le_iff] at hd hd2
      dsimp only at hd hd2
      rw [hp]
      have e1 : s.lists.set A.length (insertAt l x v) = A ++ (insertAt l x v) :: C := by rw [hl, set_mid]
      refine .moving_bind (.modify_bind (.modify_bind (.bind (expand_spends (A := A) (B := insertAt l x v) (C := C) (key := key) e1 ?_)
        (fun _ s1 d1 hx => ?_) (fun _ _ _ _ _ h => nomatch h))))
      · show s.keys.set A.length (insertAt (l.map key) x (key v)) = (s.lists.set A.length (insertAt l x v)).map (List.map key)
        rw [hkeys, List.map_set, map_insertAt]
      · refine .free fun _ _ => .of_add (hx _ rfl) hl (by omega) (len_insertAt _ _ _) e1 rfl rfl rfl rfl rfl ?_ ?_ ?_
        all_goals simp; omega
  · have he : s.lists = [] := h.maxes.nil_iff.1 (by simpa using he)
    refine .moving_bind (.shifting_bind (.modify_bind (.modify_bind (.modify_bind (.free fun _ _ => ?_)))))
    have hp := h.load_pos
    refine ⟨rfl, ?_, ?_, fun K _ => ?_, fun hne => .inl hne⟩
    · simp; omega
    · show _ + pot s.load (s.lists ++ [[v]]) ≤ _
      rw [he, List.nil_append, pot_one, pot_nil]
      have : d0.reshaped = 0 := by omega
      simp [this]
    · have : d0.shifted = 0 := by omega
      simp [this]; omega

theorem add_moves (hE : E.Lawful key klt veq) (h : Ready key klt true s) (v : α) :
    Spends (Counted.SKL.add E.metered v) s fun _ s' d => Moves 2 1 s s' d := by
  obtain ⟨s', e, _⟩ := add_ok (cmp := fun _ _ _ => .ok false) hE h.inv v
  exact .of_ok (add_counts h h.inv.within v) (add_spends hE h.inv v) ⟨(), by rw [e]⟩

section
variable (hE : E.Lawful key klt veq) (h : Ready key klt true s) (hK : s.lists.length ≤ K)
include hE h hK

theorem find_tail_bill (v : α) {rest : CPy (St α κ) Unit} (hrest : ∀ d, Idle d → Spends rest s fun _ s' d' =>
      (d + d').moved ≤ (0 + 1) * (2 * (12 * s.load)) → Bill 2 K 0 1 s s' (d + d')) :
    Spends (do
      match ← Counted.SKL.find E.metered v with
      | none => rest
      | some (pos, idx) => Counted.SKL.delete pos idx) s fun _ s' d => d.moved ≤ (0 + 1) * (2 * (12 * s.load)) → Bill 2 K 0 1 s s' d := by
  refine .bind (P := fun r s' d => s' = s ∧ Idle d ∧ ∃ x, r = .ok x ∧ ∀ p i, x = some (p, i) → ∃ n v, At s.lists p i n v) ?_
    (fun x s1 d hx => ?_) (fun _ _ _ ⟨_, _, _, h, _⟩ => nomatch h)
  · refine .counts (find_counts h h.inv.within hE v) fun d hd => ?_
    rcases find_ok hE h.inv v with ⟨e, _⟩ | ⟨p, x, w, P, Q, e, hat, _⟩
    · rw [e]; exact ⟨rfl, .cmp hd, _, rfl, fun _ _ h => nomatch h⟩
    · rw [e]; exact ⟨rfl, .cmp hd, _, rfl, fun _ _ h => by cases h; exact ⟨_, _, hat⟩⟩
  · obtain ⟨rfl, hd, y, hy, hat⟩ := hx
    cases hy
    cases x with
    | none => exact hrest d hd
    | some x =>
      obtain ⟨n, v, hat⟩ := hat x.1 x.2 rfl
      exact (delete_moves h hat).mono fun _ s' d3 hm hd3 => hm.bill_after hd hK hd3

theorem discard_bill (v : α) : Spends (Counted.SKL.discard E.metered v) s fun _ s' d =>
    d.moved ≤ (0 + 1) * (2 * (12 * s.load)) → Bill 2 K 0 1 s s' d := by
  have hz : ∀ d : Calls, Idle d → Bill 2 K 0 1 s s d := fun d hd =>
    ((Look.refl s hd.built hd.moved hd.shifted hd.reshaped).bill hK).mono (by omega) (by omega)
  exact find_tail_bill hE h hK v fun d hd => .pure fun _ => hz _ (hd.add .zero)

theorem remove_bill (v : α) : Spends (Counted.SKL.remove E.metered v) s fun _ s' d =>
    d.moved ≤ (0 + 1) * (2 * (12 * s.load)) → Bill 2 K 0 1 s s' d := by
  have hz : ∀ d : Calls, Idle d → Bill 2 K 0 1 s s d := fun d hd =>
    ((Look.refl s hd.built hd.moved hd.shifted hd.reshaped).bill hK).mono (by omega) (by omega)
  exact find_tail_bill hE h hK v fun d hd => .free fun _ => hz _ (hd.add .zero)

end

theorem step_billed (hE : E.Lawful key klt veq) (ht : Log2Tight E.ilog2) (h : Ready key klt true s) (hK : s.lists.length ≤ K) {op : KOp α κ}
    (hop : (op.adds || op.deletes || op.search) = true) :
    Billed 2 K op.adds.toNat op.deletes.toNat (Counted.SKL.step E.metered op) (SKL.kstep E op) s := by
  have hload := h.inv.load_pos
  have hu := h.inv.within
  have hdel : ∀ s', Ready key klt true s' → s'.lists = s.lists → s'.load = s.load → ∀ p i,
      Counts (deleteCost s 2) (Counted.SKL.delete p i) ((SKL.methods E).delete p i) s' := by
    intro s' h' e e' p i
    unfold deleteCost
    rw [← e, ← e']
    exact SKL.delete_counts h' p i
  have hmov : ∀ s', Ready key klt true s' → ∀ p i n v, At s'.lists p i n v →
      Spends (Counted.SKL.delete p i) s' fun _ s'' d => Moves 2 2 s' s'' d := fun s' h' _ _ _ _ hat => delete_moves h' hat
  cases op with
  | op o =>
    cases o with
    | add v =>
      refine .of (add_counts h hu v).out (Spends.out ((add_moves hE h v).mono fun _ _ _ hm hd =>
        hm.bill (by simp [KOp.adds, KOp.deletes, Op.adds, Op.deletes]) (by simp [KOp.adds, KOp.deletes, Op.adds, Op.deletes]) hK hd)) ?_
      simp only [Calls.add_moved, Calls.add_reshaped, addCost, KOp.adds, KOp.deletes, Op.adds, Op.deletes, Bool.toNat_true, Bool.toNat_false]
      omega
    | discard v =>
      refine .of (discard_counts h hu hE v).out (Spends.out (discard_bill hE h hK v)) ?_
      simp only [Calls.add_moved, Calls.add_reshaped, deleteCost, KOp.adds, KOp.deletes, Op.adds, Op.deletes, Bool.toNat_true, Bool.toNat_false]
      omega
    | remove v =>
      refine .of (remove_counts h hu hE v).out (Spends.out (remove_bill hE h hK v)) ?_
      simp only [Calls.add_moved, Calls.add_reshaped, deleteCost, KOp.adds, KOp.deletes, Op.adds, Op.deletes, Bool.toNat_true, Bool.toNat_false]
      omega
    | delInt i =>
      refine .of (delInt_counts (M := SKL.methods E) (d := deleteCost s 2) hdel hE.ilog2 ht h i).out (Spends.out (delInt_bill hmov hE.ilog2 ht h hK i)) ?_
      simp only [Calls.add_moved, Calls.add_reshaped, deleteCost, KOp.adds, KOp.deletes, Op.adds, Op.deletes, Bool.toNat_true, Bool.toNat_false]
      omega
    | pop i =>
      refine .of (pop_counts (M := SKL.methods E) (d := deleteCost s 2) hdel hE.ilog2 ht h i).out (Spends.out (pop_bill hmov hE.ilog2 ht h hK i)) ?_
      simp only [Calls.add_moved, Calls.add_reshaped, deleteCost, KOp.adds, KOp.deletes, Op.adds, Op.deletes, Bool.toNat_true, Bool.toNat_false]
      omega
    | contains v =>
      exact .look (contains_counts h hu hE v).out (step_keep E (op := .op (.contains v)) rfl) (kstep_quiet E (.op (.contains v)) rfl) (by simp) hK
    | getInt i =>
      exact .look (getInt_counts hE.ilog2 ht h.inv h.snug i).out (step_keep E (op := .op (.getInt i)) rfl) (kstep_quiet E (.op (.getInt i)) rfl) (by simp) hK
    | bisectLeft v =>
      exact .look (bisect_left_counts h hu hE.ilog2 ht v).out (step_keep E (op := .op (.bisectLeft v)) rfl) (kstep_quiet E (.op (.bisectLeft v)) rfl) (by simp) hK
    | bisectRight v =>
      exact .look (bisect_right_counts h hu hE.ilog2 ht v).out (step_keep E (op := .op (.bisectRight v)) rfl) (kstep_quiet E (.op (.bisectRight v)) rfl) (by simp) hK
    | count v =>
      have e : SKL.kstep E (.op (.count v)) = Spec.out (fun n : Nat => (Out.int n : Out α)) (count E v) := by
        funext s
        show Py.bind (Py.bind (count E v) fun n => Pure.pure (n : Int)) (fun a => Pure.pure (Out.int a)) s =
          Py.bind (count E v) (fun n : Nat => Pure.pure (Out.int n)) s
        simp only [Py.bind]
        rcases count E v s with ⟨_ | _, _⟩ <;> rfl
      have hq := kstep_quiet E (.op (.count v)) rfl
      rw [e] at hq ⊢
      exact .look (count_counts h hu hE v).out (step_keep E (op := .op (.count v)) rfl) hq (by simp) hK
    | index v a b =>
      exact .look (index_counts h hu hE ht v a b).out (step_keep E (op := .op (.index v a b)) rfl) (kstep_quiet E (.op (.index v a b)) rfl) (by simp) hK
    | irange lo hi a b r =>
      exact .look (irange_counts h hu lo hi a b r).out (step_keep E (op := .op (.irange lo hi a b r)) rfl) (kstep_quiet E (.op (.irange lo hi a b r)) rfl) (by simp) hK
    | _ => cases hop
  | bisectKeyLeft k =>
    exact .look (bisect_key_left_counts h hu hE.ilog2 ht k).out (step_keep E (op := .bisectKeyLeft k) rfl) (kstep_quiet E (.bisectKeyLeft k) rfl) (by simp) hK
  | bisectKeyRight k =>
    exact .look (bisect_key_right_counts h hu hE.ilog2 ht k).out (step_keep E (op := .bisectKeyRight k) rfl) (kstep_quiet E (.bisectKeyRight k) rfl) (by simp) hK
  | irangeKey lo hi a b r =>
    exact .look (irange_key_counts h hu lo hi a b r).out (step_keep E (op := .irangeKey lo hi a b r) rfl) (kstep_quiet E (.irangeKey lo hi a b r) rfl) (by simp) hK

end SKL
end Verif
