import Verif.Proofs.Counted
/-!
# SortedList: the metered methods

`bits m` bounds a binary search of the maxima and the walks in the index, `u` a binary search of a sublist.
-/

namespace Verif
variable {α κ : Type} {k : α → κ} {lt : κ → κ → Bool} {keyed : Bool}

/-- Binary searches of the sublists take at most `u` comparisons. -/
def Within (s : St α κ) (u : Nat) : Prop := ∀ l ∈ s.lists, bits l.length ≤ u

/-- What the bounds rest on. -/
structure Ready (k : α → κ) (lt : κ → κ → Bool) (keyed : Bool) (s : St α κ) : Prop where
  inv : Inv k lt keyed s
  snug : Snug s

variable {s : St α κ}

theorem Ready.up (h : Ready k lt keyed s) {p : Nat} (hp : p < s.lists.length) (hne : s.index ≠ []) :
    p + s.offset + 1 < 2 ^ (bits s.lists.length + 1) := (h.inv.walks h.snug hne).up p hp

theorem Ready.after_loc {ilog2 : Nat → Nat} (hlog : ∀ n, 1 ≤ n → n < 2 ^ (ilog2 n + 1)) (ht : Log2Tight ilog2)
    (h : Ready k lt keyed s) {p : Nat} (hp : p < s.lists.length) (i : Nat) :
    Ready k lt keyed (Core.loc ilog2 p i s).2 ∧ Reindexed s (Core.loc ilog2 p i s).2 := by
  obtain ⟨h1, h2, h3⟩ := loc_after hlog ht h.inv h.snug hp i
  exact ⟨⟨h1, h2⟩, h3⟩

theorem lt_of_getItem {l : List α} {i : Nat} {a : α} (h : getItem l i = .ok a) : i < l.length := by
  rw [getItem_ok_iff] at h
  exact (List.getElem?_eq_some_iff.1 h).1

theorem mem_of_getItem {l : List α} {i : Nat} {a : α} (h : getItem l i = .ok a) : a ∈ l := by
  rw [getItem_ok_iff] at h
  exact List.mem_of_getElem? h

theorem side_counts {σ : Type} {s : σ} {f : α → α → Except PyErr Bool} {u : Nat} (l : List α) (hl : bits l.length ≤ u) (c : Bool) (v : α) :
    Counts { cmp := u } (if c then Counted.bisectLeft (fun a b => Counted.comparing (f a b)) l v else Counted.bisectRight (fun a b => Counted.comparing (f a b)) l v)
      (Py.lift (if c then bisectLeft f l v else bisectRight f l v)) s := by
  cases c
  · exact (bisectRight_counts _ _ _ _).mono (by calls)
  · exact (bisectLeft_counts _ _ _ _).mono (by calls)

theorem side_counts' {σ : Type} {s : σ} {f : α → α → Except PyErr Bool} {u : Nat} (l : List α) (hl : bits l.length ≤ u) (c : Bool) (v : α) :
    Counts { cmp := u } (if c then Counted.bisectRight (fun a b => Counted.comparing (f a b)) l v else Counted.bisectLeft (fun a b => Counted.comparing (f a b)) l v)
      (Py.lift (if c then bisectRight f l v else bisectLeft f l v)) s := by
  cases c
  · exact (bisectLeft_counts _ _ _ _).mono (by calls)
  · exact (bisectRight_counts _ _ _ _).mono (by calls)

section Shared
variable {ilog2 : Nat → Nat} {M : Methods α κ} {delete : Nat → Nat → CPy (St α κ) Unit} {d : Calls}
  (hd : ∀ s', Ready k lt keyed s' → s'.lists = s.lists → s'.load = s.load → ∀ p i, Counts d (delete p i) (M.delete p i) s')
  (hlog : ∀ n, 1 ≤ n → n < 2 ^ (M.ilog2 n + 1)) (ht : Log2Tight M.ilog2)
  (h : Ready k lt keyed s)
include hd hlog ht h

omit hd in
theorem after_pos (i : Int) {x : Nat × Nat} (hx : (Core.pos M.ilog2 i s).1 = .ok x) :
    Ready k lt keyed (Core.pos M.ilog2 i s).2 ∧ Reindexed s (Core.pos M.ilog2 i s).2 := by
  have hs := pos_trimM hlog ht i s h.snug
  cases hn : Spec.position s.lists.flatten.length i with
  | none => rw [h.inv.pos_none hn] at hx; cases hx
  | some n =>
    obtain ⟨p, y, v, s', e, -, hr, hi⟩ := h.inv.pos_some hlog hn
    rw [e] at hs ⊢
    exact ⟨⟨hi, hs⟩, hr⟩

theorem delInt_counts (i : Int) :
    Counts ({ node := bits s.lists.length, built := debt s } + d) (Counted.delInt delete M.ilog2 i) (Core.delInt M i) s :=
  .bind (pos_counts hlog ht h.inv h.snug i) fun x hx => by
    obtain ⟨h1, h2⟩ := after_pos hlog ht h i hx
    exact hd _ h1 h2.lists h2.load _ _

theorem pop_counts (i : Int) :
    Counts ({ node := bits s.lists.length, built := debt s } + d) (Counted.pop delete M.ilog2 i) (Core.pop M i) s := by
  have hd' : ∀ s', Ready k lt keyed s' → s'.lists = s.lists → s'.load = s.load → ∀ p i (v : α),
      Counts d (delete p i >>= fun _ => Pure.pure v) (M.delete p i >>= fun _ => Pure.pure v) s' := fun s' h1 h2 h3 p i v =>
    (Counts.bind (B' := 0) (hd s' h1 h2 h3 p i) fun _ _ => .pure _).mono (by rw [Calls.add_zero]; exact Calls.le_refl _)
  have hle : d ≤ { node := bits s.lists.length, built := debt s } + d := by calls
  refine .get_bind (.ite (fun _ => .free _) fun _ => .ite (fun _ => .lift_bind fun _ _ => .lift_bind fun _ _ => (hd' s h rfl rfl _ _ _).mono hle)
    fun _ => .ite (fun _ => .lift_bind fun _ _ => .lift_bind fun _ _ => (hd' s h rfl rfl _ _ _).mono hle) fun _ => .lift_bind fun _ _ =>
    .ite (fun _ => .lift_bind fun _ _ => (hd' s h rfl rfl _ _ _).mono hle) fun _ => .lift_bind fun _ _ =>
    .ite (fun _ => .lift_bind fun _ _ => .lift_bind fun _ _ => (hd' s h rfl rfl _ _ _).mono hle) fun _ => ?_)
  refine .bind (pos_counts hlog ht h.inv h.snug i) fun x hx => .lift_bind fun _ _ => .lift_bind fun _ _ => ?_
  obtain ⟨h1, h2⟩ := after_pos hlog ht h i hx
  exact hd' _ h1 h2.lists h2.load _ _ _

end Shared

/-- What `_delete` costs at most: visits of nodes, and work on sublists and top-level lists; `w` is 1, or 2 when there are cached keys. -/
def deleteCost {α κ : Type} (s : St α κ) (w : Nat) : Calls :=
  { node := bits s.lists.length + 1, moved := w * (12 * s.load), shifted := (w + 1) * (2 * s.lists.length), reshaped := 2 }

theorem mem_delItem {α : Type} {L L' : List (List α)} {i : Nat} (h : delItem L i = .ok L') {l : List α} (hl : l ∈ L') : l ∈ L := by
  unfold delItem at h
  split at h
  · cases h; exact List.mem_of_mem_eraseIdx hl
  · cases h

theorem length_delItem {β : Type} {L L' : List β} {i : Nat} (h : delItem L i = .ok L') : L'.length ≤ L.length := by
  unfold delItem at h
  split at h
  · cases h; rw [List.length_eraseIdx]; split <;> omega
  · cases h

theorem insort_length {α : Type} {lt : α → α → Except PyErr Bool} {l l' : List α} {x : α} (h : insort lt l x = .ok l') :
    l'.length = l.length + 1 := by
  unfold insort at h
  cases hb : bisectRight lt l x with
  | error e => rw [hb] at h; cases h
  | ok i =>
    rw [hb] at h
    cases h
    unfold insertAt
    simp [List.length_take, List.length_drop]
    omega

/-- What `add` costs at most, besides comparisons. -/
def addCost {α κ : Type} (s : St α κ) (w : Nat) : Calls :=
  { node := bits s.lists.length + 1, moved := w * (4 * s.load + 3), shifted := (w + 1) * (s.lists.length + 1), reshaped := 1 }

namespace SL
variable {E : Env α} {lt : α → α → Bool} {s : St α α} {u : Nat}

theorem expand_counts (b p M : Nat) (h : s.index ≠ [] → p + s.offset + 1 < 2 ^ (b + 1)) (hM : ∀ l ∈ s.lists, l.length ≤ M) :
    Counts { node := b + 1, moved := 2 * (M - s.load), shifted := 2 * s.lists.length, reshaped := 1 } (Counted.SL.expand p) (expand p) s :=
  .get_bind (.lift_bind fun l hl => .ite
    (fun _ => by
      have := hM l (mem_of_getItem hl)
      refine Counts.mono (.moving_bind (.shifting_bind (.reshaping_bind (B := 0) (.modify_bind (.lift_bind fun _ _ => .lift_bind fun _ _ =>
        .modify_bind (.modify_bind (.lift_bind fun _ _ => .modify_bind (.free _)))))))) ?_
      rw [List.length_drop]
      calls)
    (fun _ => (touchIndex_counts _ _ _ h).mono (by calls)))

theorem delete_counts (h : Ready id lt false s) (p i : Nat) :
    Counts (deleteCost s 1) (Counted.SL.delete p i) (delete p i) s := by
  unfold deleteCost
  refine .get_bind (.lift_bind fun l hl => ?_)
  have hl2 := h.inv.upper l (mem_of_getItem hl)
  refine Counts.mono (.moving_bind (B := { node := bits s.lists.length + 1, moved := 10 * s.load, shifted := 4 * s.lists.length, reshaped := 2 })
    (.lift_bind fun l' hl' => .modify_bind (.lift_bind fun n _ => .modify_bind ?_))) (by calls)
  have hll := length_delItem hl'
  refine .ite (fun _ => .lift_bind fun _ _ => .lift_bind fun _ _ => .modify_bind ?_) fun _ => .ite (fun _ => ?_) fun _ => .ite
    (fun _ => .lift_bind fun _ _ => .lift_bind fun _ _ => .free _) fun _ => ?_
  · exact Counts.mono (touchIndex_counts _ (bits s.lists.length) _ fun hne => h.up (lt_of_getItem hl) hne) (by calls)
  · have hmem : ∀ x ∈ s.lists.set p l', x.length ≤ 2 * s.load := by
      intro x hx
      rcases List.mem_or_eq_of_mem_set hx with hx | rfl
      · have := h.inv.upper x hx; omega
      · omega
    refine .get_bind (.lift_bind fun a ha => .lift_bind fun b hb => ?_)
    have ha := hmem a (mem_of_getItem ha)
    have hb := hmem b (mem_of_getItem hb)
    refine Counts.mono (.moving_bind (.shifting_bind (.reshaping_bind (B := { node := bits s.lists.length + 1, moved := 6 * s.load, shifted := 2 * s.lists.length, reshaped := 1 })
      (.modify_bind (.lift_bind fun _ _ => .lift_bind fun _ _ => .modify_bind (.get_bind (.lift_bind fun L hL => .modify_bind (.lift_bind fun _ _ =>
      .modify_bind (.modify_bind ?_)))))))) ) (by dsimp only; rw [List.length_set]; calls)
    have hlen := length_delItem hL
    simp only [List.length_set] at hlen
    refine (expand_counts (bits s.lists.length) _ (4 * s.load) (fun hne => absurd rfl hne) fun x hx => ?_).mono (by dsimp only; calls)
    rcases List.mem_or_eq_of_mem_set (mem_delItem hL hx) with hx | rfl
    · have := hmem x hx; omega
    · rw [List.length_append]; omega
  · refine .get_bind (.mono (.shifting_bind (B := 0) (.lift_bind fun _ _ => .modify_bind (.lift_bind fun _ _ => .modify_bind (.free _)))) ?_)
    dsimp only; rw [List.length_set]; calls

section
variable (h : Ready id lt false s) (hu : Within s u)
include h hu

theorem contains_counts (v : α) :
    Counts { cmp := bits s.lists.length + u + 1 } (Counted.SL.contains E.metered v) (contains E v) s := by
  refine .get_bind (.ite (fun _ => .pure _) fun _ => ?_)
  have hm := h.inv.maxes.length_eq
  refine (Counts.lifted_bind (B' := { cmp := u + 1 }) (bisectLeft_counts _ _ _ _) fun p _ => ?_).mono (by rw [← hm]; calls)
  refine .ite (fun _ => .pure _) fun _ => .lift_bind fun l hl => ?_
  have := hu l (mem_of_getItem hl)
  exact (Counts.lifted_bind (B' := { cmp := 1 }) (bisectLeft_counts _ _ _ _) fun _ _ => .lift_bind fun _ _ => .comparing _).mono
    (by calls)

theorem add_counts (v : α) :
    Counts ({ cmp := bits s.lists.length + u } + addCost s 1) (Counted.SL.add E.metered v) (add E v) s := by
  have hm := h.inv.maxes.length_eq
  unfold addCost
  refine .get_bind (.ite (fun hne => ?_) fun _ => Counts.mono (.moving_bind (.shifting_bind (B := 0) (.modify_bind (.modify_bind (.free _))))) (by calls))
  refine (Counts.lifted_bind (B' := { cmp := u, node := bits s.lists.length + 1, moved := 4 * s.load + 3, shifted := 2 * (s.lists.length + 1), reshaped := 1 })
    (bisectRight_counts _ _ _ _) fun p _ => ?_).mono (by rw [← hm]; calls)
  refine .ite (fun _ => .lift_bind fun l hl => ?_) fun _ => .lift_bind fun l hl => ?_
  · refine Counts.mono (.moving_bind (.modify_bind (.modify_bind (.bind (B' := 0) (expand_counts (bits s.lists.length) _ (2 * s.load + 1) ?_ fun x hx => ?_)
      fun _ _ => .free _)))) (by dsimp only; rw [List.length_set]; calls)
    · exact fun hne => h.up (lt_of_getItem hl) hne
    · rcases List.mem_or_eq_of_mem_set hx with hx | rfl
      · have := h.inv.upper x hx; omega
      · have := h.inv.upper l (mem_of_getItem hl); rw [List.length_append, List.length_singleton]; omega
  · have := hu l (mem_of_getItem hl)
    have hup := h.inv.upper l (mem_of_getItem hl)
    refine (Counts.lifted_bind (B' := { node := bits s.lists.length + 1, moved := 2 * s.load + 2, shifted := 2 * s.lists.length, reshaped := 1 })
      (insort_counts _ _ _ _) fun l' hl' => .modify_bind ?_).mono (by calls)
    refine (Counts.bind (B' := 0) (expand_counts (bits s.lists.length) _ (2 * s.load + 1) ?_ fun x hx => ?_) fun _ _ => .free _).mono
      (by dsimp only; rw [List.length_set]; calls)
    · exact fun hne => h.up (lt_of_getItem hl) hne
    · rcases List.mem_or_eq_of_mem_set hx with hx | rfl
      · have := h.inv.upper x hx; omega
      · have := insort_length hl'; omega

theorem discard_counts (v : α) :
    Counts ({ cmp := bits s.lists.length + u + 1 } + deleteCost s 1) (Counted.SL.discard E.metered v) (discard E v) s := by
  refine .get_bind (.ite (fun _ => .pure _) fun _ => ?_)
  have hm := h.inv.maxes.length_eq
  refine (Counts.lifted_bind (B' := { cmp := u + 1 } + deleteCost s 1) (bisectLeft_counts _ _ _ _) fun p _ => ?_).mono
    (by rw [← hm]; calls)
  refine .ite (fun _ => .pure _) fun _ => .lift_bind fun l hl => ?_
  have := hu l (mem_of_getItem hl)
  refine (Counts.lifted_bind (B' := { cmp := 1 } + deleteCost s 1) (bisectLeft_counts _ _ _ _) fun _ _ =>
    .lift_bind fun _ _ => ?_).mono (by calls)
  exact .lifted_bind (.comparing _) fun _ _ => .ite (fun _ => delete_counts h _ _) fun _ => .pure _

theorem remove_counts (v : α) :
    Counts ({ cmp := bits s.lists.length + u + 1 } + deleteCost s 1) (Counted.SL.remove E.metered v) (remove E v) s := by
  refine .get_bind (.ite (fun _ => .free _) fun _ => ?_)
  have hm := h.inv.maxes.length_eq
  refine (Counts.lifted_bind (B' := { cmp := u + 1 } + deleteCost s 1) (bisectLeft_counts _ _ _ _) fun p _ => ?_).mono
    (by rw [← hm]; calls)
  refine .ite (fun _ => .free _) fun _ => .lift_bind fun l hl => ?_
  have := hu l (mem_of_getItem hl)
  refine (Counts.lifted_bind (B' := { cmp := 1 } + deleteCost s 1) (bisectLeft_counts _ _ _ _) fun _ _ =>
    .lift_bind fun _ _ => ?_).mono (by calls)
  exact .lifted_bind (.comparing _) fun _ _ => .ite (fun _ => delete_counts h _ _) fun _ => .free _

theorem irange_counts (lo hi : Option α) (a b r : Bool) :
    Counts { cmp := 2 * (bits s.lists.length + u) } (Counted.SL.irange E.metered lo hi a b r) (irange E lo hi a b r) s := by
  have hm := h.inv.maxes.length_eq
  have hmb : bits s.maxes.length ≤ bits s.lists.length := by rw [hm]; exact Nat.le_refl _
  unfold Counted.SL.irange irange irangeWith
  refine .get_bind (.ite (fun _ => .pure _) fun _ => ?_)
  dsimp only
  cases lo with
  | none =>
    refine .pure_bind ?_
    dsimp only
    cases hi with
    | none => exact .lift_bind fun _ _ => .free _
    | some m =>
      refine (Counts.lifted_bind (B' := { cmp := u }) (side_counts' _ hmb b m) fun p _ => .ite (fun _ => .lift_bind fun _ _ =>
        .free _) fun _ => .lift_bind fun l hl => ?_).mono (by calls)
      exact (Counts.lifted_bind (B' := 0) (side_counts' _ (hu l (mem_of_getItem hl)) b m) fun _ _ => .free _).mono (by calls)
  | some m =>
    refine (Counts.lifted_bind (B' := { cmp := u + (bits s.lists.length + u) }) (side_counts _ hmb a m) fun p _ => .ite (fun _ => .pure _)
      fun _ => .lift_bind fun l hl => ?_).mono (by calls)
    refine (Counts.lifted_bind (B' := { cmp := bits s.lists.length + u }) (side_counts _ (hu l (mem_of_getItem hl)) a m)
      fun i _ => .pure_bind ?_).mono (by calls)
    dsimp only
    cases hi with
    | none => exact .lift_bind fun _ _ => .free _
    | some m =>
      refine (Counts.lifted_bind (B' := { cmp := u }) (side_counts' _ hmb b m) fun p _ => .ite (fun _ => .lift_bind fun _ _ =>
        .free _) fun _ => .lift_bind fun l hl => ?_).mono (by calls)
      exact (Counts.lifted_bind (B' := 0) (side_counts' _ (hu l (mem_of_getItem hl)) b m) fun _ _ => .free _).mono (by calls)

variable (hlog : ∀ n, 1 ≤ n → n < 2 ^ (E.ilog2 n + 1)) (ht : Log2Tight E.ilog2)
include hlog ht

theorem bisect_left_counts (v : α) :
    Counts { cmp := bits s.lists.length + u, node := bits s.lists.length, built := debt s }
      (Counted.SL.bisect_left E.metered v) (bisect_left E v) s := by
  refine .get_bind (.ite (fun _ => .pure _) fun _ => ?_)
  have hm := h.inv.maxes.length_eq
  refine (Counts.lifted_bind (B' := { cmp := u, node := bits s.lists.length, built := debt s })
    (bisectLeft_counts _ _ _ _) fun p _ => ?_).mono (by rw [← hm]; calls)
  refine .ite (fun _ => .pure _) fun _ => .lift_bind fun l hl => ?_
  have := hu l (mem_of_getItem hl)
  exact (Counts.lifted_bind (B' := { node := bits s.lists.length, built := debt s }) (bisectLeft_counts _ _ _ _) fun _ _ =>
    loc_counts hlog ht h.inv h.snug (lt_of_getItem hl) _).mono (by calls)

theorem bisect_right_counts (v : α) :
    Counts { cmp := bits s.lists.length + u, node := bits s.lists.length, built := debt s }
      (Counted.SL.bisect_right E.metered v) (bisect_right E v) s := by
  refine .get_bind (.ite (fun _ => .pure _) fun _ => ?_)
  have hm := h.inv.maxes.length_eq
  refine (Counts.lifted_bind (B' := { cmp := u, node := bits s.lists.length, built := debt s })
    (bisectRight_counts _ _ _ _) fun p _ => ?_).mono (by rw [← hm]; calls)
  refine .ite (fun _ => .pure _) fun _ => .lift_bind fun l hl => ?_
  have := hu l (mem_of_getItem hl)
  exact (Counts.lifted_bind (B' := { node := bits s.lists.length, built := debt s }) (bisectRight_counts _ _ _ _) fun _ _ =>
    loc_counts hlog ht h.inv h.snug (lt_of_getItem hl) _).mono (by calls)

theorem count_counts (v : α) :
    Counts { cmp := 2 * (bits s.lists.length + u), node := 2 * bits s.lists.length, built := debt s }
      (Counted.SL.count E.metered v) (count E v) s := by
  refine .get_bind (.ite (fun _ => .pure _) fun _ => ?_)
  have hm := h.inv.maxes.length_eq
  refine (Counts.lifted_bind (B' := { cmp := 2 * u + bits s.lists.length, node := 2 * bits s.lists.length, built := debt s })
    (bisectLeft_counts _ _ _ _) fun p _ => ?_).mono (by rw [← hm]; calls)
  refine .ite (fun _ => .pure _) fun _ => .lift_bind fun l hl => ?_
  have := hu l (mem_of_getItem hl)
  refine (Counts.lifted_bind (B' := { cmp := u + bits s.lists.length, node := 2 * bits s.lists.length, built := debt s })
    (bisectLeft_counts _ _ _ _) fun i _ => ?_).mono (by calls)
  refine (Counts.lifted_bind (B' := { cmp := u, node := 2 * bits s.lists.length, built := debt s })
    (bisectRight_counts _ _ _ _) fun p' _ => ?_).mono (by rw [← hm]; calls)
  refine .ite (fun _ => ?_) fun _ => .lift_bind fun l' hl' => ?_
  · exact (Counts.bind (B' := 0) (loc_counts hlog ht h.inv h.snug (lt_of_getItem hl) _) fun _ _ => .pure _).mono (by calls)
  have := hu l' (mem_of_getItem hl')
  refine (Counts.lifted_bind (B' := { node := 2 * bits s.lists.length, built := debt s })
    (bisectRight_counts _ _ _ _) fun i' _ => .ite (fun _ => .pure _) fun _ => ?_).mono (by calls)
  have hle := debt_loc hlog ht h.inv h.snug (lt_of_getItem hl') i'
  refine (Counts.bind (B' := { node := bits s.lists.length, built := debt (Core.loc E.ilog2 p' i' s).2 })
    (loc_counts' hlog ht h.inv h.snug (lt_of_getItem hl') _) fun _ _ => ?_).mono (by calls)
  obtain ⟨h', hr⟩ := h.after_loc hlog ht (lt_of_getItem hl') i'
  have hc := loc_counts hlog ht h'.inv h'.snug (p := p) (by rw [hr.lists]; exact lt_of_getItem hl) i
  rw [hr.lists] at hc
  exact (Counts.bind (B' := 0) hc fun _ _ => .pure _).mono (by calls)

theorem index_counts (v : α) (a b : Option Int) :
    Counts { cmp := 2 * (bits s.lists.length + u) + 1, node := 2 * bits s.lists.length, built := debt s }
      (Counted.SL.index E.metered v a b) (index E v a b) s := by
  refine .get_bind (.ite (fun _ => .free _) fun _ => .ite (fun _ => .free _) fun _ => ?_)
  have hm := h.inv.maxes.length_eq
  refine (Counts.lifted_bind (B' := { cmp := 2 * u + bits s.lists.length + 1, node := 2 * bits s.lists.length, built := debt s })
    (bisectLeft_counts _ _ _ _) fun p _ => ?_).mono (by rw [← hm]; calls)
  refine .ite (fun _ => .free _) fun _ => .lift_bind fun l hl => ?_
  have := hu l (mem_of_getItem hl)
  refine (Counts.lifted_bind (B' := { cmp := u + bits s.lists.length + 1, node := 2 * bits s.lists.length, built := debt s })
    (bisectLeft_counts _ _ _ _) fun i _ => .lift_bind fun x _ => ?_).mono (by calls)
  refine (Counts.lifted_bind (B' := { cmp := u + bits s.lists.length, node := 2 * bits s.lists.length, built := debt s })
    (.comparing _) fun c _ => .ite (fun _ => .free _) fun _ => ?_).mono (by calls)
  have hle := debt_loc hlog ht h.inv h.snug (lt_of_getItem hl) i
  refine (Counts.bind (B' := { cmp := bits s.lists.length + u, node := bits s.lists.length, built := debt (Core.loc E.ilog2 p i s).2 })
    (loc_counts' hlog ht h.inv h.snug (lt_of_getItem hl) _) fun left _ => ?_).mono (by calls)
  refine .ite (fun _ => .ite (fun _ => .pure _) fun _ => .free _) fun _ => ?_
  obtain ⟨h', hr⟩ := h.after_loc hlog ht (lt_of_getItem hl) i
  have hc := bisect_right_counts (E := E) h' (u := u) (by intro l hl; rw [hr.lists] at hl; exact hu l hl) hlog ht v
  rw [hr.lists] at hc
  exact (Counts.bind (B' := 0) hc fun _ _ => .ite (fun _ => .pure _) fun _ => .free _).mono (by calls)

end
end SL
end Verif
