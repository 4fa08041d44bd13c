import Verif.Model.Counted
import Verif.Proofs.Snug
/-!
# Metered programs do the same as the programs, and their readings are bounded
-/

namespace Verif

namespace Calls

instance : Add Calls := ⟨fun a b => ⟨a.cmp + b.cmp, a.key + b.key, a.node + b.node, a.built + b.built,
  a.moved + b.moved, a.shifted + b.shifted, a.reshaped + b.reshaped, a.sorted + b.sorted⟩⟩
instance : Zero Calls := ⟨⟨0, 0, 0, 0, 0, 0, 0, 0⟩⟩

/-- No counter of the first exceeds that of the second. -/
def Le (a b : Calls) : Prop := a.cmp ≤ b.cmp ∧ a.key ≤ b.key ∧ a.node ≤ b.node ∧ a.built ≤ b.built ∧
  a.moved ≤ b.moved ∧ a.shifted ≤ b.shifted ∧ a.reshaped ≤ b.reshaped ∧ a.sorted ≤ b.sorted

instance : LE Calls := ⟨Le⟩

theorem ext' {a b : Calls} (h1 : a.cmp = b.cmp) (h2 : a.key = b.key) (h3 : a.node = b.node) (h4 : a.built = b.built)
    (h5 : a.moved = b.moved) (h6 : a.shifted = b.shifted) (h7 : a.reshaped = b.reshaped)
    (h8 : a.sorted = b.sorted) : a = b := by
  cases a; cases b; simp_all

@[simp] theorem add_cmp (a b : Calls) : (a + b).cmp = a.cmp + b.cmp := rfl
@[simp] theorem add_key (a b : Calls) : (a + b).key = a.key + b.key := rfl
@[simp] theorem add_node (a b : Calls) : (a + b).node = a.node + b.node := rfl
@[simp] theorem add_built (a b : Calls) : (a + b).built = a.built + b.built := rfl
@[simp] theorem add_moved (a b : Calls) : (a + b).moved = a.moved + b.moved := rfl
@[simp] theorem add_shifted (a b : Calls) : (a + b).shifted = a.shifted + b.shifted := rfl
@[simp] theorem add_reshaped (a b : Calls) : (a + b).reshaped = a.reshaped + b.reshaped := rfl
@[simp] theorem add_sorted (a b : Calls) : (a + b).sorted = a.sorted + b.sorted := rfl
@[simp] theorem zero_cmp : (0 : Calls).cmp = 0 := rfl
@[simp] theorem zero_key : (0 : Calls).key = 0 := rfl
@[simp] theorem zero_node : (0 : Calls).node = 0 := rfl
@[simp] theorem zero_built : (0 : Calls).built = 0 := rfl
@[simp] theorem zero_moved : (0 : Calls).moved = 0 := rfl
@[simp] theorem zero_shifted : (0 : Calls).shifted = 0 := rfl
@[simp] theorem zero_reshaped : (0 : Calls).reshaped = 0 := rfl

@[simp] theorem zero_sorted : (0 : Calls).sorted = 0 := rfl

theorem le_iff {a b : Calls} : a ≤ b ↔ a.cmp ≤ b.cmp ∧ a.key ≤ b.key ∧ a.node ≤ b.node ∧ a.built ≤ b.built ∧
    a.moved ≤ b.moved ∧ a.shifted ≤ b.shifted ∧ a.reshaped ≤ b.reshaped ∧ a.sorted ≤ b.sorted := Iff.rfl
theorem add_assoc (a b c : Calls) : a + b + c = a + (b + c) := by apply ext' <;> simp <;> omega
theorem add_zero (a : Calls) : a + 0 = a := by apply ext' <;> simp
theorem zero_add (a : Calls) : 0 + a = a := by apply ext' <;> simp
theorem le_refl (a : Calls) : a ≤ a := by rw [le_iff]; omega
theorem zero_le (a : Calls) : 0 ≤ a := by rw [le_iff]; simp
theorem le_trans {a b c : Calls} (h : a ≤ b) (h' : b ≤ c) : a ≤ c := by rw [le_iff] at *; omega
theorem add_le {a b c d : Calls} (h : a ≤ c) (h' : b ≤ d) : a + b ≤ c + d := by
  rw [le_iff] at *; simp only [add_cmp, add_key, add_node, add_built, add_moved, add_shifted, add_reshaped, add_sorted]; omega

end Calls

section
variable {σ α κ β γ : Type}

/-- Run from `s`, the metered program `mc` does what `m` does, and advances the meter by at most `B`. -/
def Counts (B : Calls) (mc : CPy σ β) (m : Py σ β) (s : σ) : Prop :=
  ∀ k, ∃ d, d ≤ B ∧ mc (s, k) = ((m s).1, (m s).2, k + d)

namespace Counts
variable {B B' : Calls} {s : σ}

theorem mono {mc : CPy σ β} {m : Py σ β} (h : Counts B mc m s) (hB : B ≤ B') : Counts B' mc m s := by
  intro k
  obtain ⟨d, hd, e⟩ := h k
  exact ⟨d, Calls.le_trans hd hB, e⟩

theorem free (m : Py σ β) : Counts B (CPy.free m) m s := fun k => ⟨0, Calls.zero_le _, by rw [Calls.add_zero]; rfl⟩

theorem pure (b : β) : Counts B (Pure.pure b : CPy σ β) (Pure.pure b) s := fun k =>
  ⟨0, Calls.zero_le _, by rw [Calls.add_zero]; rfl⟩

theorem bind {mc : CPy σ β} {m : Py σ β} {fc : β → CPy σ γ} {f : β → Py σ γ} (h : Counts B mc m s)
    (h' : ∀ a, (m s).1 = .ok a → Counts B' (fc a) (f a) (m s).2) : Counts (B + B') (mc >>= fc) (m >>= f) s := by
  intro k
  obtain ⟨d, hd, e⟩ := h k
  rcases em : m s with ⟨r, s'⟩
  rw [em] at e h'
  cases r with
  | error er =>
    refine ⟨d, Calls.le_trans hd ?_, ?_⟩
    · have := Calls.add_le (Calls.le_refl B) (Calls.zero_le B')
      rwa [Calls.add_zero] at this
    · show Py.bind mc fc (s, k) = ((Py.bind m f s).1, (Py.bind m f s).2, k + d)
      simp only [Py.bind, e, em]
  | ok a =>
    obtain ⟨d', hd', e'⟩ := h' a rfl (k + d)
    refine ⟨d + d', Calls.add_le hd hd', ?_⟩
    show Py.bind mc fc (s, k) = ((Py.bind m f s).1, (Py.bind m f s).2, k + (d + d'))
    simp only [Py.bind, e, em]
    rw [← Calls.add_assoc]
    exact e'

theorem get_bind {fc : σ → CPy σ β} {f : σ → Py σ β} (h : Counts B (fc s) (f s) s) :
    Counts B (CPy.free Py.get >>= fc) (Py.get >>= f) s := h

theorem lift_bind {x : Except PyErr β} {fc : β → CPy σ γ} {f : β → Py σ γ}
    (h : ∀ a, x = .ok a → Counts B (fc a) (f a) s) : Counts B (CPy.free (Py.lift x) >>= fc) (Py.lift x >>= f) s := by
  cases x with
  | error e => exact free (m := Py.raise e)
  | ok a => exact h a rfl

theorem pure_bind {a : β} {fc : β → CPy σ γ} {f : β → Py σ γ} (h : Counts B (fc a) (f a) s) :
    Counts B (Pure.pure a >>= fc) (Pure.pure a >>= f) s := h

theorem modify_bind {g : σ → σ} {fc : Unit → CPy σ β} {f : Unit → Py σ β} (h : Counts B (fc ()) (f ()) (g s)) :
    Counts B (CPy.free (Py.modify g) >>= fc) (Py.modify g >>= f) s := h

theorem ite {p : Prop} [Decidable p] {ac bc : CPy σ β} {a b : Py σ β} (h1 : p → Counts B ac a s) (h2 : ¬p → Counts B bc b s) :
    Counts B (if p then ac else bc) (if p then a else b) s := by
  split
  · exact h1 ‹_›
  · exact h2 ‹_›

theorem comparing (x : Except PyErr β) : Counts { cmp := 1 } (Counted.comparing x : CPy σ β) (Py.lift x) s := fun k =>
  ⟨{ cmp := 1 }, Calls.le_refl _, rfl⟩

theorem keying (x : Except PyErr β) : Counts { key := 1 } (Counted.keying x : CPy σ β) (Py.lift x) s := fun k =>
  ⟨{ key := 1 }, Calls.le_refl _, rfl⟩

/-- A metered search followed by the rest. -/
theorem lifted_bind {mc : CPy σ β} {x : Except PyErr β} {fc : β → CPy σ γ} {f : β → Py σ γ} (h : Counts B mc (Py.lift x) s)
    (h' : ∀ a, x = .ok a → Counts B' (fc a) (f a) s) : Counts (B + B') (mc >>= fc) (Py.lift x >>= f) s :=
  bind h h'

theorem comparing_ok_bind {c : β} {fc : β → CPy σ γ} {m : Py σ γ} (h : Counts B (fc c) m s) :
    Counts ({ cmp := 1 } + B) (Counted.comparing (.ok c) >>= fc) m s := by
  intro k
  obtain ⟨d, hd, e⟩ := h (k + { cmp := 1 })
  exact ⟨{ cmp := 1 } + d, Calls.add_le (Calls.le_refl _) hd, by rw [← Calls.add_assoc]; exact e⟩

theorem comparing_error_bind {e : PyErr} {fc : β → CPy σ γ} :
    Counts { cmp := 1 } (Counted.comparing (.error e) >>= fc) (Py.raise e) s := fun k =>
  ⟨{ cmp := 1 }, Calls.le_refl _, rfl⟩

theorem lift_ok_bind {c : β} {fc : β → CPy σ γ} {m : Py σ γ} (h : Counts B (fc c) m s) :
    Counts B (CPy.free (Py.lift (.ok c)) >>= fc) m s := h

theorem lift_error_bind {e : PyErr} {fc : β → CPy σ γ} :
    Counts B (CPy.free (Py.lift (.error e)) >>= fc) (Py.raise e) s := free (Py.raise e)

theorem visiting_bind {fc : Unit → CPy σ β} {m : Py σ β} (h : Counts B (fc ()) m s) :
    Counts ({ node := 1 } + B) (Counted.visiting >>= fc) m s := by
  intro k
  obtain ⟨d, hd, e⟩ := h (k + { node := 1 })
  exact ⟨{ node := 1 } + d, Calls.add_le (Calls.le_refl _) hd, by rw [← Calls.add_assoc]; exact e⟩

theorem moving_bind {n : Nat} {fc : Unit → CPy σ β} {m : Py σ β} (h : Counts B (fc ()) m s) :
    Counts ({ moved := n } + B) (Counted.moving n >>= fc) m s := by
  intro k
  obtain ⟨d, hd, e⟩ := h (k + { moved := n })
  exact ⟨{ moved := n } + d, Calls.add_le (Calls.le_refl _) hd, by rw [← Calls.add_assoc]; exact e⟩

theorem shifting_bind {n : Nat} {fc : Unit → CPy σ β} {m : Py σ β} (h : Counts B (fc ()) m s) :
    Counts ({ shifted := n } + B) (Counted.shifting n >>= fc) m s := by
  intro k
  obtain ⟨d, hd, e⟩ := h (k + { shifted := n })
  exact ⟨{ shifted := n } + d, Calls.add_le (Calls.le_refl _) hd, by rw [← Calls.add_assoc]; exact e⟩

theorem reshaping_bind {fc : Unit → CPy σ β} {m : Py σ β} (h : Counts B (fc ()) m s) :
    Counts ({ reshaped := 1 } + B) (Counted.reshaping >>= fc) m s := by
  intro k
  obtain ⟨d, hd, e⟩ := h (k + { reshaped := 1 })
  exact ⟨{ reshaped := 1 } + d, Calls.add_le (Calls.le_refl _) hd, by rw [← Calls.add_assoc]; exact e⟩

end Counts
end

/-! ## Powers of two -/

/-- The number of binary digits: `floor(log2 n) + 1`, and 0 for 0. -/
def bits (n : Nat) : Nat := if n = 0 then 0 else Nat.log2 n + 1

theorem lt_pow_bits (n : Nat) : n < 2 ^ bits n := by
  unfold bits
  split
  · subst_vars; simp
  · exact Nat.lt_log2_self

theorem bits_le {n b : Nat} (h : n < 2 ^ b) : bits n ≤ b := by
  unfold bits
  split
  · omega
  · exact (Nat.log2_lt (by assumption)).2 h

theorem bits_mono {m n : Nat} (h : m ≤ n) : bits m ≤ bits n := bits_le (Nat.lt_of_le_of_lt h (lt_pow_bits n))

theorem pow_le_of_bits {n : Nat} (h : n ≠ 0) : 2 ^ bits n ≤ 2 * n := by
  have := Nat.log2_self_le h
  unfold bits
  rw [if_neg h, Nat.pow_succ]
  omega

theorem bits_mul {m n : Nat} (hm : m ≠ 0) (hn : n ≠ 0) : bits m + bits n ≤ bits (m * n) + 1 := by
  have h1 := pow_le_of_bits hm
  have h2 := pow_le_of_bits hn
  have h3 := lt_pow_bits (m * n)
  have h4 : 2 ^ (bits m + bits n) ≤ 4 * (m * n) := by
    rw [Nat.pow_add]
    calc 2 ^ bits m * 2 ^ bits n ≤ (2 * m) * (2 * n) := Nat.mul_le_mul h1 h2
      _ = 4 * (m * n) := by rw [Nat.mul_mul_mul_comm]
  have h5 : 2 ^ (bits m + bits n) < 2 ^ (bits (m * n) + 2) := by
    rw [Nat.pow_add 2 (bits (m * n)) 2]; omega
  have := (Nat.pow_lt_pow_iff_right (by decide : 1 < 2)).1 h5
  omega

/-! ## The primitives -/

section
variable {σ α κ : Type}

theorem bisectRightLoop_counts (lt : α → α → Except PyErr Bool) (a : List α) (x : α) (b : Nat) (s : σ) :
    ∀ lo hi, hi - lo < 2 ^ b →
      Counts { cmp := b } (Counted.bisectRightLoop (fun a b => Counted.comparing (lt a b)) a x lo hi) (Py.lift (bisectRightLoop lt a x lo hi)) s := by
  induction b with
  | zero =>
    intro lo hi h
    rw [Counted.bisectRightLoop, bisectRightLoop, dif_neg (by omega), dif_neg (by omega)]
    exact .pure lo
  | succ b ih =>
    intro lo hi h
    rw [Nat.pow_succ] at h
    rw [Counted.bisectRightLoop, bisectRightLoop]
    by_cases hlt : lo < hi
    · rw [dif_pos hlt, dif_pos hlt]
      cases getItem a ((lo + hi) / 2) with
      | error e => exact .free (Py.raise e)
      | ok m =>
        refine .lift_ok_bind ?_
        dsimp only
        cases lt x m with
        | error e => exact Counts.comparing_error_bind.mono (by rw [Calls.le_iff]; simp)
        | ok c =>
          refine (Counts.comparing_ok_bind (B := { cmp := b }) ?_).mono (by rw [Calls.le_iff]; simp; omega)
          cases c
          · exact ih _ _ (by omega)
          · exact ih _ _ (by omega)
    · rw [dif_neg hlt, dif_neg hlt]; exact .pure lo

theorem bisectLeftLoop_counts (lt : α → α → Except PyErr Bool) (a : List α) (x : α) (b : Nat) (s : σ) :
    ∀ lo hi, hi - lo < 2 ^ b →
      Counts { cmp := b } (Counted.bisectLeftLoop (fun a b => Counted.comparing (lt a b)) a x lo hi) (Py.lift (bisectLeftLoop lt a x lo hi)) s := by
  induction b with
  | zero =>
    intro lo hi h
    rw [Counted.bisectLeftLoop, bisectLeftLoop, dif_neg (by omega), dif_neg (by omega)]
    exact .pure lo
  | succ b ih =>
    intro lo hi h
    rw [Nat.pow_succ] at h
    rw [Counted.bisectLeftLoop, bisectLeftLoop]
    by_cases hlt : lo < hi
    · rw [dif_pos hlt, dif_pos hlt]
      cases getItem a ((lo + hi) / 2) with
      | error e => exact .free (Py.raise e)
      | ok m =>
        refine .lift_ok_bind ?_
        dsimp only
        cases lt m x with
        | error e => exact Counts.comparing_error_bind.mono (by rw [Calls.le_iff]; simp)
        | ok c =>
          refine (Counts.comparing_ok_bind (B := { cmp := b }) ?_).mono (by rw [Calls.le_iff]; simp; omega)
          cases c
          · exact ih _ _ (by omega)
          · exact ih _ _ (by omega)
    · rw [dif_neg hlt, dif_neg hlt]; exact .pure lo

theorem bisectRight_counts (lt : α → α → Except PyErr Bool) (a : List α) (x : α) (s : σ) :
    Counts { cmp := bits a.length } (Counted.bisectRight (fun a b => Counted.comparing (lt a b)) a x) (Py.lift (bisectRight lt a x)) s :=
  bisectRightLoop_counts lt a x _ s 0 _ (lt_pow_bits _)

theorem bisectLeft_counts (lt : α → α → Except PyErr Bool) (a : List α) (x : α) (s : σ) :
    Counts { cmp := bits a.length } (Counted.bisectLeft (fun a b => Counted.comparing (lt a b)) a x) (Py.lift (bisectLeft lt a x)) s :=
  bisectLeftLoop_counts lt a x _ s 0 _ (lt_pow_bits _)

theorem insort_counts (lt : α → α → Except PyErr Bool) (a : List α) (x : α) (s : σ) :
    Counts { cmp := bits a.length, moved := a.length + 1 } (Counted.insort (fun a b => Counted.comparing (lt a b)) a x)
      (Py.lift (insort lt a x)) s := by
  have : Counts ({ cmp := bits a.length } + { moved := a.length + 1 }) (Counted.insort (fun a b => Counted.comparing (lt a b)) a x)
      (do let i ← (Py.lift (bisectRight lt a x) : Py σ Nat); Pure.pure (insertAt a i x)) s := by
    refine .lifted_bind (bisectRight_counts lt a x s) fun i _ => Counts.mono (.moving_bind (B := 0) (.pure _)) ?_
    rw [Calls.le_iff]; simp
  have e : (do let i ← (Py.lift (bisectRight lt a x) : Py σ Nat); Pure.pure (insertAt a i x)) =
      (Py.lift (insort lt a x) : Py σ (List α)) := by
    unfold insort
    cases bisectRight lt a x <;> rfl
  rw [e] at this
  exact this.mono (by rw [Calls.le_iff]; simp)

theorem locLoop_counts (index : List Nat) (b : Nat) (s : σ) : ∀ pos total, pos + 1 < 2 ^ (b + 1) →
    Counts { node := b } (Counted.locLoop index pos total) (Py.lift (Core.locLoop index pos total)) s := by
  induction b with
  | zero =>
    intro pos total h
    rw [Counted.locLoop, Core.locLoop, dif_pos (by omega), dif_pos (by omega)]
    exact .pure _
  | succ b ih =>
    intro pos total h
    rw [Nat.pow_succ] at h
    rw [Counted.locLoop, Core.locLoop]
    by_cases h0 : pos = 0
    · rw [dif_pos h0, dif_pos h0]; exact .pure _
    · rw [dif_neg h0, dif_neg h0]
      refine (Counts.visiting_bind (B := { node := b }) ?_).mono (by rw [Calls.le_iff]; simp; omega)
      by_cases h2 : pos % 2 = 0
      · rw [if_pos h2, if_pos h2]
        cases getItem index (pos - 1) with
        | error e => exact .free (Py.raise e)
        | ok x => exact ih _ _ (by omega)
      · rw [if_neg h2, if_neg h2]
        exact ih _ _ (by omega)

theorem posLoop_counts (index : List Nat) (b : Nat) (s : σ) : ∀ pos child idx, index.length < (child + 1) * 2 ^ b →
    Counts { node := b } (Counted.posLoop index pos child idx) (Pure.pure (Core.posLoop index pos child idx)) s := by
  induction b with
  | zero =>
    intro pos child idx h
    rw [Counted.posLoop, Core.posLoop, dif_neg (by omega), dif_neg (by omega)]
    exact .pure _
  | succ b ih =>
    intro pos child idx h
    rw [Counted.posLoop, Core.posLoop]
    by_cases h0 : child < index.length
    · rw [dif_pos h0, dif_pos h0]
      refine (Counts.visiting_bind (B := { node := b }) ?_).mono (by rw [Calls.le_iff]; simp; omega)
      have e : (child + 1) * 2 ^ (b + 1) = (child * 2 + 1 + 1) * 2 ^ b := by
        rw [Nat.pow_succ, ← Nat.mul_assoc, Nat.mul_comm _ 2, ← Nat.mul_assoc]; congr 1; omega
      split
      · exact ih _ _ _ (by omega)
      · refine ih _ _ _ (Nat.lt_of_lt_of_le (e ▸ h) (Nat.mul_le_mul_right _ (by omega)))
    · rw [dif_neg h0, dif_neg h0]; exact .pure _

theorem bumpPath_counts (f : Nat → Except PyErr Nat) (b : Nat) (s : σ) : ∀ (child : Nat) (index : List Nat), child + 1 < 2 ^ (b + 1) →
    Counts { node := b + 1 } (Counted.bumpPath f index child) (Py.lift (Core.bumpPath f index child)) s := by
  induction b with
  | zero =>
    intro child index h
    have : child = 0 := by omega
    rw [Counted.bumpPath, Core.bumpPath]
    refine (Counts.visiting_bind (B := 0) ?_).mono (by rw [Calls.le_iff]; simp)
    cases getItem index child with
    | error e => exact .lift_error_bind
    | ok x =>
      refine .lift_ok_bind ?_
      show Counts 0 (CPy.free (Py.lift (f x)) >>= _) (Py.lift (match f x with
        | .error e => .error e
        | .ok y => _)) s
      cases f x with
      | error e => exact .lift_error_bind
      | ok y =>
        refine .lift_ok_bind ?_
        simp only [dif_pos this]
        exact .pure _
  | succ b ih =>
    intro child index h
    rw [Nat.pow_succ] at h
    rw [Counted.bumpPath, Core.bumpPath]
    refine (Counts.visiting_bind (B := { node := b + 1 }) ?_).mono (by rw [Calls.le_iff]; simp; omega)
    cases getItem index child with
    | error e => exact .lift_error_bind
    | ok x =>
      refine .lift_ok_bind ?_
      show Counts { node := b + 1 } (CPy.free (Py.lift (f x)) >>= _) (Py.lift (match f x with
        | .error e => .error e
        | .ok y => _)) s
      cases f x with
      | error e => exact .lift_error_bind
      | ok y =>
        refine .lift_ok_bind ?_
        by_cases h0 : child = 0
        · simp only [dif_pos h0]; exact .pure _
        · simp only [dif_neg h0]
          exact ih _ _ (by omega)

end

macro "calls" : tactic => `(tactic| (rw [Calls.le_iff]; simp only [Calls.add_cmp, Calls.add_key, Calls.add_node, Calls.add_built,
  Calls.add_moved, Calls.add_shifted, Calls.add_reshaped, Calls.add_sorted, Calls.zero_cmp, Calls.zero_key, Calls.zero_node, Calls.zero_built,
  Calls.zero_moved, Calls.zero_shifted, Calls.zero_reshaped, Calls.zero_sorted]; omega))

/-! ## The positional index -/

section
variable {α κ : Type} {k : α → κ} {lt : κ → κ → Bool} {keyed : Bool} {ilog2 : Nat → Nat} {s : St α κ}

theorem Tree.depth_le {index lens : List Nat} {offset d : Nat} (h : TreeOK index offset lens) (hd : offset + 1 = 2 ^ d)
    (hs : offset + 1 ≤ 2 * lens.length) : d ≤ bits lens.length := by
  have := lt_pow_bits lens.length
  have h2 : 2 ^ d < 2 ^ (bits lens.length + 1) := by rw [Nat.pow_succ]; omega
  have := (Nat.pow_lt_pow_iff_right (by decide : 1 < 2)).1 h2
  omega

/-- The facts about the index that bound the walks. -/
structure Walks (index : List Nat) (offset m : Nat) : Prop where
  up : ∀ p, p < m → p + offset + 1 < 2 ^ (bits m + 1)
  down : index.length < (1 + 1) * 2 ^ bits m
  size : index.length ≤ 3 * m

theorem Walks.of {index lens : List Nat} {offset : Nat} (h : TreeOK index offset lens) (hs : offset + 1 ≤ 2 * lens.length) :
    Walks index offset lens.length := by
  obtain ⟨d, hd⟩ := h.depth
  have h1 := Tree.depth_le h hd hs
  have h2 : 2 ^ d ≤ 2 ^ bits lens.length := Nat.pow_le_pow_right (by decide) h1
  have h3 := h.fits
  have h4 := h.length_eq
  exact ⟨fun p hp => by rw [Nat.pow_succ]; omega, by omega, by omega⟩

theorem Inv.walks (h : Inv k lt keyed s) (hs : Snug s) (hne : s.index ≠ []) : Walks s.index s.offset s.lists.length := by
  have ht := (h.index_ok hne).1
  have hs := hs.resolve_left hne
  have h4 := ht.length_eq
  have := Walks.of ht (by rw [List.length_map] at *; omega)
  rwa [List.length_map] at this

theorem Inv.ensureIndex_walks (hlog : ∀ n, 1 ≤ n → n < 2 ^ (ilog2 n + 1)) (ht : Log2Tight ilog2) (h : Inv k lt keyed s)
    (hs : Snug s) (h2 : 2 ≤ s.lists.length) :
    ∃ s', Core.ensureIndex ilog2 s = (.ok (), s') ∧ Reindexed s s' ∧ Inv k lt keyed s' ∧ Snug s' ∧
      Walks s'.index s'.offset s.lists.length ∧ s'.index ≠ [] := by
  obtain ⟨s', e, hr, hi, hT⟩ := h.ensureIndex hlog h2
  have hs' : Snug s' := by
    have := (ensureIndex_trim hlog ht (L := s.lists) (by intro h; rw [h] at h2; simp at h2) s rfl hs).1
    rwa [e] at this
  have hne : s'.index ≠ [] := by
    intro h0
    have := hT.length_eq
    rw [h0, hr.lists] at this
    simp at this; omega
  refine ⟨s', e, hr, hi, hs', ?_, hne⟩
  have := hi.walks hs' hne
  rwa [hr.lists] at this

/-- The most entries that building a missing index may create. -/
def debt (s : St α κ) : Nat := if s.index = [] then 3 * s.lists.length else 0

theorem debt_le (s : St α κ) : debt s ≤ 3 * s.lists.length := by
  unfold debt; split <;> omega

theorem ensureIndex_counts (hlog : ∀ n, 1 ≤ n → n < 2 ^ (ilog2 n + 1)) (ht : Log2Tight ilog2) (h : Inv k lt keyed s)
    (hs : Snug s) (h2 : 2 ≤ s.lists.length) :
    Counts { built := debt s - debt (Core.ensureIndex ilog2 s).2 } (Counted.ensureIndex ilog2) (Core.ensureIndex ilog2) s := by
  obtain ⟨s', e, hr, hi, hs', hw, hne⟩ := h.ensureIndex_walks hlog ht hs h2
  rw [e]
  refine .get_bind ?_
  by_cases hix : s.index = []
  · rw [if_pos hix, if_pos hix]
    simp only [Core.ensureIndex, Py.get_bind, if_pos hix] at e
    intro c
    refine ⟨{ built := s'.index.length }, ?_, ?_⟩
    · have := hw.size
      rw [Calls.le_iff]
      refine ⟨Nat.le_refl _, Nat.le_refl _, Nat.le_refl _, ?_⟩
      simp only [debt, if_pos hix, if_neg hne]
      omega
    · simp only [Counted.buildIndex, e]; rfl
  · rw [if_neg hix, if_neg hix]; exact .pure _

section
variable (hlog : ∀ n, 1 ≤ n → n < 2 ^ (ilog2 n + 1)) (ht : Log2Tight ilog2)
include hlog ht

/-- A conversion pays for building the index by the drop of the debt. -/
theorem loc_counts' (h : Inv k lt keyed s) (hs : Snug s) {p : Nat} (hp : p < s.lists.length) (i : Nat) :
    Counts { node := bits s.lists.length, built := debt s - debt (Core.loc ilog2 p i s).2 } (Counted.loc ilog2 p i)
      (Core.loc ilog2 p i) s := by
  by_cases hp0 : p = 0
  · unfold Counted.loc Core.loc; rw [if_pos hp0, if_pos hp0]; exact .pure _
  have h2 : 2 ≤ s.lists.length := by omega
  obtain ⟨s', e, hr, hi, hs', hw, hne⟩ := h.ensureIndex_walks hlog ht hs h2
  have hs2 : (Core.loc ilog2 p i s).2 = s' := by
    unfold Core.loc
    rw [if_neg hp0, Py.bind_ok e, Py.get_bind]
    cases Core.locLoop s'.index (p + s'.offset) 0 <;> rfl
  rw [hs2]
  unfold Counted.loc Core.loc
  rw [if_neg hp0, if_neg hp0]
  have key := Counts.bind (ensureIndex_counts hlog ht h hs h2) (B' := { node := bits s.lists.length })
    (fc := fun _ => do
      let s ← CPy.free Py.get
      let total ← Counted.locLoop s.index (p + s.offset) 0
      Pure.pure (total + i))
    (f := fun _ => do
      let s ← Py.get
      let total ← Py.lift (Core.locLoop s.index (p + s.offset) 0)
      Pure.pure (total + i)) fun _ _ => by
        rw [e]
        refine .get_bind ?_
        exact (Counts.lifted_bind (B' := 0) (locLoop_counts _ _ _ _ _ (hw.up p hp)) fun _ _ => .pure _).mono (by calls)
  rw [e] at key
  exact key.mono (by calls)

theorem loc_after (h : Inv k lt keyed s) (hs : Snug s) {p : Nat} (hp : p < s.lists.length) (i : Nat) :
    Inv k lt keyed (Core.loc ilog2 p i s).2 ∧ Snug (Core.loc ilog2 p i s).2 ∧ Reindexed s (Core.loc ilog2 p i s).2 := by
  have hl : s.lists = s.lists.take p ++ s.lists[p] :: s.lists.drop (p + 1) := by
    rw [List.getElem_cons_drop hp, List.take_append_drop]
  obtain ⟨s', e, hr, hi⟩ := h.loc hlog hl i
  rw [List.length_take, Nat.min_eq_left (by omega)] at e
  have := (loc_trim hlog ht (L := s.lists) (by intro h; rw [h] at hp; simp at hp) p i s rfl hs).1
  rw [e] at this ⊢
  exact ⟨hi, this, hr⟩

theorem debt_loc (h : Inv k lt keyed s) (hs : Snug s) {p : Nat} (hp : p < s.lists.length) (i : Nat) :
    debt (Core.loc ilog2 p i s).2 ≤ debt s := by
  by_cases hix : s.index = []
  · have := debt_le (Core.loc ilog2 p i s).2
    rw [(loc_after hlog ht h hs hp i).2.2.lists] at this
    rwa [show debt s = 3 * s.lists.length by rw [debt, if_pos hix]]
  · have : (Core.loc ilog2 p i s).2 = s := by
      have e : Core.ensureIndex ilog2 s = (.ok (), s) := by
        unfold Core.ensureIndex
        rw [Py.get_bind, if_neg hix]; rfl
      unfold Core.loc
      split
      · rfl
      · rw [Py.bind_ok e, Py.get_bind]
        cases Core.locLoop s.index (p + s.offset) 0 <;> rfl
    rw [this]; exact Nat.le_refl _

theorem loc_counts (h : Inv k lt keyed s) (hs : Snug s) {p : Nat} (hp : p < s.lists.length) (i : Nat) :
    Counts { node := bits s.lists.length, built := debt s } (Counted.loc ilog2 p i) (Core.loc ilog2 p i) s :=
  (loc_counts' hlog ht h hs hp i).mono (by calls)

theorem posNonneg_counts (h : Inv k lt keyed s) (hs : Snug s) {i : Nat} (hi : i < s.len) :
    Counts { node := bits s.lists.length, built := debt s } (Counted.posNonneg ilog2 i) (Core.posNonneg ilog2 i) s := by
  refine .get_bind (.lift_bind fun first hf => .ite (fun _ => .pure _) fun hge => ?_)
  have h2 : 2 ≤ s.lists.length := by
    rw [h.len_eq] at hi
    match hL : s.lists with
    | [] => rw [hL] at hf; cases hf
    | [l] => rw [hL] at hf hi; cases hf; simp at hi; omega
    | _ :: _ :: _ => simp
  obtain ⟨s', e, hr, hi, hs', hw, hne⟩ := h.ensureIndex_walks hlog ht hs h2
  refine (Counts.bind (B' := { node := bits s.lists.length }) ((ensureIndex_counts hlog ht h hs h2).mono (B' := { built := debt s })
    (by calls)) fun _ _ => ?_).mono (by calls)
  rw [e]
  refine .get_bind ?_
  have key := Counts.bind (B' := 0) (posLoop_counts s'.index _ s' 0 1 i hw.down)
    (fc := fun (x : Nat × Nat) => if x.1 < s'.offset then CPy.free (Py.raise .modelGap) else Pure.pure (x.1 - s'.offset, x.2))
    (f := fun (x : Nat × Nat) => if x.1 < s'.offset then Py.raise .modelGap else Pure.pure (x.1 - s'.offset, x.2))
    fun x hx => .ite (fun _ => .free _) fun _ => .pure _
  exact key.mono (by calls)

theorem pos_counts (h : Inv k lt keyed s) (hs : Snug s) (i : Int) :
    Counts { node := bits s.lists.length, built := debt s } (Counted.pos ilog2 i) (Core.pos ilog2 i) s := by
  refine .get_bind (.ite (fun _ => .lift_bind fun last hl => .ite (fun _ => .pure _) fun _ => .ite (fun _ => .free _) fun _ => ?_)
    fun _ => .ite (fun _ => .free _) fun _ => ?_)
  · exact posNonneg_counts hlog ht h hs (by omega)
  · exact posNonneg_counts hlog ht h hs (by omega)

theorem getInt_counts (h : Inv k lt keyed s) (hs : Snug s) (i : Int) :
    Counts { node := bits s.lists.length, built := debt s } (Counted.getInt ilog2 i) (Core.getInt ilog2 i) s := by
  refine .get_bind (.ite (fun _ => .ite (fun _ => .lift_bind fun _ _ => .free _) fun _ => .ite (fun _ => .lift_bind fun _ _ => .free _)
    fun _ => .lift_bind fun _ _ => .ite (fun _ => .free _) fun _ => .lift_bind fun _ _ => .ite (fun _ => .free _) fun _ => ?_)
    fun _ => .free _)
  refine (Counts.bind (B' := 0) (pos_counts hlog ht h hs i) fun x _ => ?_).mono (by calls)
  exact .lift_bind fun _ _ => .free _

end

theorem touchIndex_counts (f : Nat → Except PyErr Nat) (b p : Nat)
    (h : s.index ≠ [] → p + s.offset + 1 < 2 ^ (b + 1)) :
    Counts { node := b + 1 } (Counted.touchIndex f p) (Core.touchIndex f p) s := by
  refine .get_bind (.ite (fun _ => .pure _) fun hne => ?_)
  refine (Counts.lifted_bind (B' := 0) (bumpPath_counts f b s _ _ ?_) fun _ _ => .free _).mono (by calls)
  have := h hne
  omega

end
end Verif
