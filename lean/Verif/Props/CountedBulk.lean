import Verif.Proofs.CountedBulkSets
/-!
# C68: what updates with many values cost

`d.sorted` is the number of values given to the built-in `sorted`; the comparisons that `sorted` makes are not in `d.cmp`.  `k` is the
number of values in the arguments and `n` the number of values in the object before the call.
-/

namespace Verif

theorem ListClass.keyCost {α : Type} (c : ListClass α) {x m : Nat} (h : x ≤ (c.width - 1) * m) : x ≤ if c.hasKey then m else 0 := by
  unfold ListClass.width at h
  split at h <;> simp_all

section Lists
variable {α κ : Type}

/-- C68: `sl.update(xs)` on a SortedList: at most `6 k` values are sorted, and the comparisons outside of `sorted` are those of `k`
calls of `add`. -/
theorem C68_sortedlist {E : Env α} {lt : α → α → Bool} {s : St α α} (hE : E.Lawful lt) (ht : Log2Tight E.ilog2)
    (hs : (SL.api E).Reachable s) (xs : List α) :
    Metered (Counted.SL.update E.metered xs) (SL.update E xs) s (fun d =>
      d.cmp ≤ xs.length * (Nat.log2 ((Core.iter s).length + xs.length) + 6) ∧ d.sorted ≤ 6 * xs.length ∧ d.key = 0 ∧
      d.node ≤ xs.length * (Nat.log2 ((Core.iter s).length + xs.length) + 2) ∧ d.built = 0 ∧ d.moved ≤ xs.length * (4 * s.load + 3) ∧
      d.reshaped ≤ xs.length) := by
  refine (SL.update_counts hE ht hs rfl rfl xs).metered fun d hd => ?_
  rw [Calls.le_iff] at hd
  dsimp only at hd
  omega

/-- C68: `skl.update(xs)` on a SortedKeyList: besides, the key function is called at most `11 k` times. -/
theorem C68_sortedkeylist {K : KEnv α κ} {key : α → κ} {klt : κ → κ → Bool} {veq : α → α → Bool} {s : St α κ}
    (hK : K.Lawful key klt veq) (ht : Log2Tight K.ilog2) (hs : SKL.Reachable K s) (xs : List α) :
    Metered (Counted.SKL.update K.metered xs) (SKL.update K xs) s (fun d =>
      d.cmp ≤ xs.length * (Nat.log2 ((Core.iter s).length + xs.length) + 6) ∧ d.sorted ≤ 6 * xs.length ∧ d.key ≤ 11 * xs.length ∧
      d.node ≤ xs.length * (Nat.log2 ((Core.iter s).length + xs.length) + 2) ∧ d.built = 0 ∧ d.moved ≤ xs.length * (2 * (4 * s.load + 3)) ∧
      d.reshaped ≤ xs.length) := by
  refine (SKL.update_counts hK ht hs rfl rfl xs).metered fun d hd => ?_
  rw [Calls.le_iff] at hd
  dsimp only at hd
  omega

/-- C68: an empty list is filled (also by the constructor, which calls `update`) without any comparison other than those of one call of
`sorted`; each value is copied once, and with a key function also its key, which is computed twice. -/
theorem C68_fill {E : Env α} {lt : α → α → Bool} {s : St α α} (hE : E.Lawful lt) (ht : Log2Tight E.ilog2)
    (hs : (SL.api E).Reachable s) (h0 : Core.iter s = []) (xs : List α) :
    Metered (Counted.SL.update E.metered xs) (SL.update E xs) s (fun d =>
      d.cmp = 0 ∧ d.sorted ≤ xs.length ∧ d.key = 0 ∧ d.node = 0 ∧ d.built = 0 ∧ d.moved ≤ xs.length ∧ d.shifted = 0 ∧ d.reshaped = 0) := by
  have h := (SL.ready hE ht hs).inv
  refine (SL.update_counts_empty hE (h.maxes.nil_iff.2 (h.lists_nil h0)) xs).metered fun d hd => ?_
  rw [Calls.le_iff] at hd
  dsimp only at hd
  omega

theorem C68_key_fill {K : KEnv α κ} {key : α → κ} {klt : κ → κ → Bool} {veq : α → α → Bool} {s : St α κ}
    (hK : K.Lawful key klt veq) (ht : Log2Tight K.ilog2) (hs : SKL.Reachable K s) (h0 : Core.iter s = []) (xs : List α) :
    Metered (Counted.SKL.update K.metered xs) (SKL.update K xs) s (fun d =>
      d.cmp = 0 ∧ d.sorted ≤ xs.length ∧ d.key ≤ 2 * xs.length ∧ d.node = 0 ∧ d.built = 0 ∧ d.moved ≤ 2 * xs.length ∧ d.shifted = 0 ∧
      d.reshaped = 0) := by
  have h := (SKL.ready hK ht hs).inv
  refine (SKL.update_counts_empty hK h (h.maxes.nil_iff.2 (h.lists_nil h0)) xs).metered fun d hd => ?_
  rw [Calls.le_iff] at hd
  dsimp only at hd
  omega

end Lists

/-- C68: `sd.update(arg)` with `k` items on a SortedDict of `n` keys. -/
theorem C68_dict {κ ν : Type} {c : ListClass κ} {lt eqv : κ → κ → Bool} {s : SD κ ν c.State} (hc : c.Orders lt eqv) (he : IsEquiv eqv)
    (ht : c.Tight) (hs : SD.Reachable eqv c.api s) (arg : DictArg κ ν) {k n : Nat} (hk : arg.items.length = k) (hn : SD.length s = n) :
    Metered (SD.metering (SD.update eqv c.metered arg)) (SD.update eqv c.api arg) s (fun d =>
      d.cmp ≤ k * (Nat.log2 (n + k) + 6) ∧ d.sorted ≤ 11 * k ∧ (d.key ≤ if c.hasKey then 22 * k else 0) ∧
      d.node ≤ k * (Nat.log2 (n + k) + 2) ∧ d.built = 0 ∧ d.moved ≤ c.width * (k * (4 * c.load s.list + 7)) ∧ d.reshaped ≤ k) := by
  subst hk
  have hl := (C44_two_stores hc he hs).2.2.2.2.1
  refine (SD.update_counts hc ht (SD.list_reached hs) (hl.symm.trans hn) hn rfl arg).metered fun d hd => ?_
  rw [Calls.le_iff] at hd
  dsimp only at hd
  obtain ⟨h1, h2, h3, h4, h5, h6, h7, h8⟩ := hd
  exact ⟨h1, h8, c.keyCost h2, h3, by omega, h5, h7⟩

section Set
variable {τ α : Type} {c : ListClass α} {lt eqv : α → α → Bool} {S : SetOps τ α} {s : SS τ c.State} (hc : c.Orders lt eqv)
  (hS : S.Lawful eqv) (ht : c.Tight) (hs : SS.Reachable S c.api s)
include hc hS ht hs

/-- C68: `ss.update(*xss)` (also `ss |= xs`) with `k` values in all on a SortedSet of `n` values. -/
theorem C68_set_update (xss : List (List α)) {k n : Nat} (hk : xss.flatten.length = k) (hn : SS.length S s = n) :
    Metered (SS.metering (SS.update S c.metered xss)) (SS.update S c.api xss) s (fun d =>
      d.cmp ≤ k * (Nat.log2 (n + k) + 6) ∧ d.sorted ≤ 5 * k ∧ (d.key ≤ if c.hasKey then 10 * k else 0) ∧
      d.node ≤ k * (Nat.log2 (n + k) + 2) ∧ d.built = 0 ∧ d.moved ≤ c.width * (k * (4 * c.load s.list + 3)) ∧ d.reshaped ≤ k) := by
  have hl := (C36_two_stores hc hS hs).2.2.2
  refine (SS.update_counts hc ht hS (SS.list_reached hs) (hl.symm.trans hn) rfl xss hk).metered fun d hd => ?_
  rw [Calls.le_iff] at hd
  dsimp only at hd
  obtain ⟨h1, h2, h3, h4, h5, h6, h7, h8⟩ := hd
  exact ⟨h1, h8, c.keyCost h2, h3, by omega, h5, h7⟩

/-- C68: `ss.difference_update(*xss)` (also `ss -= xs`), if at most `A` values of the set have the same key. -/
theorem C68_set_difference_update (xss : List (List α)) {k n A : Nat} (hk : xss.flatten.length = k) (hn : SS.length S s = n)
    (hA : ∀ v, c.alike lt (SS.iter c.api s) v ≤ A) :
    Metered (SS.metering (SS.differenceUpdate S c.metered xss)) (SS.differenceUpdate S c.api xss) s (fun d =>
      d.cmp ≤ k * (Nat.log2 n + 7 + 2 * A) ∧ d.sorted ≤ 4 * k ∧ (d.key ≤ if c.hasKey then 8 * k else 0) ∧
      d.node ≤ k * (Nat.log2 n + 2) ∧ d.built = 0 ∧ d.moved ≤ c.width * (k * (12 * c.load s.list)) ∧ d.reshaped ≤ 2 * k) := by
  have hl := (C36_two_stores hc hS hs).2.2.2
  refine (SS.differenceUpdate_counts hc ht hS (SS.list_reached hs) (hl.symm.trans hn) rfl xss hk hA).metered fun d hd => ?_
  rw [Calls.le_iff] at hd
  dsimp only at hd
  obtain ⟨h1, h2, h3, h4, h5, h6, h7, h8⟩ := hd
  exact ⟨h1, h8, c.keyCost h2, h3, by omega, h5, by omega⟩

/-- C68: `ss.intersection_update(*xss)` (also `ss &= xs`) and `ss.symmetric_difference_update(xs)` (also `ss ^= xs`) sort the values of
the result and make no comparison besides. -/
theorem C68_set_rebuild (xss : List (List α)) (xs : List α) {n : Nat} (hn : SS.length S s = n) :
    Metered (SS.metering (SS.intersectionUpdate S c.metered xss)) (SS.intersectionUpdate S c.api xss) s (fun d =>
      d.cmp = 0 ∧ d.sorted ≤ n ∧ (d.key ≤ if c.hasKey then 2 * n else 0) ∧ d.node = 0 ∧ d.built = 0 ∧ d.moved ≤ c.width * n ∧ d.reshaped = 0) ∧
    Metered (SS.metering (SS.symmetricDifferenceUpdate S c.metered xs)) (SS.symmetricDifferenceUpdate S c.api xs) s (fun d =>
      d.cmp = 0 ∧ d.sorted ≤ n + xs.length ∧ (d.key ≤ if c.hasKey then 2 * (n + xs.length) else 0) ∧ d.node = 0 ∧ d.built = 0 ∧
      d.moved ≤ c.width * (n + xs.length) ∧ d.reshaped = 0) := by
  refine ⟨(SS.intersectionUpdate_counts hc ht hS (SS.list_reached hs) hn xss).metered fun d hd => ?_,
    (SS.symmetricDifferenceUpdate_counts hc ht hS (SS.list_reached hs) hn xs).metered fun d hd => ?_⟩ <;>
  · rw [Calls.le_iff] at hd
    unfold ListClass.fillCost at hd
    dsimp only at hd
    obtain ⟨h1, h2, h3, h4, h5, h6, h7, h8⟩ := hd
    exact ⟨by omega, h8, c.keyCost h2, by omega, by omega, h5, by omega⟩

end Set

/-! ## The hypotheses are met -/

section Examples
open Demo

example := C68_sortedlist intEnv_lawful log2_tight sl_reachable [6]
example := C68_sortedkeylist tensEnv_lawful log2_tight skl_reachable [35, 6, 71]

example := C68_dict tensClass_orders ieqv_equiv tensClass_tight dict2_reachable (.pairs [(33, 0), (35, 1)] none) rfl rfl
example := C68_set_update tensClass_orders (iset_lawful true) tensClass_tight set2_reachable [[33, 1], [35]] rfl rfl
example := C68_set_rebuild tensClass_orders (iset_lawful true) tensClass_tight set2_reachable [[33, 1], [35]] [7, 33] rfl
example := C68_set_difference_update tensClass_orders (iset_lawful true) tensClass_tight set2_reachable [[33, 35], [33]] (A := 7) rfl rfl
  (fun v => Nat.le_trans (show _ ≤ (SS.iter tensClass.api set2).length from List.countP_le_length) (by decide +kernel))
example := C68_fill intEnv_lawful log2_tight (s := St.empty) (.new (xs := none) rfl) rfl [6, 1, 5]
example := C68_key_fill tensEnv_lawful log2_tight (s := St.empty) (.new (xs := none) rfl) rfl [6, 1, 5]

/-- One value among eight is added by itself.  Two values make the list sort them and then all ten: the bound `6 k` is met. -/
example : (Counted.SL.update intEnv.metered [6] (sl, {})).2.2 = { cmp := 4, node := 4, moved := 2, sorted := 1 } ∧
    (Counted.SL.update intEnv.metered [6, 1] (sl, {})).2.2 = { moved := 10, sorted := 12 } := by decide +kernel
example : (SS.metering (SS.differenceUpdate (iset true) tensClass.metered [[33, 35], [33]]) (set2, {})).2.2 =
    { key := 12, moved := 12, sorted := 6 } := by decide +kernel

end Examples
end Verif
