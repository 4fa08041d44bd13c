import Verif.Proofs.AmortisedHist
import Verif.Props.Counted
/-!
# What a history of calls costs, all together (C66)

A single `add` or `del` may split or merge sublists, which moves a whole sublist, shifts the list of sublists and throws
the positional index away, to be built again by the next call that needs it.  The claim of the library
(docs/performance-scale.rst, docs/implementation.rst) is that this is rare: over a history of calls the cost of that work
is spread out.

The meter of `Model/Counted.lean` counts over the whole history
* `reshaped`: the sublists split, merged or removed,
* `moved`: the values moved inside sublists (inserting, deleting, splitting, merging),
* `shifted`: the entries of the lists of sublists (and of their maxima, and of the lists of keys) that are shifted,
* `built`: the entries of new positional indexes.

The histories are any sequences of `add`, of `discard`, `remove`, `del sl[i]`, `pop`, and of the searches (`Op.search`),
with any arguments, failing calls included.
-/

namespace Verif

/-- Running `ops` from `s` with the meter gives the same outcomes and the same object as without, and the final reading,
started at zero, satisfies `b`. -/
def MeteredHist {σ β O : Type} (stepc : O → CPy σ β) (step : O → Py σ β) (ops : List O) (s : σ) (b : Calls → Prop) : Prop :=
  (runHist stepc ops (s, {})).1 = (runHist step ops s).1 ∧ (runHist stepc ops (s, {})).2.1 = (runHist step ops s).2 ∧
    b (runHist stepc ops (s, {})).2.2

/-- Over how many sublists `N` values can be spread with load factor `L`: all but the last hold at least `L / 2`. -/
def mostSublists (N L : Nat) : Nat := N / max 1 (L / 2) + 1

/-- The budget of a history with `m` calls that add or delete, on an object with load factor `L` that never holds more
than `N` values; `w` parallel lists (one, or two with keys).  `P` is what the history may spend on splits and merges: each
of them takes `L / 2`, and every call contributes at most two. -/
structure Budget (w L N P m : Nat) (c : Calls) : Prop where
  reshaped : L / 2 * c.reshaped ≤ P
  twice : c.reshaped ≤ 2 * m
  moved : c.moved ≤ m * (w * (12 * L))
  shifted : c.shifted ≤ (w + 1) * (mostSublists N L * c.reshaped + m)
  built : c.built ≤ 3 * mostSublists N L * (c.reshaped + 1)

theorem Bill.budget {α κ : Type} {w N a r P : Nat} {s s' : St α κ} {d : Calls} (h : Bill w (mostSublists N s.load) a r s s' d)
    (h2 : d.reshaped ≤ 2 * (a + r)) (hP : pot s.load s.lists ≤ P) : Budget w s.load N (P + a + 2 * r) (a + r) d := by
  obtain ⟨g1, g2, g3, g4, g5⟩ := h
  refine ⟨by omega, h2, g5, g3, ?_⟩
  rw [Nat.mul_add, Nat.mul_one]
  have : owed (mostSublists N s.load) s ≤ 3 * mostSublists N s.load := by unfold owed; split <;> omega
  omega

/-- The histories of C66 on a SortedList. -/
def Op.metered {α : Type} (op : Op α) : Prop := (op.adds || op.deletes || op.search) = true
/-- The histories of C66 on a SortedKeyList. -/
def KOp.metered {α κ : Type} (op : KOp α κ) : Prop := (op.adds || op.deletes || op.search) = true

theorem Op.metered.valid {α : Type} {op : Op α} (h : op.metered) : op.Valid := by
  cases op <;> first | trivial | cases h
theorem KOp.metered.valid {α κ : Type} {op : KOp α κ} (h : op.metered) : op.Valid := by
  cases op with
  | op o => exact Op.metered.valid h
  | _ => trivial

section SortedList
variable {α : Type} {E : Env α} {lt : α → α → Bool} {s : St α α} (hE : E.Lawful lt) (ht : Log2Tight E.ilog2)
  (hs : (SL.api E).Reachable s) {ops : List (Op α)} (hops : ∀ op ∈ ops, op.metered) {N : Nat}
include hE ht hs hops

theorem SL.hist_budget (hN : ∀ ops', ops' <+: ops → (Core.iter (runHist (SL.api E).step ops' s).2).length ≤ N) {P : Nat}
    (hP : pot s.load s.lists ≤ P) :
    MeteredHist (Counted.SL.step E.metered) (SL.api E).step ops s
      (Budget 1 s.load N (P + ops.countP Op.adds + 2 * ops.countP Op.deletes) (ops.countP Op.adds + ops.countP Op.deletes)) := by
  obtain ⟨d, e, h1, h2⟩ := runHist_bill (step := (SL.api E).step) (stepc := Counted.SL.step E.metered)
    (P := (SL.api E).Reachable) (ok := Op.metered) (adds := Op.adds) (dels := Op.deletes) (w := 1) (K := mostSublists N s.load)
    (L := s.load) (N := N) (fun s op h ho => .step op ho.valid h)
    (fun s op h ho hK => SL.step_billed hE ht (SL.ready hE ht h) hK ho)
    (fun s' h e hn => by unfold mostSublists; rw [← e]; exact (SL.ready hE ht h).inv.spread hn)
    ops s {} hs rfl hops hN
  rw [show ({} : Calls) + d = d from Calls.zero_add d] at e
  exact ⟨by rw [e], by rw [e], by rw [e]; exact h1.budget h2 hP⟩

/-- C66: the budget of a history from any object: splits and merges take at most `4 n + 2 L` plus one per added and two
per deleted value. -/
theorem C66_sortedlist (hN : ∀ ops', ops' <+: ops → (Core.iter (runHist (SL.api E).step ops' s).2).length ≤ N) :
    MeteredHist (Counted.SL.step E.metered) (SL.api E).step ops s
      (Budget 1 s.load N (4 * (Core.iter s).length + 2 * s.load + ops.countP Op.adds + 2 * ops.countP Op.deletes)
        (ops.countP Op.adds + ops.countP Op.deletes)) :=
  SL.hist_budget hE ht hs hops hN (SL.ready hE ht hs).inv.pot

/-- C66: from an empty object, one per added and two per deleted value. -/
theorem C66_sortedlist_from_empty (h0 : Core.iter s = [])
    (hN : ∀ ops', ops' <+: ops → (Core.iter (runHist (SL.api E).step ops' s).2).length ≤ N) :
    MeteredHist (Counted.SL.step E.metered) (SL.api E).step ops s
      (Budget 1 s.load N (ops.countP Op.adds + 2 * ops.countP Op.deletes) (ops.countP Op.adds + ops.countP Op.deletes)) := by
  have := SL.hist_budget hE ht hs hops hN (P := 0) (by rw [(SL.ready hE ht hs).inv.pot_empty h0]; exact Nat.le_refl _)
  rwa [Nat.zero_add] at this

/-- C66: from an object whose sublists are packed (`C66_packed`), `2 L` plus one per added and two per deleted value. -/
theorem C66_sortedlist_from_packed (h0 : Packed s)
    (hN : ∀ ops', ops' <+: ops → (Core.iter (runHist (SL.api E).step ops' s).2).length ≤ N) :
    MeteredHist (Counted.SL.step E.metered) (SL.api E).step ops s
      (Budget 1 s.load N (2 * s.load + ops.countP Op.adds + 2 * ops.countP Op.deletes)
        (ops.countP Op.adds + ops.countP Op.deletes)) :=
  SL.hist_budget hE ht hs hops hN h0.pot

omit hops in
/-- C66: however many searches are made, the positional index is built at most once, with at most three entries per
sublist, and nothing else is written. -/
theorem C66_sortedlist_searches (hops : ∀ op ∈ ops, op.search = true) :
    MeteredHist (Counted.SL.step E.metered) (SL.api E).step ops s fun c =>
      c.built ≤ 3 * s.lists.length ∧ (s.index ≠ [] → c.built = 0) ∧ c.moved = 0 ∧ c.shifted = 0 ∧ c.reshaped = 0 := by
  have hq : ∀ op : Op α, op.search = true → op.isQuery = true := by intro op; cases op <;> simp [Op.search, Op.isQuery]
  have hm : ∀ op : Op α, op.search = true → op.metered := fun op h => by simp [Op.metered, h]
  have hre : ∀ (ops : List (Op α)) (s : St α α), (∀ op ∈ ops, op.search = true) → (runHist (SL.api E).step ops s).2.lists = s.lists := by
    intro ops
    induction ops with
    | nil => intros; rfl
    | cons op ops ih =>
      intro s h
      simp only [runHist]
      rw [ih _ fun o ho => h o (by simp [ho])]
      exact ((SL.step_quiet E _ (hq op (h op (by simp)))).reindexed s).lists
  have ha : ops.countP Op.adds = 0 := by
    rw [List.countP_eq_zero]; intro op ho; have := hops op ho; revert this; cases op <;> simp [Op.search, Op.adds]
  have hr : ops.countP Op.deletes = 0 := by
    rw [List.countP_eq_zero]; intro op ho; have := hops op ho; revert this; cases op <;> simp [Op.search, Op.deletes]
  obtain ⟨d, e, h1, h2⟩ := runHist_bill (step := (SL.api E).step) (stepc := Counted.SL.step E.metered)
    (P := fun s' => (SL.api E).Reachable s' ∧ s'.lists = s.lists) (ok := fun op => op.search = true) (adds := Op.adds)
    (dels := Op.deletes) (w := 1) (K := s.lists.length) (L := s.load) (N := (Core.iter s).length)
    (fun s op h ho => ⟨.step op (hm op ho).valid h.1, ((SL.step_quiet E _ (hq op ho)).reindexed s).lists.trans h.2⟩)
    (fun s op h ho hK => SL.step_billed hE ht (SL.ready hE ht h.1) hK (hm op ho))
    (fun s' h _ _ => by rw [h.2]; exact Nat.le_refl _)
    ops s {} ⟨hs, rfl⟩ rfl hops (fun ops' hp => by
      unfold Core.iter; rw [hre ops' s fun o ho => hops o (hp.subset ho)]; exact Nat.le_refl _)
  rw [show ({} : Calls) + d = d from Calls.zero_add d] at e
  rw [ha, hr] at h1 h2
  obtain ⟨g1, g2, g3, g4, g5⟩ := h1
  have h0 : d.reshaped = 0 := by omega
  refine ⟨by rw [e], by rw [e], ?_⟩
  rw [e]
  rw [h0] at g4 g3
  refine ⟨?_, fun hi => ?_, by dsimp only; omega, by dsimp only; omega, h0⟩
  · have : owed s.lists.length s ≤ 3 * s.lists.length := by unfold owed; split <;> omega
    dsimp only; omega
  · have : owed s.lists.length s = 0 := by unfold owed; rw [if_neg hi]
    dsimp only; omega

end SortedList

/-- C66: `SortedList(xs)`, `SortedKeyList(xs, key)` and `_reset(L)` pack the sublists. -/
theorem C66_packed {α κ : Type} (E : Env α) (K : KEnv α κ) :
    (∀ xs s, SL.new E xs = .ok s → Packed s ∧ s.load = 1000) ∧
    (∀ xs s, SKL.new K xs = .ok s → Packed s ∧ s.load = 1000) ∧
    (∀ s L, 1 ≤ L → (Core.reset (SL.methods E) L s).1 = .ok () →
      Packed (Core.reset (SL.methods E) L s).2 ∧ (Core.reset (SL.methods E) L s).2.load = L) ∧
    (∀ s L, 1 ≤ L → (Core.reset (SKL.methods K) L s).1 = .ok () →
      Packed (Core.reset (SKL.methods K) L s).2 ∧ (Core.reset (SKL.methods K) L s).2.load = L) :=
  ⟨fun _ _ => SL.new_packed, fun _ _ => SKL.new_packed, fun _ _ => SL.reset_packed, fun _ _ => SKL.reset_packed⟩

section SortedKeyList
variable {α κ : Type} {K : KEnv α κ} {key : α → κ} {klt : κ → κ → Bool} {veq : α → α → Bool} {s : St α κ}
  (hK : K.Lawful key klt veq) (ht : Log2Tight K.ilog2) (hs : SKL.Reachable K s)
  {ops : List (KOp α κ)} (hops : ∀ op ∈ ops, op.metered) {N : Nat}
include hK ht hs hops

theorem SKL.hist_budget (hN : ∀ ops', ops' <+: ops → (Core.iter (runHist (SKL.kstep K) ops' s).2).length ≤ N) {P : Nat}
    (hP : pot s.load s.lists ≤ P) :
    MeteredHist (Counted.SKL.step K.metered) (SKL.kstep K) ops s
      (Budget 2 s.load N (P + ops.countP KOp.adds + 2 * ops.countP KOp.deletes) (ops.countP KOp.adds + ops.countP KOp.deletes)) := by
  obtain ⟨d, e, h1, h2⟩ := runHist_bill (step := SKL.kstep K) (stepc := Counted.SKL.step K.metered)
    (P := SKL.Reachable K) (ok := KOp.metered) (adds := KOp.adds) (dels := KOp.deletes) (w := 2) (K := mostSublists N s.load)
    (L := s.load) (N := N) (fun s op h ho => .step op ho.valid h)
    (fun s op h ho hl => SKL.step_billed hK ht (SKL.ready hK ht h) hl ho)
    (fun s' h e hn => by unfold mostSublists; rw [← e]; exact (SKL.ready hK ht h).inv.spread hn)
    ops s {} hs rfl hops hN
  rw [show ({} : Calls) + d = d from Calls.zero_add d] at e
  exact ⟨by rw [e], by rw [e], by rw [e]; exact h1.budget h2 hP⟩

/-- C66 for a SortedKeyList, from any object. -/
theorem C66_sortedkeylist (hN : ∀ ops', ops' <+: ops → (Core.iter (runHist (SKL.kstep K) ops' s).2).length ≤ N) :
    MeteredHist (Counted.SKL.step K.metered) (SKL.kstep K) ops s
      (Budget 2 s.load N (4 * (Core.iter s).length + 2 * s.load + ops.countP KOp.adds + 2 * ops.countP KOp.deletes)
        (ops.countP KOp.adds + ops.countP KOp.deletes)) :=
  SKL.hist_budget hK ht hs hops hN (SKL.ready hK ht hs).inv.pot

/-- C66 for a SortedKeyList, from an empty object. -/
theorem C66_sortedkeylist_from_empty (h0 : Core.iter s = [])
    (hN : ∀ ops', ops' <+: ops → (Core.iter (runHist (SKL.kstep K) ops' s).2).length ≤ N) :
    MeteredHist (Counted.SKL.step K.metered) (SKL.kstep K) ops s
      (Budget 2 s.load N (ops.countP KOp.adds + 2 * ops.countP KOp.deletes) (ops.countP KOp.adds + ops.countP KOp.deletes)) := by
  have := SKL.hist_budget hK ht hs hops hN (P := 0) (by rw [(SKL.ready hK ht hs).inv.pot_empty h0]; exact Nat.le_refl _)
  rwa [Nat.zero_add] at this

/-- C66 for a SortedKeyList, from an object whose sublists are packed. -/
theorem C66_sortedkeylist_from_packed (h0 : Packed s)
    (hN : ∀ ops', ops' <+: ops → (Core.iter (runHist (SKL.kstep K) ops' s).2).length ≤ N) :
    MeteredHist (Counted.SKL.step K.metered) (SKL.kstep K) ops s
      (Budget 2 s.load N (2 * s.load + ops.countP KOp.adds + 2 * ops.countP KOp.deletes)
        (ops.countP KOp.adds + ops.countP KOp.deletes)) :=
  SKL.hist_budget hK ht hs hops hN h0.pot

omit hops in
/-- C66 for a SortedKeyList: searches build the index at most once. -/
theorem C66_sortedkeylist_searches (hops : ∀ op ∈ ops, op.search = true) :
    MeteredHist (Counted.SKL.step K.metered) (SKL.kstep K) ops s fun c =>
      c.built ≤ 3 * s.lists.length ∧ (s.index ≠ [] → c.built = 0) ∧ c.moved = 0 ∧ c.shifted = 0 ∧ c.reshaped = 0 := by
  have hq : ∀ op : KOp α κ, op.search = true → op.isQuery = true := by
    intro op
    cases op with
    | op o => cases o <;> simp [KOp.search, KOp.isQuery, Op.search, Op.isQuery]
    | _ => intro _; rfl
  have hm : ∀ op : KOp α κ, op.search = true → op.metered := fun op h => by simp [KOp.metered, h]
  have hre : ∀ (ops : List (KOp α κ)) (s : St α κ), (∀ op ∈ ops, op.search = true) →
      (runHist (SKL.kstep K) ops s).2.lists = s.lists := by
    intro ops
    induction ops with
    | nil => intros; rfl
    | cons op ops ih =>
      intro s h
      simp only [runHist]
      rw [ih _ fun o ho => h o (by simp [ho])]
      exact ((SKL.kstep_quiet K _ (hq op (h op (by simp)))).reindexed s).lists
  have ha : ops.countP KOp.adds = 0 := by
    rw [List.countP_eq_zero]; intro op ho; have := hops op ho; revert this
    cases op with
    | op o => cases o <;> simp [KOp.search, Op.search, KOp.adds, Op.adds]
    | _ => simp [KOp.adds]
  have hr : ops.countP KOp.deletes = 0 := by
    rw [List.countP_eq_zero]; intro op ho; have := hops op ho; revert this
    cases op with
    | op o => cases o <;> simp [KOp.search, Op.search, KOp.deletes, Op.deletes]
    | _ => simp [KOp.deletes]
  obtain ⟨d, e, h1, h2⟩ := runHist_bill (step := SKL.kstep K) (stepc := Counted.SKL.step K.metered)
    (P := fun s' => SKL.Reachable K s' ∧ s'.lists = s.lists) (ok := fun op => op.search = true) (adds := KOp.adds)
    (dels := KOp.deletes) (w := 2) (K := s.lists.length) (L := s.load) (N := (Core.iter s).length)
    (fun s op h ho => ⟨.step op (hm op ho).valid h.1, ((SKL.kstep_quiet K _ (hq op ho)).reindexed s).lists.trans h.2⟩)
    (fun s op h ho hl => SKL.step_billed hK ht (SKL.ready hK ht h.1) hl (hm op ho))
    (fun s' h _ _ => by rw [h.2]; exact Nat.le_refl _)
    ops s {} ⟨hs, rfl⟩ rfl hops (fun ops' hp => by
      unfold Core.iter; rw [hre ops' s fun o ho => hops o (hp.subset ho)]; exact Nat.le_refl _)
  rw [show ({} : Calls) + d = d from Calls.zero_add d] at e
  rw [ha, hr] at h1 h2
  obtain ⟨g1, g2, g3, g4, g5⟩ := h1
  have h0 : d.reshaped = 0 := by omega
  refine ⟨by rw [e], by rw [e], ?_⟩
  rw [e]
  rw [h0] at g4 g3
  refine ⟨?_, fun hi => ?_, by dsimp only; omega, by dsimp only; omega, h0⟩
  · have : owed s.lists.length s ≤ 3 * s.lists.length := by unfold owed; split <;> omega
    dsimp only; omega
  · have : owed s.lists.length s = 0 := by unfold owed; rw [if_neg hi]
    dsimp only; omega

end SortedKeyList

/-! ## The amortised cost of one call -/

/-- What the budget comes to when the number of values is at most `q h²` with `h = L / 2` (for the default load factor,
a million values is `q = 4`): per call that adds or deletes, a constant times the load factor, whatever the calls are. -/
theorem Budget.amortised {w L N m q : Nat} {c : Calls} (h : Budget w L N (2 * m) m c) (hL : 2 ≤ L) (hq : N ≤ q * (L / 2 * (L / 2))) :
    c.moved + c.shifted + c.built ≤ m * (12 * w * L + (w + 1) * (2 * q + 3) + 6 * (q + 1)) + 3 * (q * (L / 2) + 1) := by
  obtain ⟨h1, h2, h3, h4, h5⟩ := h
  generalize hh : L / 2 = h at *
  have hpos : 0 < h := by omega
  have hS : mostSublists N L ≤ q * h + 1 := by
    unfold mostSublists
    rw [hh, Nat.max_eq_right hpos]
    have : N / h ≤ q * h := Nat.div_le_of_le_mul (by rw [Nat.mul_comm]; rwa [Nat.mul_assoc])
    omega
  have hR : mostSublists N L * c.reshaped ≤ 2 * q * m + 2 * m := by
    refine Nat.le_trans (Nat.mul_le_mul_right _ hS) ?_
    rw [Nat.add_mul, Nat.one_mul, Nat.mul_assoc]
    have : q * (h * c.reshaped) ≤ q * (2 * m) := Nat.mul_le_mul_left _ h1
    have e : q * (2 * m) = 2 * q * m := by rw [Nat.mul_comm 2 q, Nat.mul_assoc]
    omega
  have h4' : c.shifted ≤ m * ((w + 1) * (2 * q + 3)) := by
    refine Nat.le_trans h4 (Nat.le_trans (Nat.mul_le_mul_left _ (Nat.add_le_add_right hR m)) ?_)
    rw [show m * ((w + 1) * (2 * q + 3)) = (w + 1) * (2 * q * m + 3 * m) by
      rw [Nat.mul_left_comm, ← Nat.add_mul, Nat.mul_comm m]]
    exact Nat.mul_le_mul_left _ (by omega)
  have h5' : c.built ≤ m * (6 * (q + 1)) + 3 * (q * h + 1) := by
    refine Nat.le_trans h5 ?_
    rw [Nat.mul_add, Nat.mul_one, Nat.mul_assoc]
    have e : m * (6 * (q + 1)) = 3 * (2 * q * m + 2 * m) := by
      rw [Nat.mul_comm m]; simp only [Nat.mul_add, Nat.add_mul, Nat.mul_one, Nat.mul_assoc]; omega
    omega
  have h3' : c.moved ≤ m * (12 * w * L) := by
    rwa [show 12 * w * L = w * (12 * L) by rw [Nat.mul_comm 12 w, Nat.mul_assoc]]
  rw [Nat.mul_add, Nat.mul_add]
  omega

theorem Budget.mono {w L N P P' m : Nat} {c : Calls} (h : Budget w L N P m c) (hP : P ≤ P') : Budget w L N P' m c :=
  ⟨Nat.le_trans h.reshaped hP, h.twice, h.moved, h.shifted, h.built⟩

/-- C66: from an empty object, the writes of a history of `m` calls that add or delete, and any number of searches, are at
most `m (12 L + 10 q + 12)` plus `3 (q h + 1)`, as long as there are never more than `q h²` values (`h = L / 2`). -/
theorem C66_amortised {α : Type} {E : Env α} {lt : α → α → Bool} {s : St α α} (hE : E.Lawful lt) (ht : Log2Tight E.ilog2)
    (hs : (SL.api E).Reachable s) {ops : List (Op α)} (hops : ∀ op ∈ ops, op.metered) (h0 : Core.iter s = []) (hL : 2 ≤ s.load) {q : Nat}
    (hq : ∀ ops', ops' <+: ops → (Core.iter (runHist (SL.api E).step ops' s).2).length ≤ q * (s.load / 2 * (s.load / 2))) :
    MeteredHist (Counted.SL.step E.metered) (SL.api E).step ops s fun c =>
      c.moved + c.shifted + c.built ≤
        (ops.countP Op.adds + ops.countP Op.deletes) * (12 * s.load + 10 * q + 12) + 3 * (q * (s.load / 2) + 1) := by
  obtain ⟨h1, h2, h3⟩ := C66_sortedlist_from_empty hE ht hs hops h0 hq
  refine ⟨h1, h2, ?_⟩
  have := (h3.mono (P' := 2 * (ops.countP Op.adds + ops.countP Op.deletes)) (by omega)).amortised hL (Nat.le_refl _)
  rwa [show 12 * 1 * s.load + (1 + 1) * (2 * q + 3) + 6 * (q + 1) = 12 * s.load + 10 * q + 12 by omega] at this

/-- C66: the same for a SortedKeyList, which has two parallel lists. -/
theorem C66_amortised_key {α κ : Type} {K : KEnv α κ} {key : α → κ} {klt : κ → κ → Bool} {veq : α → α → Bool} {s : St α κ}
    (hK : K.Lawful key klt veq) (ht : Log2Tight K.ilog2) (hs : SKL.Reachable K s) {ops : List (KOp α κ)}
    (hops : ∀ op ∈ ops, op.metered) (h0 : Core.iter s = []) (hL : 2 ≤ s.load) {q : Nat}
    (hq : ∀ ops', ops' <+: ops → (Core.iter (runHist (SKL.kstep K) ops' s).2).length ≤ q * (s.load / 2 * (s.load / 2))) :
    MeteredHist (Counted.SKL.step K.metered) (SKL.kstep K) ops s fun c =>
      c.moved + c.shifted + c.built ≤
        (ops.countP KOp.adds + ops.countP KOp.deletes) * (24 * s.load + 12 * q + 15) + 3 * (q * (s.load / 2) + 1) := by
  obtain ⟨h1, h2, h3⟩ := C66_sortedkeylist_from_empty hK ht hs hops h0 hq
  refine ⟨h1, h2, ?_⟩
  have := (h3.mono (P' := 2 * (ops.countP KOp.adds + ops.countP KOp.deletes)) (by omega)).amortised hL (Nat.le_refl _)
  rwa [show 12 * 2 * s.load + (2 + 1) * (2 * q + 3) + 6 * (q + 1) = 24 * s.load + 12 * q + 15 by omega] at this

/-! ## The hypotheses are met -/

section Examples
open Demo

/-- `sl = SortedList(); sl._reset(4)` -/
def am0 : St Int Int := (Core.reset (SL.methods intEnv) 4 St.empty).2

theorem am0_reachable : (SL.api intEnv).Reachable am0 :=
  .step (L := SL.api intEnv) (.reset 4) (show 1 ≤ 4 by decide) (.new (xs := none) rfl)

/-- Adding at the end, with a lookup by position now and then, and deleting from the front. -/
def amOps : List (Op Int) :=
  [.add 1, .add 2, .add 3, .add 4, .add 5, .add 6, .add 7, .add 8, .add 9, .getInt 8, .add 10, .add 11, .add 12, .add 13,
    .add 14, .getInt 7, .getInt 3, .delInt 0, .delInt 0, .delInt 0, .getInt 5, .remove 77, .discard 14]

theorem amOps_metered : ∀ op ∈ amOps, op.metered := by
  intro op h
  have : amOps.all (fun op => op.adds || op.deletes || op.search) = true := by decide +kernel
  exact List.all_eq_true.1 this op h

theorem prefixes {O : Type} {P : List O → Prop} {ops : List O} (h : ∀ n, n < ops.length + 1 → P (ops.take n)) (ops' : List O)
    (hp : ops' <+: ops) : P ops' := by
  rw [List.prefix_iff_eq_take.1 hp]
  exact h _ (by have := hp.length_le; omega)

theorem am_few : ∀ ops', ops' <+: amOps → (Core.iter (runHist (SL.api intEnv).step ops' am0).2).length ≤ 14 :=
  prefixes (by decide +kernel)

example := C66_sortedlist_from_empty intEnv_lawful log2_tight am0_reachable amOps_metered (by decide +kernel) am_few
example := C66_sortedlist intEnv_lawful log2_tight sl_reachable (ops := [.add 4, .getInt 2, .pop (-1)])
  (by intro op h; rcases List.mem_cons.1 h with rfl | h
      · rfl
      · rcases List.mem_cons.1 h with rfl | h
        · rfl
        · rw [List.mem_singleton.1 h]; rfl)
  (N := 9) (prefixes (by decide +kernel))
example := C66_amortised intEnv_lawful log2_tight am0_reachable amOps_metered (by decide +kernel) (by decide +kernel) (q := 4)
  (prefixes (by decide +kernel))
example := (C66_packed intEnv tensEnv).1 (some [5, 1, 3, 3, 9, 7, 4]) start start_new

/-- Two splits and a merge (load factor 4), three indexes. -/
example : (runHist (Counted.SL.step intEnv.metered) amOps (am0, {})).2.2 =
    { cmp := 21, node := 15, built := 12, moved := 56, shifted := 10, reshaped := 3 } := by decide +kernel

/-- `skl = SortedKeyList(key=...); skl._reset(2)` -/
def amk0 : St Int Int := (Core.reset (SKL.methods tensEnv) 2 St.empty).2

theorem amk0_reachable : SKL.Reachable tensEnv amk0 :=
  .step (K := tensEnv) (.op (.reset 2)) (show 1 ≤ 2 by decide) (.new (xs := none) rfl)

def amkOps : List (KOp Int Int) :=
  [.op (.add 31), .op (.add 45), .op (.add 33), .op (.add 12), .op (.add 39), .op (.add 38), .op (.getInt 2), .op (.add 30),
    .op (.add 35), .bisectKeyLeft 4, .op (.pop 5), .op (.delInt (-1)), .op (.getInt 0)]

theorem amkOps_metered : ∀ op ∈ amkOps, op.metered := by
  intro op h
  have : amkOps.all (fun op => op.adds || op.deletes || op.search) = true := by decide +kernel
  exact List.all_eq_true.1 this op h

example := C66_sortedkeylist_from_empty tensEnv_lawful log2_tight amk0_reachable amkOps_metered (by decide +kernel) (N := 8)
  (prefixes (by decide +kernel))
example := C66_amortised_key tensEnv_lawful log2_tight amk0_reachable amkOps_metered (by decide +kernel) (by decide +kernel) (q := 8)
  (prefixes (by decide +kernel))
example := C66_sortedkeylist_searches tensEnv_lawful log2_tight skl_reachable (ops := [.bisectKeyLeft 4, .bisectKeyRight 3])
  (by intro op h; rcases List.mem_cons.1 h with rfl | h
      · rfl
      · rw [List.mem_singleton.1 h]; rfl)

example : (runHist (Counted.SKL.step tensEnv.metered) amkOps (amk0, {})).2.2 =
    { cmp := 26, key := 8, node := 11, built := 9, moved := 64, shifted := 9, reshaped := 2 } := by decide +kernel

end Examples
end Verif
