import Verif.Proofs.CountedSets
import Verif.Props.Counted
/-!
# What a metered call of the list costs, for both classes of lists
-/

namespace Verif
variable {α κ : Type}

/-- The comparisons of a call on a list of `n` values, of which `r v` have the key of `v`. -/
def Op.cmps (n : Nat) (r : α → Nat) : Op α → Nat
  | .add _ | .bisectLeft _ | .bisectRight _ => Nat.log2 n + 6
  | .remove v => Nat.log2 n + 7 + 2 * r v
  | .index v .. => 2 * Nat.log2 n + 13 + 2 * r v
  | .irange .. => 2 * Nat.log2 n + 12
  | _ => 0

/-- The calls of the key function. -/
def Op.keyCalls : Op α → Nat
  | .add _ | .remove _ | .bisectLeft _ | .bisectRight _ | .index .. => 1
  | .irange .. => 2
  | _ => 0

/-- The nodes of the positional index that a call visits. -/
def Op.nodes (n : Nat) (r : α → Nat) : Op α → Nat
  | .add _ | .remove _ => Nat.log2 n + 2
  | .getInt _ | .bisectLeft _ | .bisectRight _ => Nat.log2 n + 1
  | .delInt _ | .pop _ => 2 * Nat.log2 n + 3
  | .index v .. => (Nat.log2 n + 1) * max 2 (r v)
  | _ => 0

/-- The calls that may build the positional index. -/
def Op.indexes : Op α → Bool
  | .getInt _ | .delInt _ | .pop _ | .bisectLeft _ | .bisectRight _ | .index .. => true
  | _ => false

/-- The calls that sorted sets and dicts make on their list. -/
def Op.used : Op α → Bool
  | .add _ | .remove _ | .getInt _ | .delInt _ | .pop _ | .bisectLeft _ | .bisectRight _ | .index .. | .irange .. => true
  | _ => false

structure Op.Costs (n : Nat) (r : α → Nat) (w b : Nat) (op : Op α) (d : Calls) : Prop where
  cmp : d.cmp ≤ op.cmps n r
  key : d.key ≤ w * op.keyCalls
  node : d.node ≤ op.nodes n r
  built : d.built ≤ op.indexes.toNat * b

/-- What a call costs by itself and in a history. -/
structure Prices (w K : Nat) (r : α → Nat) (op : Op α) (s s' : St α κ) (d : Calls) : Prop where
  costs : op.Costs (Core.iter s).length r (w - 1) (debt s) d
  bill : Bill w K op.adds.toNat op.deletes.toNat s s' d
  reshaped : d.reshaped ≤ 2 * (op.adds.toNat + op.deletes.toNat)

theorem SL.prices {E : Env α} {lt : α → α → Bool} {s : St α α} {K : Nat} (hE : E.Lawful lt) (ht : Log2Tight E.ilog2)
    (h : Ready id lt false s) (hK : s.lists.length ≤ K) {op : Op α} (hop : op.used = true) (r : α → Nat) (k : Calls) :
    RunsAt k ((Counted.SL.api E).step op) ((SL.api E).step op) s (Prices 1 K r op s) := by
  have hb := bits_log2 (Core.iter s).length
  have hm := h.inv.bits_sublists
  have hd : ∀ s', Ready id lt false s' → s'.lists = s.lists → s'.load = s.load → ∀ p i,
      Counts (deleteCost s 1) (Counted.SL.delete p i) ((SL.methods E).delete p i) s' := by
    intro s' h' e e' p i
    unfold deleteCost
    rw [← e, ← e']
    exact SL.delete_counts h' p i
  have key : ∀ {B : Calls}, Counts B ((Counted.SL.api E).step op) ((SL.api E).step op) s →
      (∀ d : Calls, d ≤ B → op.Costs (Core.iter s).length r (1 - 1) (debt s) d) →
      RunsAt k ((Counted.SL.api E).step op) ((SL.api E).step op) s (Prices 1 K r op s) := by
    intro B hB hc
    have hm : (op.adds || op.deletes || op.search) = true := by cases op <;> first | rfl | cases hop
    have e : (Counted.SL.api E).step op = Counted.SL.step E.metered op := by cases op <;> first | rfl | cases hop
    obtain ⟨d, e1, h1, h2⟩ := SL.step_billed hE ht h hK hm k
    rw [← e] at e1
    have hb : RunsAt k ((Counted.SL.api E).step op) ((SL.api E).step op) s fun s' d =>
      Bill 1 K op.adds.toNat op.deletes.toNat s s' d ∧ d.reshaped ≤ 2 * (op.adds.toNat + op.deletes.toNat) := ⟨d, e1, h1, h2⟩
    exact ((RunsAt.of_counts hB).both hb).mono fun _ d hq => ⟨hc d hq.1, hq.2.1, hq.2.2⟩
  have close : ∀ {B : Calls}, (B.cmp ≤ op.cmps (Core.iter s).length r ∧ B.key ≤ (1 - 1) * op.keyCalls ∧ B.node ≤ op.nodes (Core.iter s).length r ∧ B.built ≤ op.indexes.toNat * debt s) →
      ∀ d : Calls, d ≤ B → op.Costs (Core.iter s).length r (1 - 1) (debt s) d := by
    intro B hB d hd
    rw [Calls.le_iff] at hd
    constructor <;> omega
  cases op with
  | add v =>
    refine key (SL.add_counts h h.inv.within v).out (close ?_)
    simp only [Op.cmps, Op.keyCalls, Op.nodes, Op.indexes, Calls.add_cmp, Calls.add_key, Calls.add_node, Calls.add_built, addCost, deleteCost, Bool.toNat_true, Bool.toNat_false]
    omega
  | remove v =>
    refine key (SL.remove_counts h h.inv.within v).out (close ?_)
    simp only [Op.cmps, Op.keyCalls, Op.nodes, Op.indexes, Calls.add_cmp, Calls.add_key, Calls.add_node, Calls.add_built, addCost, deleteCost, Bool.toNat_true, Bool.toNat_false]
    omega
  | getInt i =>
    refine key (getInt_counts hE.ilog2 ht h.inv h.snug i).out (close ?_)
    simp only [Op.cmps, Op.keyCalls, Op.nodes, Op.indexes, Calls.add_cmp, Calls.add_key, Calls.add_node, Calls.add_built, addCost, deleteCost, Bool.toNat_true, Bool.toNat_false]
    omega
  | delInt i =>
    refine key (delInt_counts (M := SL.methods E) (d := deleteCost s 1) hd hE.ilog2 ht h i).out (close ?_)
    simp only [Op.cmps, Op.keyCalls, Op.nodes, Op.indexes, Calls.add_cmp, Calls.add_key, Calls.add_node, Calls.add_built, addCost, deleteCost, Bool.toNat_true, Bool.toNat_false]
    omega
  | pop i =>
    refine key (pop_counts (M := SL.methods E) (d := deleteCost s 1) hd hE.ilog2 ht h i).out (close ?_)
    simp only [Op.cmps, Op.keyCalls, Op.nodes, Op.indexes, Calls.add_cmp, Calls.add_key, Calls.add_node, Calls.add_built, addCost, deleteCost, Bool.toNat_true, Bool.toNat_false]
    omega
  | bisectLeft v =>
    refine key (SL.bisect_left_counts h h.inv.within hE.ilog2 ht v).out (close ?_)
    simp only [Op.cmps, Op.keyCalls, Op.nodes, Op.indexes, Calls.add_cmp, Calls.add_key, Calls.add_node, Calls.add_built, addCost, deleteCost, Bool.toNat_true, Bool.toNat_false]
    omega
  | bisectRight v =>
    refine key (SL.bisect_right_counts h h.inv.within hE.ilog2 ht v).out (close ?_)
    simp only [Op.cmps, Op.keyCalls, Op.nodes, Op.indexes, Calls.add_cmp, Calls.add_key, Calls.add_node, Calls.add_built, addCost, deleteCost, Bool.toNat_true, Bool.toNat_false]
    omega
  | index v a b =>
    refine key (SL.index_counts h h.inv.within hE.ilog2 ht v a b).out (close ?_)
    simp only [Op.cmps, Op.keyCalls, Op.nodes, Op.indexes, Calls.add_cmp, Calls.add_key, Calls.add_node, Calls.add_built, addCost, deleteCost, Bool.toNat_true, Bool.toNat_false]
    have : (Nat.log2 (Core.iter s).length + 1) * 2 ≤ (Nat.log2 (Core.iter s).length + 1) * max 2 (r v) :=
      Nat.mul_le_mul_left _ (by omega)
    omega
  | irange lo hi a b r =>
    refine key (SL.irange_counts h h.inv.within lo hi a b r).out (close ?_)
    simp only [Op.cmps, Op.keyCalls, Op.nodes, Op.indexes, Calls.add_cmp, Calls.add_key, Calls.add_node, Calls.add_built, addCost, deleteCost, Bool.toNat_true, Bool.toNat_false]
    omega
  | _ => cases hop

theorem SKL.prices {E : KEnv α κ} {key : α → κ} {klt : κ → κ → Bool} {veq : α → α → Bool} {s : St α κ} {K : Nat}
    (hE : E.Lawful key klt veq) (ht : Log2Tight E.ilog2) (h : Ready key klt true s) (hK : s.lists.length ≤ K) {op : Op α}
    (hop : op.used = true) {r : α → Nat} (hr : ∀ v, (Core.iter s).countP (fun w => equiv klt (key w) (key v)) ≤ r v) (k : Calls) :
    RunsAt k ((Counted.SKL.api E).step op) ((SKL.api E).step op) s (Prices 2 K r op s) := by
  have hb := bits_log2 (Core.iter s).length
  have hm := h.inv.bits_sublists
  have hd : ∀ s', Ready key klt true s' → s'.lists = s.lists → s'.load = s.load → ∀ p i,
      Counts (deleteCost s 2) (Counted.SKL.delete p i) ((SKL.methods E).delete p i) s' := by
    intro s' h' e e' p i
    unfold deleteCost
    rw [← e, ← e']
    exact SKL.delete_counts h' p i
  have key : ∀ {B : Calls}, Counts B ((Counted.SKL.api E).step op) ((SKL.api E).step op) s →
      (∀ d : Calls, d ≤ B → op.Costs (Core.iter s).length r (2 - 1) (debt s) d) →
      RunsAt k ((Counted.SKL.api E).step op) ((SKL.api E).step op) s (Prices 2 K r op s) := by
    intro B hB hc
    have hm : (op.adds || op.deletes || op.search) = true := by cases op <;> first | rfl | cases hop
    have e : (Counted.SKL.api E).step op = Counted.SKL.step E.metered (.op op) := by cases op <;> first | rfl | cases hop
    obtain ⟨d, e1, h1, h2⟩ := SKL.step_billed hE ht h hK (op := .op op) hm k
    rw [← e] at e1
    have hb : RunsAt k ((Counted.SKL.api E).step op) ((SKL.api E).step op) s fun s' d =>
      Bill 2 K op.adds.toNat op.deletes.toNat s s' d ∧ d.reshaped ≤ 2 * (op.adds.toNat + op.deletes.toNat) := ⟨d, e1, h1, h2⟩
    exact ((RunsAt.of_counts hB).both hb).mono fun _ d hq => ⟨hc d hq.1, hq.2.1, hq.2.2⟩
  have close : ∀ {B : Calls}, (B.cmp ≤ op.cmps (Core.iter s).length r ∧ B.key ≤ (2 - 1) * op.keyCalls ∧ B.node ≤ op.nodes (Core.iter s).length r ∧ B.built ≤ op.indexes.toNat * debt s) →
      ∀ d : Calls, d ≤ B → op.Costs (Core.iter s).length r (2 - 1) (debt s) d := by
    intro B hB d hd
    rw [Calls.le_iff] at hd
    constructor <;> omega
  cases op with
  | add v =>
    refine key (SKL.add_counts h h.inv.within v).out (close ?_)
    simp only [Op.cmps, Op.keyCalls, Op.nodes, Op.indexes, Calls.add_cmp, Calls.add_key, Calls.add_node, Calls.add_built, addCost, deleteCost, Bool.toNat_true, Bool.toNat_false, SKL.alike]
    omega
  | remove v =>
    refine key (SKL.remove_counts h h.inv.within hE v).out (close ?_)
    have hr := hr v
    simp only [Op.cmps, Op.keyCalls, Op.nodes, Op.indexes, Calls.add_cmp, Calls.add_key, Calls.add_node, Calls.add_built, addCost, deleteCost, Bool.toNat_true, Bool.toNat_false, SKL.alike]
    omega
  | getInt i =>
    refine key (getInt_counts hE.ilog2 ht h.inv h.snug i).out (close ?_)
    simp only [Op.cmps, Op.keyCalls, Op.nodes, Op.indexes, Calls.add_cmp, Calls.add_key, Calls.add_node, Calls.add_built, addCost, deleteCost, Bool.toNat_true, Bool.toNat_false, SKL.alike]
    omega
  | delInt i =>
    refine key (delInt_counts (M := SKL.methods E) (d := deleteCost s 2) hd hE.ilog2 ht h i).out (close ?_)
    simp only [Op.cmps, Op.keyCalls, Op.nodes, Op.indexes, Calls.add_cmp, Calls.add_key, Calls.add_node, Calls.add_built, addCost, deleteCost, Bool.toNat_true, Bool.toNat_false, SKL.alike]
    omega
  | pop i =>
    refine key (pop_counts (M := SKL.methods E) (d := deleteCost s 2) hd hE.ilog2 ht h i).out (close ?_)
    simp only [Op.cmps, Op.keyCalls, Op.nodes, Op.indexes, Calls.add_cmp, Calls.add_key, Calls.add_node, Calls.add_built, addCost, deleteCost, Bool.toNat_true, Bool.toNat_false, SKL.alike]
    omega
  | bisectLeft v =>
    refine key (SKL.bisect_left_counts h h.inv.within hE.ilog2 ht v).out (close ?_)
    simp only [Op.cmps, Op.keyCalls, Op.nodes, Op.indexes, Calls.add_cmp, Calls.add_key, Calls.add_node, Calls.add_built, addCost, deleteCost, Bool.toNat_true, Bool.toNat_false, SKL.alike]
    omega
  | bisectRight v =>
    refine key (SKL.bisect_right_counts h h.inv.within hE.ilog2 ht v).out (close ?_)
    simp only [Op.cmps, Op.keyCalls, Op.nodes, Op.indexes, Calls.add_cmp, Calls.add_key, Calls.add_node, Calls.add_built, addCost, deleteCost, Bool.toNat_true, Bool.toNat_false, SKL.alike]
    omega
  | index v a b =>
    refine key (SKL.index_counts h h.inv.within hE ht v a b).out (close ?_)
    have hr := hr v
    simp only [Op.cmps, Op.keyCalls, Op.nodes, Op.indexes, Calls.add_cmp, Calls.add_key, Calls.add_node, Calls.add_built, addCost, deleteCost, Bool.toNat_true, Bool.toNat_false, SKL.alike]
    refine ⟨by omega, by omega, Nat.mul_le_mul (by omega) (by omega), by omega⟩
  | irange lo hi a b r =>
    refine key (SKL.irange_counts h h.inv.within lo hi a b r).out (close ?_)
    simp only [Op.cmps, Op.keyCalls, Op.nodes, Op.indexes, Calls.add_cmp, Calls.add_key, Calls.add_node, Calls.add_built, addCost, deleteCost, Bool.toNat_true, Bool.toNat_false, SKL.alike]
    omega
  | _ => cases hop

/-! ## Calls on sorted dicts and sets -/

/-- What a call on a sorted set or dict costs, by itself and in a history. -/
structure Priced (w K cmps keyCalls nodes : Nat) (indexes : Bool) (a r : Nat) (s s' : St α κ) (d : Calls) : Prop where
  cmp : d.cmp ≤ cmps
  key : d.key ≤ (w - 1) * keyCalls
  node : d.node ≤ nodes
  built : d.built ≤ indexes.toNat * debt s
  bill : Bill w K a r s s' d
  reshaped : d.reshaped ≤ 2 * (a + r)

theorem Priced.zero {w K cmps keyCalls nodes : Nat} {indexes : Bool} {a r : Nat} (s : St α κ) :
    Priced w K cmps keyCalls nodes indexes a r s s 0 :=
  ⟨Nat.zero_le _, Nat.zero_le _, Nat.zero_le _, Nat.zero_le _, (Bill.refl s).mono (Nat.zero_le _) (Nat.zero_le _), Nat.zero_le _⟩

section
variable {σ ν : Type} {eqv : α → α → Bool} {Lc : ListAPI (St α κ × Calls) α} {L : ListAPI (St α κ) α} {w K : Nat} {r : α → Nat}

theorem SDOp.listOp_table {op : SDOp α ν} {o : Op α} (e : op.listOp = some o) (n : Nat) (r : α → Nat) :
    o.used = true ∧ o.cmps n r = op.cmps n r ∧ o.keyCalls = op.keyCalls ∧ o.nodes n r = op.nodes n r ∧ o.indexes = op.indexes ∧
      o.adds = op.adds ∧ o.deletes = op.deletes := by
  cases op <;> first | cases e; exact ⟨rfl, rfl, rfl, rfl, rfl, rfl, rfl⟩ | cases e

theorem SD.priced (hit : ∀ l k, Lc.iter (l, k) = L.iter l) (hrev : ∀ l k, Lc.reversed (l, k) = L.reversed l) {s : SD α ν (St α κ)} {k : Calls}
    (hp : ∀ o : Op α, o.used = true → RunsAt k (Lc.step o) (L.step o) s.list (Prices w K r o s.list)) (op : SDOp α ν) (hop : op.metered) :
    RunsAt k (SD.metering (SD.step eqv Lc op)) (SD.step eqv L op) s fun s' d =>
      Priced w K (op.cmps (Core.iter s.list).length r) op.keyCalls (op.nodes (Core.iter s.list).length r) op.indexes
        op.adds.toNat op.deletes.toNat s.list s'.list d := by
  refine SD.step_runs (Q := fun l d => Priced w K (op.cmps (Core.iter s.list).length r) op.keyCalls
    (op.nodes (Core.iter s.list).length r) op.indexes op.adds.toNat op.deletes.toNat s.list l d) hit hrev op hop (.zero _) fun o e => ?_
  obtain ⟨h0, h1, h2, h3, h4, h5, h6⟩ := SDOp.listOp_table e (Core.iter s.list).length r
  refine (hp o h0).mono fun l d hq => ?_
  rw [← h1, ← h2, ← h3, ← h4, ← h5, ← h6]
  exact ⟨hq.costs.cmp, hq.costs.key, hq.costs.node, hq.costs.built, hq.bill, hq.reshaped⟩

theorem SSOp.listOp_table {op : SSOp α} {o : Op α} (e : op.listOp = some o) (n : Nat) (r : α → Nat) :
    o.used = true ∧ o.cmps n r = op.cmps n r ∧ o.keyCalls = op.keyCalls ∧ o.nodes n r = op.nodes n r ∧ o.indexes = op.indexes ∧
      o.adds = op.adds ∧ o.deletes = op.deletes := by
  cases op <;> first | cases e; exact ⟨rfl, rfl, rfl, rfl, rfl, rfl, rfl⟩ | cases e

theorem SS.priced {τ : Type} {S : SetOps τ α} (hit : ∀ l k, Lc.iter (l, k) = L.iter l) (hrev : ∀ l k, Lc.reversed (l, k) = L.reversed l)
    {s : SS τ (St α κ)} {k : Calls}
    (hp : ∀ (o : Op α) k, o.used = true → RunsAt k (Lc.step o) (L.step o) s.list (Prices w K r o s.list))
    (hg : ∀ i, (L.getInt i s.list).2.lists = s.list.lists)
    (hp' : ∀ (o : Op α) i k, o.used = true → RunsAt k (Lc.step o) (L.step o) (L.getInt i s.list).2 (Prices w K r o (L.getInt i s.list).2))
    (hK : s.list.lists.length ≤ K) (op : SSOp α) (hop : op.metered) :
    RunsAt k (SS.metering (SS.step S Lc op)) (SS.step S L op) s fun s' d =>
      Priced w K (op.cmps (Core.iter s.list).length r) op.keyCalls (op.nodes (Core.iter s.list).length r) op.indexes
        op.adds.toNat op.deletes.toNat s.list s'.list d := by
  refine SS.step_runs (Q := fun l d => Priced w K (op.cmps (Core.iter s.list).length r) op.keyCalls
    (op.nodes (Core.iter s.list).length r) op.indexes op.adds.toNat op.deletes.toNat s.list l d)
    (Q' := fun l d => (∃ i, op = .delInt i) ∧ Prices w K r (.getInt 0) s.list l d) hit hrev op hop (.zero _) (fun o e => ?_) (fun i e => ?_)
    (fun i d e hq => ?_) (fun l d hq => ?_)
  · obtain ⟨h0, h1, h2, h3, h4, h5, h6⟩ := SSOp.listOp_table e (Core.iter s.list).length r
    refine (hp o k h0).mono fun l d hq => ?_
    rw [← h1, ← h2, ← h3, ← h4, ← h5, ← h6]
    exact ⟨hq.costs.cmp, hq.costs.key, hq.costs.node, hq.costs.built, hq.bill, hq.reshaped⟩
  · exact (hp (.getInt i) k rfl).mono fun l d hq => ⟨⟨i, e⟩, ⟨⟨hq.costs.cmp, hq.costs.key, hq.costs.node, hq.costs.built⟩, hq.bill, hq.reshaped⟩⟩
  · subst e
    refine (hp' (.delInt i) i (k + d) rfl).mono fun l d' hq' => ?_
    have hn : (Core.iter (L.getInt i s.list).2).length = (Core.iter s.list).length := by unfold Core.iter; rw [hg]
    obtain ⟨⟨a1, a2, a3, a4⟩, a5, a6⟩ := hq.2
    obtain ⟨⟨b1, b2, b3, b4⟩, b5, b6⟩ := hq'
    have hi := a5.index
    rw [hn] at b3
    simp only [Op.cmps, Op.keyCalls, Op.nodes, Op.indexes, Op.adds, Op.deletes, Bool.toNat_true, Bool.toNat_false, Nat.one_mul] at a1 a2 a3 a4 a5 a6 b1 b2 b3 b4 b5 b6
    have hr : d.reshaped = 0 := by omega
    constructor
    · simp only [SSOp.cmps, Calls.add_cmp]; omega
    · simp only [SSOp.keyCalls, Calls.add_key]; omega
    · simp only [SSOp.nodes, Calls.add_node]; omega
    · simp only [SSOp.indexes, Calls.add_built, Bool.toNat_true, Nat.one_mul]
      rw [hr] at hi
      unfold debt owed at *
      rw [hg] at b4
      split at b4 <;> split at a4 <;> simp_all <;> omega
    · have := a5.trans b5
      simpa [SSOp.adds, SSOp.deletes] using this
    · simp only [SSOp.adds, SSOp.deletes, Calls.add_reshaped, Bool.toNat_true, Bool.toNat_false]; omega
  · obtain ⟨⟨i, rfl⟩, ⟨a1, a2, a3, a4⟩, a5, a6⟩ := hq
    simp only [Op.cmps, Op.keyCalls, Op.nodes, Op.indexes, Op.adds, Op.deletes, Bool.toNat_true, Bool.toNat_false, Nat.one_mul] at a1 a2 a3 a4 a5 a6
    refine ⟨a1, a2, ?_, ?_, a5.mono (Nat.zero_le _) (Nat.zero_le _), Nat.le_trans a6 (by omega)⟩
    · simp only [SSOp.nodes]; omega
    · simpa [SSOp.indexes] using a4

end

/-! ## The list inside -/

/-- The list is one that calls on a list can produce. -/
def ListClass.Reached : (c : ListClass α) → c.State → Prop
  | .plain E => (SL.api E).Reachable
  | .keyed K => SKL.Reachable K

theorem ListClass.reached_keeps (c : ListClass α) : c.api.Preserves 1 c.Reached := by
  have hv : ∀ op : Op α, (∀ l, op = .reset l → 1 ≤ l) → op.Valid := by
    intro op h; cases op <;> first | trivial | exact h _ rfl
  cases c with
  | plain E => exact ⟨fun op h s hs => .step op (hv op h) hs, fun xs s e => .new e⟩
  | keyed K => exact ⟨fun op h s hs => SKL.Reachable.step (.op op) (hv op h) hs, fun xs s e => .new e⟩

theorem ListClass.reached_keyCall (c : ListClass α) {s : c.State} {m : Py c.State (Out α)} (hm : c.api.keyCall m) (hs : c.Reached s) :
    c.Reached (m s).2 := by
  cases c with
  | plain E => exact hm.elim
  | keyed K =>
    rcases hm with ⟨k, rfl⟩ | ⟨k, rfl⟩ | ⟨lo, hi, a, b, r, rfl⟩
    · exact SKL.Reachable.step (.bisectKeyLeft k) trivial hs
    · exact SKL.Reachable.step (.bisectKeyRight k) trivial hs
    · exact SKL.Reachable.step (.irangeKey lo hi a b r) trivial hs

theorem SD.list_reached {c : ListClass α} {ν : Type} {eqv : α → α → Bool} {s : SD α ν c.State} (hs : SD.Reachable eqv c.api s) :
    c.Reached s.list := by
  have hk := c.reached_keeps
  have bind : ∀ {s : SD α ν c.State} {f : List (α × ν) → DictArg α ν} {s' : SD α ν c.State},
      (SD.items eqv c.api s >>= fun own => SD.new eqv c.api (f own)) = .ok s' → c.Reached s'.list := by
    intro s f s' e
    rcases hi : SD.items eqv c.api s with er | own
    · rw [hi] at e; cases e
    · rw [hi] at e; exact SD.new_keeps hk (show SD.new eqv c.api (f own) = .ok s' from e)
  induction hs with
  | new _ e => exact SD.new_keeps hk e
  | copy _ e _ => exact bind e
  | or _ e _ => exact bind e
  | ror _ e _ => exact bind e
  | step op hv _ ih => exact SD.step_keeps hk op (by rintro l rfl; exact hv) _ ih
  | keyCall hm _ ih => exact c.reached_keyCall hm ih

theorem SS.list_reached {c : ListClass α} {τ : Type} {S : SetOps τ α} {s : SS τ c.State} (hs : SS.Reachable S c.api s) :
    c.Reached s.list := by
  have hk := c.reached_keeps
  have from_ : ∀ {t : τ} {s' : SS τ c.State}, SS.fromset S c.api t = .ok s' → c.Reached s'.list := by
    intro t s' e
    unfold SS.fromset at e
    split at e
    · rename_i l hl
      cases e; exact hk.new _ _ hl
    · cases e
  induction hs with
  | new e => exact SS.new_keeps hk e
  | copy _ e _ => exact from_ e
  | union _ e _ => exact SS.new_keeps hk e
  | intersection _ e _ => exact from_ e
  | difference _ e _ => exact from_ e
  | symmetricDifference _ e _ => exact from_ e
  | step op hv _ ih => exact SS.step_keeps hk op (by rintro l rfl; exact hv) _ ih
  | keyCall hm _ ih => exact c.reached_keyCall hm ih

/-! ## The bill of a history -/

/-- The bill of a history of calls on an object that contains a list. -/
theorem runHist_bill_on {S β O : Type} {step : O → Py S β} {stepc : O → CPy S β} {lst : S → St α κ} {P : S → Prop}
    {ok : O → Prop} {adds dels : O → Bool} {w K L N : Nat} (hP : ∀ s op, P s → ok op → P (step op s).2)
    (hB : ∀ s op k, P s → ok op → (lst s).lists.length ≤ K → RunsAt k (stepc op) (step op) s fun s' d =>
      Bill w K (adds op).toNat (dels op).toNat (lst s) (lst s') d ∧ d.reshaped ≤ 2 * ((adds op).toNat + (dels op).toNat))
    (hK : ∀ s, P s → (lst s).load = L → (Core.iter (lst s)).length ≤ N → (lst s).lists.length ≤ K) :
    ∀ (ops : List O) (s : S) (k : Calls), P s → (lst s).load = L → (∀ op ∈ ops, ok op) →
      (∀ ops', ops' <+: ops → (Core.iter (lst (runHist step ops' s).2)).length ≤ N) →
      RunsAt k (fun p => runHist stepc ops p |> fun r => (.ok r.1, r.2)) (fun s => runHist step ops s |> fun r => (.ok r.1, r.2)) s fun s' d =>
        Bill w K (ops.countP adds) (ops.countP dels) (lst s) (lst s') d ∧ d.reshaped ≤ 2 * (ops.countP adds + ops.countP dels) := by
  intro ops
  induction ops with
  | nil => intro s k _ _ _ _; exact ⟨0, by simp only [runHist, Calls.add_zero], Bill.refl _, by simp⟩
  | cons op ops ih =>
    intro s k h hL hok hN
    have hs := hK s h hL (hN [] (by simp))
    obtain ⟨d, e, h1, h2⟩ := hB s op k h (hok op (by simp)) hs
    have hL' : (lst (step op s).2).load = L := by rw [h1.load, hL]
    obtain ⟨d', e', g1, g2⟩ := ih (step op s).2 (k + d) (hP s op h (hok op (by simp))) hL'
      (fun o ho => hok o (by simp [ho])) (fun ops' hp => hN (op :: ops') (by simpa using hp))
    refine ⟨d + d', ?_, ?_, ?_⟩
    · dsimp only at e' ⊢
      simp only [runHist, e]
      have e1 := congrArg Prod.fst e'
      have e2 := congrArg Prod.snd e'
      dsimp only at e1 e2
      rw [Except.ok.inj e1, e2, Calls.add_assoc]
    · have := h1.trans g1
      rw [List.countP_cons, List.countP_cons]
      simp only [runHist]
      refine this.mono ?_ ?_
      · cases adds op <;> simp <;> omega
      · cases dels op <;> simp <;> omega
    · rw [List.countP_cons, List.countP_cons, Calls.add_reshaped]
      revert h2 g2
      cases adds op <;> cases dels op <;> simp <;> omega

end Verif
