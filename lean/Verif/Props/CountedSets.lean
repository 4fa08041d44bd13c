import Verif.Proofs.CountedPrices
import Verif.Props.Amortised
import Verif.Props.SortedDict
import Verif.Props.SortedSet
/-!
# What calls on sorted sets and dicts cost (C67)

The programs are those of the model, over the metered methods of the sorted list (`Model/CountedSets.lean`); the bounds are
the tables of `Costs.lean`.  The work of the built-in set or dict (hashing, `==`) is not counted.

`c` is the class of the sorted list inside: SortedList, or SortedKeyList if there is a key function.
-/

namespace Verif

/-- The bounds on a single call, on an object of `sublists` sublists. -/
structure CallCost (cmps keyCalls nodes : Nat) (indexes : Bool) (sublists : Nat) (indexed : Prop) (d : Calls) : Prop where
  cmp : d.cmp ≤ cmps
  key : d.key ≤ keyCalls
  node : d.node ≤ nodes
  /-- a new positional index has at most three entries per sublist -/
  built : d.built ≤ 3 * sublists
  /-- none is built by calls that do not need one, and none if there is one -/
  kept : indexes = false ∨ indexed → d.built = 0

theorem Priced.callCost {α κ : Type} {w K cmps keyCalls nodes a r : Nat} {indexes : Bool} {s s' : St α κ} {d : Calls}
    (h : Priced w K cmps keyCalls nodes indexes a r s s' d) :
    CallCost cmps ((w - 1) * keyCalls) nodes indexes s.lists.length (s.index ≠ []) d := by
  have hb := h.built
  have hd := debt_le s
  refine ⟨h.cmp, h.key, h.node, ?_, ?_⟩
  · cases indexes <;> simp at hb <;> omega
  · rintro (rfl | hi)
    · simpa using hb
    · have : debt s = 0 := if_neg hi
      rw [this] at hb; simpa using hb

theorem RunsAt.metered {σ β : Type} {mc : CPy σ β} {m : Py σ β} {s : σ} {Q : σ → Calls → Prop} {b : Calls → Prop}
    (h : RunsAt {} mc m s Q) (hb : ∀ s' d, Q s' d → b d) : Metered mc m s b := by
  obtain ⟨d, e, h⟩ := h
  rw [show ({} : Calls) + d = d from Calls.zero_add d] at e
  exact ⟨by rw [e], by rw [e], by rw [e]; exact hb _ _ h⟩

/-- How many lists run in parallel: values, and keys if there is a key function. -/
def ListClass.width {α : Type} (c : ListClass α) : Nat := if c.hasKey then 2 else 1

/-- The final reading of a history, from its bill. -/
theorem RunsAt.budget {S β O α κ : Type} {step : O → Py S β} {stepc : O → CPy S β} {ops : List O} {s : S} {l : S → St α κ}
    {w N P a r : Nat} (hP : pot (l s).load (l s).lists ≤ P)
    (h : RunsAt {} (fun p => runHist stepc ops p |> fun r => (.ok r.1, r.2)) (fun s => runHist step ops s |> fun r => (.ok r.1, r.2)) s
      fun s' d => Bill w (mostSublists N (l s).load) a r (l s) (l s') d ∧ d.reshaped ≤ 2 * (a + r)) :
    MeteredHist stepc step ops s (Budget w (l s).load N (P + a + 2 * r) (a + r)) := by
  obtain ⟨d, e, h1, h2⟩ := h
  rw [show ({} : Calls) + d = d from Calls.zero_add d] at e
  have e1 := congrArg Prod.fst e
  have e2 := congrArg Prod.snd e
  dsimp only at e1 e2
  exact ⟨Except.ok.inj e1, by rw [e2], by rw [e2]; exact h1.budget h2 hP⟩

theorem ListClass.pot_le {α : Type} {c : ListClass α} {lt eqv : α → α → Bool} (hc : c.Orders lt eqv) (ht : c.Tight) {l : c.State}
    (h : c.Reached l) : pot (c.load l) (c.lists l) ≤ 4 * (c.api.iter l).length + 2 * c.load l ∧
      (c.api.iter l = [] → pot (c.load l) (c.lists l) = 0) := by
  cases hc with
  | plain hE _ => exact ⟨(SL.ready hE ht h).inv.pot, (SL.ready hE ht h).inv.pot_empty⟩
  | keyed hK _ => exact ⟨(SKL.ready hK ht h).inv.pot, (SKL.ready hK ht h).inv.pot_empty⟩

/-- Constants of the amortised bound: one list, or two. -/
theorem Budget.amortised' {α : Type} {c : ListClass α} {L N m P q : Nat} {d : Calls} (h : Budget c.width L N P m d) (hP : P ≤ 2 * m)
    (hL : 2 ≤ L) (hq : N ≤ q * (L / 2 * (L / 2))) :
    d.moved + d.shifted + d.built ≤ m * (24 * L + 12 * q + 15) + 3 * (q * (L / 2) + 1) := by
  have := (h.mono hP).amortised hL hq
  refine Nat.le_trans this (Nat.add_le_add_right (Nat.mul_le_mul_left _ ?_) _)
  unfold ListClass.width
  split <;> omega

section Dict
variable {κ ν : Type} {c : ListClass κ} {lt eqv : κ → κ → Bool} {s : SD κ ν c.State} (hc : c.Orders lt eqv) (he : IsEquiv eqv)
  (ht : c.Tight) (hs : SD.Reachable eqv c.api s)
include hc he ht hs

/-- C67: what a call on a SortedDict costs. -/
theorem C67_dict {op : SDOp κ ν} (hop : op.metered) :
    Metered (SD.metering (SD.step eqv c.metered op)) (SD.step eqv c.api op) s
      (CallCost (op.cmps (SD.length s) (c.alike lt (SD.iter c.api s))) (if c.hasKey then op.keyCalls else 0)
        (op.nodes (SD.length s) (c.alike lt (SD.iter c.api s))) op.indexes (c.lists s.list).length (c.index s.list ≠ [])) := by
  have hn := (C44_two_stores hc he hs).2.2.2.2.1
  have hr := SD.list_reached hs
  rw [hn]
  cases hc with
  | @plain E _ _ hE _ =>
    refine (SD.priced (w := 1) (fun _ _ => rfl) (fun _ _ => rfl)
      (fun o ho => SL.prices hE ht (SL.ready hE ht hr) (Nat.le_refl _) ho ((ListClass.plain E).alike lt (SD.iter (ListClass.plain E).api s)) _) op hop).metered fun s' d hq => ?_
    have := hq.callCost
    rwa [Nat.sub_self, Nat.zero_mul] at this
  | keyed hK _ =>
    refine (SD.priced (w := 2) (fun _ _ => rfl) (fun _ _ => rfl)
      (fun o ho => SKL.prices hK ht (SKL.ready hK ht hr) (Nat.le_refl _) ho (fun v => Nat.le_refl _) _) op hop).metered fun s' d hq => ?_
    have := hq.callCost
    rwa [Nat.one_mul] at this

/-- The budget of a history of calls. -/
theorem SD.hist_budget {ops : List (SDOp κ ν)} (hops : ∀ op ∈ ops, op.metered) {N P : Nat}
    (hN : ∀ ops', ops' <+: ops → SD.length (runHist (SD.step eqv c.api) ops' s).2 ≤ N)
    (hP : pot (c.load s.list) (c.lists s.list) ≤ P) :
    MeteredHist (fun op => SD.metering (SD.step eqv c.metered op)) (SD.step eqv c.api) ops s
      (Budget c.width (c.load s.list) N (P + ops.countP SDOp.adds + 2 * ops.countP SDOp.deletes)
        (ops.countP SDOp.adds + ops.countP SDOp.deletes)) := by
  have hv : ∀ op : SDOp κ ν, op.metered → op.Valid := by intro op h; cases op <;> first | trivial | cases h
  have hN' : ∀ ops', ops' <+: ops → (SD.iter c.api (runHist (SD.step eqv c.api) ops' s).2).length ≤ N := by
    intro ops' hp
    have hr : SD.Reachable eqv c.api (runHist (SD.step eqv c.api) ops' s).2 := by
      clear hN hP ht
      have hok : ∀ op ∈ ops', op.Valid := fun op ho => hv op (hops op (hp.subset ho))
      clear hp
      induction ops' generalizing s with
      | nil => exact hs
      | cons o os ih => exact ih (.step o (hok o (by simp)) hs) fun op ho => hok op (by simp [ho])
    rw [← (C44_two_stores hc he hr).2.2.2.2.1]
    exact hN ops' hp
  clear hN
  cases hc with
  | plain hE hq =>
    exact RunsAt.budget (l := SD.list) hP (runHist_bill_on (lst := SD.list) (P := SD.Reachable eqv (SL.api _)) (ok := SDOp.metered) (N := N)
      (L := s.list.load) (fun s op h ho => .step op (hv op ho) h)
      (fun s op k h ho hK => (SD.priced (fun _ _ => rfl) (fun _ _ => rfl)
        (fun o hu => SL.prices hE ht (SL.ready hE ht (SD.list_reached (c := .plain _) h)) hK hu (fun _ => 0) _) op ho).mono fun _ _ hq => ⟨hq.bill, hq.reshaped⟩)
      (fun s' h e hn => by unfold mostSublists; rw [← e]; exact (SL.ready hE ht (SD.list_reached (c := .plain _) h)).inv.spread hn)
      ops s {} hs rfl hops hN')
  | keyed hK hq =>
    exact RunsAt.budget (l := SD.list) hP (runHist_bill_on (lst := SD.list) (P := SD.Reachable eqv (SKL.api _)) (ok := SDOp.metered) (N := N)
      (L := s.list.load) (fun s op h ho => .step op (hv op ho) h)
      (fun s op k h ho hL => (SD.priced (fun _ _ => rfl) (fun _ _ => rfl)
        (fun o hu => SKL.prices hK ht (SKL.ready hK ht (SD.list_reached (c := .keyed _) h)) hL hu (fun v => Nat.le_refl _) _) op ho).mono fun _ _ hq => ⟨hq.bill, hq.reshaped⟩)
      (fun s' h e hn => by unfold mostSublists; rw [← e]; exact (SKL.ready hK ht (SD.list_reached (c := .keyed _) h)).inv.spread hn)
      ops s {} hs rfl hops hN')

/-- C67: the writes of a history of calls on a SortedDict that never has more than `N` keys. -/
theorem C67_dict_history {ops : List (SDOp κ ν)} (hops : ∀ op ∈ ops, op.metered) {N : Nat}
    (hN : ∀ ops', ops' <+: ops → SD.length (runHist (SD.step eqv c.api) ops' s).2 ≤ N) :
    MeteredHist (fun op => SD.metering (SD.step eqv c.metered op)) (SD.step eqv c.api) ops s
      (Budget c.width (c.load s.list) N
        (4 * SD.length s + 2 * c.load s.list + ops.countP SDOp.adds + 2 * ops.countP SDOp.deletes)
        (ops.countP SDOp.adds + ops.countP SDOp.deletes)) := by
  refine SD.hist_budget hc he ht hs hops hN ?_
  rw [(C44_two_stores hc he hs).2.2.2.2.1]
  exact (ListClass.pot_le hc ht (SD.list_reached hs)).1

/-- C67: from an empty SortedDict, the writes of `m` calls that add or delete, and any number of others, are at most
`m (24 L + 12 q + 15)` plus `3 (q h + 1)`, as long as there are never more than `q h²` keys (`L` is the load factor, `h` is
`L / 2`). -/
theorem C67_dict_amortised (h0 : SD.length s = 0) (hL : 2 ≤ c.load s.list) {ops : List (SDOp κ ν)}
    (hops : ∀ op ∈ ops, op.metered) {q : Nat}
    (hq : ∀ ops', ops' <+: ops →
      SD.length (runHist (SD.step eqv c.api) ops' s).2 ≤ q * (c.load s.list / 2 * (c.load s.list / 2))) :
    MeteredHist (fun op => SD.metering (SD.step eqv c.metered op)) (SD.step eqv c.api) ops s fun d =>
      d.moved + d.shifted + d.built ≤
        (ops.countP SDOp.adds + ops.countP SDOp.deletes) * (24 * c.load s.list + 12 * q + 15) + 3 * (q * (c.load s.list / 2) + 1) := by
  have h0' : SD.iter c.api s = [] := by
    rw [(C44_two_stores hc he hs).2.2.2.2.1] at h0
    exact List.eq_nil_of_length_eq_zero h0
  obtain ⟨h1, h2, h3⟩ := SD.hist_budget hc he ht hs hops hq (P := 0)
    (by rw [(ListClass.pot_le hc ht (SD.list_reached hs)).2 h0']; exact Nat.le_refl _)
  exact ⟨h1, h2, h3.amortised' (by omega) hL (Nat.le_refl _)⟩

omit hc he ht hs in
/-- C67: a lookup by key, the assignment to a key that is there and the deletion of a key that is not, cost no more than
they cost on the built-in dict. -/
theorem C67_dict_by_hash {op : SDOp κ ν} (hop : op.byHash eqv s) :
    Metered (SD.metering (SD.step eqv c.metered op)) (SD.step eqv c.api op) s fun d => d = {} :=
  (SD.byHash_runs (Q := fun _ d => d = {}) hop rfl).metered fun _ _ h => h

end Dict

section Set
variable {α τ : Type} {S : SetOps τ α} {c : ListClass α} {lt eqv : α → α → Bool} {s : SS τ c.State} (hc : c.Orders lt eqv)
  (hS : S.Lawful eqv) (ht : c.Tight) (hs : SS.Reachable S c.api s)

theorem SL.getInt_lists (E : Env α) (i : Int) (s : St α α) : ((SL.api E).getInt i s).2.lists = s.lists := by
  have := ((SL.step_quiet E (.getInt i) rfl).reindexed s).lists
  rwa [show ((SL.api E).step (.getInt i) s).2 = ((SL.api E).getInt i s).2 from Spec.out_snd ..] at this
theorem SKL.getInt_lists {κ : Type} (K : KEnv α κ) (i : Int) (s : St α κ) : ((SKL.api K).getInt i s).2.lists = s.lists := by
  have := ((SKL.kstep_quiet K (.op (.getInt i)) rfl).reindexed s).lists
  rwa [show (SKL.kstep K (.op (.getInt i)) s).2 = ((SKL.api K).getInt i s).2 from Spec.out_snd ..] at this

theorem ListClass.getInt_reached (c : ListClass α) (i : Int) {l : c.State} (h : c.Reached l) : c.Reached (c.api.getInt i l).2 := by
  have := c.reached_keeps.step (.getInt i) nofun _ h
  rwa [show (c.api.step (.getInt i) l).2 = (c.api.getInt i l).2 from Spec.out_snd ..] at this

include hc hS ht hs

/-- C67: what a call on a SortedSet costs. -/
theorem C67_set {op : SSOp α} (hop : op.metered) :
    Metered (SS.metering (SS.step S c.metered op)) (SS.step S c.api op) s
      (CallCost (op.cmps (SS.length S s) (c.alike lt (SS.iter c.api s))) (if c.hasKey then op.keyCalls else 0)
        (op.nodes (SS.length S s) (c.alike lt (SS.iter c.api s))) op.indexes (c.lists s.list).length (c.index s.list ≠ [])) := by
  have hn := (C36_two_stores hc hS hs).2.2.2
  have hr := SS.list_reached hs
  rw [hn]
  cases hc with
  | @plain E _ _ hE _ =>
    refine (SS.priced (w := 1) (fun _ _ => rfl) (fun _ _ => rfl)
      (fun o k ho => SL.prices hE ht (SL.ready hE ht hr) (Nat.le_refl _) ho ((ListClass.plain E).alike lt (SS.iter (ListClass.plain E).api s)) _)
      (fun i => SL.getInt_lists _ _ _)
      (fun o i k ho => SL.prices hE ht (SL.ready hE ht ((ListClass.plain E).getInt_reached i hr))
        (Nat.le_of_eq (congrArg List.length (SL.getInt_lists E i s.list))) ho _ _) (Nat.le_refl _) op hop).metered fun s' d hq => ?_
    have := hq.callCost
    rwa [Nat.sub_self, Nat.zero_mul] at this
  | @keyed _ K _ _ _ hK _ =>
    refine (SS.priced (w := 2) (fun _ _ => rfl) (fun _ _ => rfl)
      (fun o k ho => SKL.prices hK ht (SKL.ready hK ht hr) (Nat.le_refl _) ho (fun v => Nat.le_refl _) _)
      (fun i => SKL.getInt_lists _ _ _)
      (fun o i k ho => SKL.prices hK ht (SKL.ready hK ht ((ListClass.keyed K).getInt_reached i hr))
        (Nat.le_of_eq (congrArg List.length (SKL.getInt_lists K i s.list))) ho
        (fun v => Nat.le_of_eq (congrArg (fun l => List.countP _ (List.flatten l)) (SKL.getInt_lists K i s.list))) _) (Nat.le_refl _) op hop).metered fun s' d hq => ?_
    have := hq.callCost
    rwa [Nat.one_mul] at this

theorem SS.hist_budget {ops : List (SSOp α)} (hops : ∀ op ∈ ops, op.metered) {N P : Nat}
    (hN : ∀ ops', ops' <+: ops → SS.length S (runHist (SS.step S c.api) ops' s).2 ≤ N)
    (hP : pot (c.load s.list) (c.lists s.list) ≤ P) :
    MeteredHist (fun op => SS.metering (SS.step S c.metered op)) (SS.step S c.api) ops s
      (Budget c.width (c.load s.list) N (P + ops.countP SSOp.adds + 2 * ops.countP SSOp.deletes)
        (ops.countP SSOp.adds + ops.countP SSOp.deletes)) := by
  have hv : ∀ op : SSOp α, op.metered → op.Valid := by intro op h; cases op <;> first | trivial | cases h
  have hN' : ∀ ops', ops' <+: ops → (SS.iter c.api (runHist (SS.step S c.api) ops' s).2).length ≤ N := by
    intro ops' hp
    have hr : SS.Reachable S c.api (runHist (SS.step S c.api) ops' s).2 := by
      clear hN hP ht
      have hok : ∀ op ∈ ops', op.Valid := fun op ho => hv op (hops op (hp.subset ho))
      clear hp
      induction ops' generalizing s with
      | nil => exact hs
      | cons o os ih => exact ih (.step o (hok o (by simp)) hs) fun op ho => hok op (by simp [ho])
    rw [← (C36_two_stores hc hS hr).2.2.2]
    exact hN ops' hp
  clear hN
  cases hc with
  | @plain E _ _ hE hq =>
    exact RunsAt.budget (l := SS.list) hP (runHist_bill_on (lst := SS.list) (P := SS.Reachable S (SL.api E)) (ok := SSOp.metered) (N := N)
      (L := s.list.load) (fun s op h ho => .step op (hv op ho) h)
      (fun s op k h ho hK => (SS.priced (fun _ _ => rfl) (fun _ _ => rfl)
        (fun o k hu => SL.prices hE ht (SL.ready hE ht (SS.list_reached (c := .plain _) h)) hK hu (fun _ => 0) _)
        (fun i => SL.getInt_lists _ _ _)
        (fun o i k hu => SL.prices hE ht (SL.ready hE ht ((ListClass.plain E).getInt_reached i (SS.list_reached (c := .plain _) h)))
          (Nat.le_trans (Nat.le_of_eq (congrArg List.length (SL.getInt_lists E i s.list))) hK) hu _ _) hK op ho).mono fun _ _ hq => ⟨hq.bill, hq.reshaped⟩)
      (fun s' h e hn => by unfold mostSublists; rw [← e]; exact (SL.ready hE ht (SS.list_reached (c := .plain _) h)).inv.spread hn)
      ops s {} hs rfl hops hN')
  | @keyed _ K _ _ _ hK hq =>
    exact RunsAt.budget (l := SS.list) hP (runHist_bill_on (lst := SS.list) (P := SS.Reachable S (SKL.api K)) (ok := SSOp.metered) (N := N)
      (L := s.list.load) (fun s op h ho => .step op (hv op ho) h)
      (fun s op k h ho hL => (SS.priced (fun _ _ => rfl) (fun _ _ => rfl)
        (fun o k hu => SKL.prices hK ht (SKL.ready hK ht (SS.list_reached (c := .keyed _) h)) hL hu (fun v => Nat.le_refl _) _)
        (fun i => SKL.getInt_lists _ _ _)
        (fun o i k hu => SKL.prices hK ht (SKL.ready hK ht ((ListClass.keyed K).getInt_reached i (SS.list_reached (c := .keyed _) h)))
          (Nat.le_trans (Nat.le_of_eq (congrArg List.length (SKL.getInt_lists K i s.list))) hL) hu
          (fun v => Nat.le_of_eq (congrArg (fun l => List.countP _ (List.flatten l)) (SKL.getInt_lists K i s.list))) _) hL op ho).mono
          fun _ _ hq => ⟨hq.bill, hq.reshaped⟩)
      (fun s' h e hn => by unfold mostSublists; rw [← e]; exact (SKL.ready hK ht (SS.list_reached (c := .keyed _) h)).inv.spread hn)
      ops s {} hs rfl hops hN')

/-- C67: the writes of a history of calls on a SortedSet that never has more than `N` values. -/
theorem C67_set_history {ops : List (SSOp α)} (hops : ∀ op ∈ ops, op.metered) {N : Nat}
    (hN : ∀ ops', ops' <+: ops → SS.length S (runHist (SS.step S c.api) ops' s).2 ≤ N) :
    MeteredHist (fun op => SS.metering (SS.step S c.metered op)) (SS.step S c.api) ops s
      (Budget c.width (c.load s.list) N
        (4 * SS.length S s + 2 * c.load s.list + ops.countP SSOp.adds + 2 * ops.countP SSOp.deletes)
        (ops.countP SSOp.adds + ops.countP SSOp.deletes)) := by
  refine SS.hist_budget hc hS ht hs hops hN ?_
  rw [(C36_two_stores hc hS hs).2.2.2]
  exact (ListClass.pot_le hc ht (SS.list_reached hs)).1

/-- C67: from an empty SortedSet, the writes of `m` calls that add or delete, and any number of others, as for a dict. -/
theorem C67_set_amortised (h0 : SS.length S s = 0) (hL : 2 ≤ c.load s.list) {ops : List (SSOp α)}
    (hops : ∀ op ∈ ops, op.metered) {q : Nat}
    (hq : ∀ ops', ops' <+: ops →
      SS.length S (runHist (SS.step S c.api) ops' s).2 ≤ q * (c.load s.list / 2 * (c.load s.list / 2))) :
    MeteredHist (fun op => SS.metering (SS.step S c.metered op)) (SS.step S c.api) ops s fun d =>
      d.moved + d.shifted + d.built ≤
        (ops.countP SSOp.adds + ops.countP SSOp.deletes) * (24 * c.load s.list + 12 * q + 15) + 3 * (q * (c.load s.list / 2) + 1) := by
  have h0' : SS.iter c.api s = [] := by
    rw [(C36_two_stores hc hS hs).2.2.2] at h0
    exact List.eq_nil_of_length_eq_zero h0
  obtain ⟨h1, h2, h3⟩ := SS.hist_budget hc hS ht hs hops hq (P := 0)
    (by rw [(ListClass.pot_le hc ht (SS.list_reached hs)).2 h0']; exact Nat.le_refl _)
  exact ⟨h1, h2, h3.amortised' (by omega) hL (Nat.le_refl _)⟩

omit hc ht hs in
/-- C67: membership, the predicates and comparisons of sets, adding a value that is there and removing one that is not,
cost no more than they cost on the built-in set. -/
theorem C67_set_by_hash {op : SSOp α} (hop : op.byHash S s) :
    Metered (SS.metering (SS.step S c.metered op)) (SS.step S c.api op) s fun d => d = {} :=
  (SS.byHash_runs (Q := fun _ d => d = {}) hS hop rfl).metered fun _ _ h => h

end Set

/-! ## The hypotheses are met -/

section Examples
open Demo

theorem intClass_tight : intClass.Tight := log2_tight
theorem tensClass_tight : tensClass.Tight := log2_tight

example := C67_dict intClass_orders ieqv_equiv intClass_tight dict1_reachable (op := .setitem 33 0) rfl
example := C67_dict tensClass_orders ieqv_equiv tensClass_tight dict2_reachable (op := .delitem 35) rfl
example := C67_dict_by_hash (c := tensClass) (s := dict2) (op := .setitem 35 7) (eqv := equiv ilt) (by show _ = true; decide +kernel)
example := C67_set tensClass_orders (iset_lawful true) tensClass_tight set2_reachable (op := .delInt (-2)) rfl
example := C67_set_by_hash (c := tensClass) (s := set2) (iset_lawful true) (op := .remove 1) (by show _ = false; decide +kernel)

/-- A key that compares equal to four keys of the dict, all of them in the way of the search. -/
example : SD.length dict2 = 9 ∧ tensClass.alike (fun a b => ilt (a / 10) (b / 10)) (SD.iter tensClass.api dict2) 35 = 4 := by
  decide +kernel
example : (SD.metering (SD.step (equiv ilt) intClass.metered (.setitem 33 0)) (dict1, {})).2.2 =
    { cmp := 4, moved := 2 } := by decide +kernel

/-- Lookups, assignments and deletions. -/
def costOps : List (SDOp Int Int) := [.setitem 33 0, .setitem 33 1, .getitem 44, .keysAt 4, .delitem 7, .delitem 7,
  .popitem (-1), .setdefault 1 1, .bisectLeft 40, .irange (some 10) (some 60) true true false, .viewDelInt 2]

theorem costOps_metered : ∀ op ∈ costOps, op.metered := by
  intro op h
  have : costOps.all (fun op => op.adds || op.deletes || op.search) = true := by decide +kernel
  exact List.all_eq_true.1 this op h

example := C67_dict_history intClass_orders ieqv_equiv intClass_tight dict1_reachable costOps_metered (N := 9)
  (prefixes (by decide +kernel))

/-- Three sublists are split, merged or removed, and the index is built again after that. -/
example : (runHist (fun op => SD.metering (SD.step (equiv ilt) intClass.metered op)) costOps (dict1, {})).2.2 =
    { cmp := 28, node := 9, built := 28, moved := 9, shifted := 26, reshaped := 3 } := by decide +kernel

/-- `sd = SortedDict(); sd._reset(2)` -/
def emptyDict : SD Int Int intClass.State :=
  (SD.step (equiv ilt) intClass.api (.reset 2) ⟨[], (St.empty : St Int Int)⟩).2

theorem emptyDict_reachable : SD.Reachable (equiv ilt) intClass.api emptyDict :=
  .step (.reset 2) (show 1 ≤ 2 by decide) (.new (arg := .pairs [] none) rfl rfl)

example := C67_dict_amortised intClass_orders ieqv_equiv intClass_tight emptyDict_reachable (by decide +kernel) (by decide +kernel)
  costOps_metered (q := 9) (prefixes (by decide +kernel))

/-- `ss = SortedSet(key=...); ss._reset(2)` -/
def emptySet : SS { l : List Int // Distinct (equiv ilt) l } tensClass.State :=
  (SS.step (iset true) tensClass.api (.reset 2) ⟨(iset true).empty, (St.empty : St Int Int)⟩).2

theorem emptySet_reachable : SS.Reachable (iset true) tensClass.api emptySet :=
  .step (.reset 2) (show 1 ≤ 2 by decide) (.new (xs := none) rfl)

def costSetOps : List (SSOp Int) := [.add 33, .add 38, .add 71, .add 38, .add 5, .add 39, .getInt 2, .add 30, .add 31, .contains 4,
  .delInt 1, .pop (-1), .remove 99, .bisectLeft 40]

theorem costSetOps_metered : ∀ op ∈ costSetOps, op.metered := by
  intro op h
  have : costSetOps.all (fun op => op.adds || op.deletes || op.search) = true := by decide +kernel
  exact List.all_eq_true.1 this op h

example := C67_set_history tensClass_orders (iset_lawful true) tensClass_tight set2_reachable costSetOps_metered (N := 14)
  (prefixes (by decide +kernel))
example := C67_set_amortised tensClass_orders (iset_lawful true) tensClass_tight emptySet_reachable (by decide +kernel)
  (by decide +kernel) costSetOps_metered (q := 7) (prefixes (by decide +kernel))

end Examples
end Verif
