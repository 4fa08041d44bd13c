import Verif.Props.CountedSets
import Verif.Props.SortedList
import Verif.Props.SortedKeyList
/-!
# Metered updates with many values
-/

namespace Verif
variable {σ α κ β γ : Type}

/-- `n` times the counters. -/
def Calls.times (n : Nat) (B : Calls) : Calls :=
  ⟨n * B.cmp, n * B.key, n * B.node, n * B.built, n * B.moved, n * B.shifted, n * B.reshaped, n * B.sorted⟩

theorem Calls.times_succ (n : Nat) (B : Calls) : Calls.times (n + 1) B = B + Calls.times n B := by
  apply Calls.ext' <;> simp only [Calls.times, Calls.add_cmp, Calls.add_key, Calls.add_node, Calls.add_built, Calls.add_moved,
    Calls.add_shifted, Calls.add_reshaped, Calls.add_sorted, Nat.add_mul] <;> omega

theorem Counts.forEach {B : Calls} {fc : β → CPy σ Unit} {f : β → Py σ Unit} {I : Nat → σ → Prop} {N : Nat}
    (h : ∀ j s b, j < N → I j s → Counts B (fc b) (f b) s ∧ I (j + 1) (f b s).2) (bs : List β) :
    ∀ j s, I j s → j + bs.length ≤ N → Counts (Calls.times bs.length B) (Py.forEach fc bs) (Py.forEach f bs) s := by
  induction bs with
  | nil => intro j s _ _; exact .pure _
  | cons b bs ih =>
    intro j s hI hN
    rw [List.length_cons] at hN ⊢
    rw [Calls.times_succ]
    exact (h j s b (by omega) hI).1.bind fun _ _ => ih (j + 1) _ (h j s b (by omega) hI).2 (by omega)

theorem Counts.sorting (n : Nat) (b : Bool) (x : Except PyErr β) (s : σ) :
    Counts { sorted := n, key := b.toNat * n } (Counted.sorting n b x : CPy σ β) (Py.lift x) s := fun _ =>
  ⟨{ sorted := n, key := b.toNat * n }, Calls.le_refl _, rfl⟩

theorem mapEach_key_counts (K : KEnv α κ) (l : List α) (s : St α κ) :
    Counts { key := l.length } (Py.mapEach K.metered.key l) (Py.lift (mapE K.key l)) s := by
  induction l with
  | nil => exact .pure _
  | cons a l ih =>
    have e : (Py.lift (mapE K.key (a :: l)) : Py (St α κ) (List κ)) =
        Py.lift (K.key a) >>= fun b => Py.lift (mapE K.key l) >>= fun bs => Pure.pure (b :: bs) := by
      simp only [mapE]
      cases K.key a with
      | error _ => rfl
      | ok b => cases mapE K.key l <;> rfl
    rw [e]
    refine Counts.mono (.lifted_bind (B' := { key := l.length } + 0) (.keying _) fun b _ => .lifted_bind ih fun bs _ => .pure _) ?_
    simp only [List.length_cons]
    calls

theorem Spec.out_state {f : β → Out α} {m : Py σ β} {s : σ} : (Spec.out f m s).2 = (m s).2 := by
  unfold Spec.out
  rcases m s with ⟨_ | _, _⟩ <;> rfl

theorem log2_mono {a b : Nat} (h : a ≤ b) : Nat.log2 a ≤ Nat.log2 b := by
  by_cases h0 : a = 0
  · rw [h0]; simp
  · exact (Nat.le_log2 (by omega)).2 (Nat.le_trans (Nat.log2_self_le h0) h)

theorem Spec.insert_length (O : Spec.Order α) (l : List α) (v : α) : (Spec.insert O l v).length = l.length + 1 := by
  have := congrArg List.length (List.takeWhile_append_dropWhile (p := fun x => !O.lt v x) (l := l))
  simp only [List.length_append] at this
  simp only [Spec.insert, List.length_append, List.length_cons]
  omega

theorem Spec.remove_sublist (O : Spec.Order α) (v : α) (l : List α) : List.Sublist (Spec.remove O v l).2 l := by
  unfold Spec.remove
  split
  · exact List.eraseP_sublist
  · exact List.Sublist.refl _

theorem Inv.lists_nil {k : α → κ} {lt : κ → κ → Bool} {keyed : Bool} {s : St α κ} (h : Inv k lt keyed s) (h0 : Core.iter s = []) :
    s.lists = [] := by
  cases hl : s.lists with
  | nil => rfl
  | cons a as =>
    have := h.ne_nil a (by rw [hl]; simp)
    rw [Core.iter, hl, List.flatten_cons, List.append_eq_nil_iff] at h0
    exact absurd h0.1 this

namespace SL
variable {E : Env α} {lt : α → α → Bool} {s : St α α}

theorem fill_counts (vs : List α) (s : St α α) : Counts { moved := vs.length } (Counted.SL.fill vs) (fill vs) s :=
  Counts.mono (.moving_bind (B := 0) (.free _)) (by calls)

/-- The paths that do not add values one by one. -/
theorem update_counts_empty (hE : E.Lawful lt) (hm : s.maxes = []) (xs : List α) :
    Counts { sorted := xs.length, moved := xs.length } (Counted.SL.update E.metered xs) (update E xs) s := by
  refine Counts.mono (.lifted_bind (B' := { moved := xs.length }) (.sorting _ false _ _) fun vs hv => .get_bind ?_)
    (by simp only [Bool.toNat_false]; calls)
  rw [if_neg (by simp [hm]), if_neg (by simp [hm])]
  obtain ⟨ys, e, hy⟩ := hE.sorted xs
  rw [e] at hv
  cases hv
  rw [← hy.perm.length_eq]
  exact fill_counts _ _

/-- One step of the loop of `update`. -/
theorem add_each (hE : E.Lawful lt) (ht : Log2Tight E.ilog2) {N n L : Nat} (hs : (api E).Reachable s) (hn : (Core.iter s).length = n)
    (hN : n ≤ N) (hL : s.load = L) (v : α) :
    Counts { cmp := Nat.log2 N + 6, node := Nat.log2 N + 2, moved := 4 * L + 3, shifted := 2 * (N + 1), reshaped := 1 }
      (Counted.SL.add E.metered v) (add E v) s ∧ (api E).Reachable (add E v s).2 ∧ (Core.iter (add E v s).2).length = n + 1 ∧
      (add E v s).2.load = L := by
  have h := SL.ready hE ht hs
  refine ⟨(SL.add_counts h h.inv.within v).mono ?_, by
    have := ListAPI.Reachable.step (.add v) trivial hs
    rwa [show (api E).step (.add v) s = Spec.out (fun _ => .none) (add E v) s from rfl, Spec.out_state] at this, ?_, ?_⟩
  · have hb := bits_log2 (Core.iter s).length
    have hm := h.inv.bits_sublists
    have h1 := h.inv.sublists_le
    have h2 : Nat.log2 n ≤ Nat.log2 N := log2_mono hN
    rw [hn] at *
    simp only [addCost, hL]
    calls
  · obtain ⟨s', A, B, e, h1, h2, _⟩ := C06_add hE hs v
    rw [e, h2, ← hn, h1]
    simp only [List.length_append, List.length_cons]
    omega
  · obtain ⟨d, _, hq⟩ := SL.prices hE ht h (Nat.le_refl _) (op := .add v) rfl (fun _ => 0) {}
    have := hq.bill.load.trans hL
    rwa [show (api E).step (.add v) s = Spec.out (fun _ => .none) (add E v) s from rfl, Spec.out_state] at this

theorem update_counts (hE : E.Lawful lt) (ht : Log2Tight E.ilog2) {n L : Nat} (hs : (api E).Reachable s) (hn : (Core.iter s).length = n)
    (hL : s.load = L) (xs : List α) :
    Counts { cmp := xs.length * (Nat.log2 (n + xs.length) + 6), node := xs.length * (Nat.log2 (n + xs.length) + 2), sorted := 6 * xs.length, moved := xs.length * (4 * L + 3), shifted := xs.length * (2 * (n + xs.length + 1)), reshaped := xs.length }
      (Counted.SL.update E.metered xs) (update E xs) s := by
  have h := SL.ready hE ht hs
  have hL1 : xs.length * 7 ≤ xs.length * (4 * L + 3) := Nat.mul_le_mul_left _ (by have := h.inv.load_pos; omega)
  by_cases hm : s.maxes = []
  · exact (update_counts_empty hE hm xs).mono (by calls)
  refine Counts.mono (.lifted_bind (B' := { cmp := xs.length * (Nat.log2 (n + xs.length) + 6), node := xs.length * (Nat.log2 (n + xs.length) + 2), sorted := 5 * xs.length, moved := xs.length * (4 * L + 3), shifted := xs.length * (2 * (n + xs.length + 1)), reshaped := xs.length }) (.sorting _ false _ _) fun vs hv => .get_bind ?_)
    (by simp only [Bool.toNat_false]; calls)
  obtain ⟨ys, e, hy⟩ := hE.sorted xs
  rw [e] at hv
  cases hv
  have hlen := hy.perm.length_eq
  rw [if_pos hm, if_pos hm]
  refine .ite (fun hb => ?_) fun hb => ?_
  · refine .modify_bind (.get_bind ?_)
    have hit : Core.iter { s with lists := s.lists ++ [vs] } = Core.iter s ++ vs := by simp [Core.iter]
    rw [hit]
    have hsl := h.inv.len_eq
    refine Counts.mono (.lifted_bind (B' := { moved := n + xs.length }) (.sorting _ false _ _) fun zs hz => ?_) ?_
    · obtain ⟨zs', ez, hz'⟩ := hE.sorted (Core.iter s ++ vs)
      rw [ez] at hz
      cases hz
      have hlz := hz'.perm.length_eq
      rw [List.length_append, hn, hlen] at hlz
      rw [← hlz]
      exact .modify_bind (fill_counts _ _)
    · have : (Core.iter s).length = s.len := by rw [hsl]; simp [Core.iter]
      rw [List.length_append]
      simp only [Bool.toNat_false]
      calls
  · rw [← hlen]
    refine Counts.mono (.forEach (N := vs.length) (I := fun j s' => (api E).Reachable s' ∧ (Core.iter s').length = n + j ∧ s'.load = L)
      (B := { cmp := Nat.log2 (n + vs.length) + 6, node := Nat.log2 (n + vs.length) + 2, moved := 4 * L + 3, shifted := 2 * (n + vs.length + 1), reshaped := 1 })
      (fun j s' v hj ⟨h1, h2, h3⟩ => ?_) vs 0 s ⟨hs, hn, hL⟩ (by omega)) ?_
    · exact add_each hE ht h1 h2 (by omega) h3 v
    · simp only [Calls.times]
      calls

theorem remove_each (hE : E.Lawful lt) (ht : Log2Tight E.ilog2) {N : Nat} (hs : (api E).Reachable s) (hN : (Core.iter s).length ≤ N) (v : α) :
    Counts { cmp := Nat.log2 N + 7, node := Nat.log2 N + 2, moved := 12 * s.load, shifted := 2 * (2 * N), reshaped := 2 }
      (Counted.SL.remove E.metered v) (remove E v) s ∧ (api E).Reachable (remove E v s).2 ∧
      List.Sublist (Core.iter (remove E v s).2) (Core.iter s) ∧ (remove E v s).2.load = s.load := by
  have h := SL.ready hE ht hs
  refine ⟨(SL.remove_counts h h.inv.within v).mono ?_, ?_, ?_, ?_⟩
  · have hb := bits_log2 (Core.iter s).length
    have hm := h.inv.bits_sublists
    have h1 := h.inv.sublists_le
    have h2 := log2_mono hN
    simp only [deleteCost]
    calls
  · have := ListAPI.Reachable.step (.remove v) trivial hs
    rwa [show (api E).step (.remove v) s = Spec.out (fun _ => .none) (remove E v) s from rfl, Spec.out_state] at this
  · rw [(SL.remove_refines hE v s h.inv).2.1]
    exact Spec.remove_sublist _ _ _
  · obtain ⟨d, _, hq⟩ := SL.prices hE ht h (Nat.le_refl _) (op := .remove v) rfl (fun _ => 0) {}
    have := hq.bill.load
    rwa [show (api E).step (.remove v) s = Spec.out (fun _ => .none) (remove E v) s from rfl, Spec.out_state] at this

end SL

namespace SKL
variable {K : KEnv α κ} {key : α → κ} {klt : κ → κ → Bool} {veq : α → α → Bool} {s : St α κ}

theorem fillKeys_counts (K : KEnv α κ) (L : List (List α)) : ∀ s : St α κ,
    Counts { key := L.flatten.length, moved := L.flatten.length }
      (Py.forEach (fun l => do
        let ks ← Py.mapEach K.metered.key l
        Counted.moving ks.length
        CPy.free (Py.modify fun s => { s with keys := s.keys ++ [ks] })) L)
      (Py.forEach (fun l => do
        let ks ← Py.lift (mapE K.key l)
        Py.modify fun s => { s with keys := s.keys ++ [ks] }) L) s := by
  induction L with
  | nil => intro s; exact .pure _
  | cons l L ih =>
    intro s
    refine Counts.mono (.bind (B := { key := l.length, moved := l.length }) (B' := { key := L.flatten.length, moved := L.flatten.length }) ?_ fun _ _ => ih _) ?_
    · refine Counts.mono (.lifted_bind (B' := { moved := l.length }) (mapEach_key_counts K l s) fun ks hk => ?_) (by calls)
      rw [← mapE_length hk]
      exact Counts.mono (.moving_bind (B := 0) (.free _)) (by calls)
    · simp only [List.flatten_cons, List.length_append]
      calls

theorem fill_counts (K : KEnv α κ) (hload : 1 ≤ s.load) (hl : s.lists = []) (vs : List α) :
    Counts { key := vs.length, moved := 2 * vs.length } (Counted.SKL.fill K.metered vs) (fill K vs) s := by
  obtain ⟨cs, e, h1, _⟩ := chunks_ok hload vs
  refine .get_bind (Counts.mono (.moving_bind (B := { key := vs.length, moved := vs.length }) ?_) (by calls))
  refine .lift_bind fun subs hsub => .modify_bind (.get_bind ?_)
  rw [e] at hsub
  cases hsub
  dsimp only
  rw [hl, List.nil_append]
  refine Counts.mono (.bind (B' := 0) (fillKeys_counts K cs _) fun _ _ => .get_bind (.lift_bind fun _ _ => .modify_bind (.modify_bind (.free _)))) ?_
  rw [h1]
  calls

theorem update_counts_empty (hK : K.Lawful key klt veq) (h : Inv key klt true s) (hm : s.maxes = []) (xs : List α) :
    Counts { sorted := xs.length, key := 2 * xs.length, moved := 2 * xs.length } (Counted.SKL.update K.metered xs) (update K xs) s := by
  refine Counts.mono (.lifted_bind (B' := { key := xs.length, moved := 2 * xs.length }) (.sorting _ true _ _) fun vs hv => .get_bind ?_)
    (by simp only [Bool.toNat_true]; calls)
  rw [if_neg (by simp [hm]), if_neg (by simp [hm])]
  obtain ⟨ys, e, hy⟩ := hK.sorted xs
  rw [e] at hv
  cases hv
  rw [← hy.perm.length_eq]
  exact fill_counts K h.load_pos (h.maxes.nil_iff.1 hm) _

theorem add_each (hK : K.Lawful key klt veq) (ht : Log2Tight K.ilog2) {N n L : Nat} (hs : Reachable K s) (hn : (Core.iter s).length = n)
    (hN : n ≤ N) (hL : s.load = L) (v : α) :
    Counts { cmp := Nat.log2 N + 6, key := 1, node := Nat.log2 N + 2, moved := 2 * (4 * L + 3), shifted := 3 * (N + 1), reshaped := 1 }
      (Counted.SKL.add K.metered v) (add K v) s ∧ Reachable K (add K v s).2 ∧ (Core.iter (add K v s).2).length = n + 1 ∧
      (add K v s).2.load = L := by
  have h := SKL.ready hK ht hs
  refine ⟨(SKL.add_counts h h.inv.within v).mono ?_, ?_, ?_, ?_⟩
  · have hb := bits_log2 (Core.iter s).length
    have hm := h.inv.bits_sublists
    have h1 := h.inv.sublists_le
    have h2 : Nat.log2 n ≤ Nat.log2 N := log2_mono hN
    rw [hn] at *
    simp only [addCost, hL]
    calls
  · have := Reachable.step (.op (.add v)) trivial hs
    rwa [show kstep K (.op (.add v)) s = Spec.out (fun _ => .none) (add K v) s from rfl, Spec.out_state] at this
  · obtain ⟨s', e, h'⟩ := (SKL.add_refines (cmp := K.vcmp) hK v).run h.inv
    rw [e, h', ← hn]
    show (Spec.insert _ (Core.iter s) v).length = _
    rw [Spec.insert_length]
  · obtain ⟨d, _, hq⟩ := SKL.prices hK ht h (Nat.le_refl _) (op := .add v) rfl (fun v => Nat.le_refl _) {}
    have := hq.bill.load.trans hL
    rwa [show (api K).step (.add v) s = Spec.out (fun _ => .none) (add K v) s from rfl, Spec.out_state] at this

theorem update_counts (hK : K.Lawful key klt veq) (ht : Log2Tight K.ilog2) {n L : Nat} (hs : Reachable K s) (hn : (Core.iter s).length = n)
    (hL : s.load = L) (xs : List α) :
    Counts { cmp := xs.length * (Nat.log2 (n + xs.length) + 6), key := 11 * xs.length, node := xs.length * (Nat.log2 (n + xs.length) + 2), sorted := 6 * xs.length, moved := xs.length * (2 * (4 * L + 3)), shifted := xs.length * (3 * (n + xs.length + 1)), reshaped := xs.length }
      (Counted.SKL.update K.metered xs) (update K xs) s := by
  have h := SKL.ready hK ht hs
  have hL1 : xs.length * 14 ≤ xs.length * (2 * (4 * L + 3)) := Nat.mul_le_mul_left _ (by have := h.inv.load_pos; omega)
  by_cases hm : s.maxes = []
  · exact (update_counts_empty hK h.inv hm xs).mono (by calls)
  refine Counts.mono (.lifted_bind (B' := { cmp := xs.length * (Nat.log2 (n + xs.length) + 6), key := 10 * xs.length, node := xs.length * (Nat.log2 (n + xs.length) + 2), sorted := 5 * xs.length, moved := xs.length * (2 * (4 * L + 3)), shifted := xs.length * (3 * (n + xs.length + 1)), reshaped := xs.length }) (.sorting _ true _ _) fun vs hv => .get_bind ?_)
    (by simp only [Bool.toNat_true]; calls)
  obtain ⟨ys, e, hy⟩ := hK.sorted xs
  rw [e] at hv
  cases hv
  have hlen := hy.perm.length_eq
  rw [if_pos hm, if_pos hm]
  refine .ite (fun hb => ?_) fun hb => ?_
  · refine .modify_bind (.get_bind ?_)
    have hit : Core.iter { s with lists := s.lists ++ [vs] } = Core.iter s ++ vs := by simp [Core.iter]
    rw [hit]
    have hsl := h.inv.len_eq
    refine Counts.mono (.lifted_bind (B' := { key := n + xs.length, moved := 2 * (n + xs.length) }) (.sorting _ true _ _) fun zs hz => ?_) ?_
    · obtain ⟨zs', ez, hz'⟩ := hK.sorted (Core.iter s ++ vs)
      rw [ez] at hz
      cases hz
      have hlz := hz'.perm.length_eq
      rw [List.length_append, hn, hlen] at hlz
      rw [← hlz]
      exact .modify_bind (fill_counts (s := { s with lists := [], len := 0, maxes := [], index := [], keys := [] }) K h.inv.load_pos rfl _)
    · have : (Core.iter s).length = s.len := by rw [hsl]; simp [Core.iter]
      rw [List.length_append]
      simp only [Bool.toNat_true]
      calls
  · rw [← hlen]
    refine Counts.mono (.forEach (N := vs.length) (I := fun j s' => Reachable K s' ∧ (Core.iter s').length = n + j ∧ s'.load = L)
      (B := { cmp := Nat.log2 (n + vs.length) + 6, key := 1, node := Nat.log2 (n + vs.length) + 2, moved := 2 * (4 * L + 3), shifted := 3 * (n + vs.length + 1), reshaped := 1 })
      (fun j s' v hj ⟨h1, h2, h3⟩ => ?_) vs 0 s ⟨hs, hn, hL⟩ (by omega)) ?_
    · exact add_each hK ht h1 h2 (by omega) h3 v
    · simp only [Calls.times]
      calls

theorem remove_each (hK : K.Lawful key klt veq) (ht : Log2Tight K.ilog2) {N A : Nat} (hs : Reachable K s) (hN : (Core.iter s).length ≤ N) (v : α)
    (hA : (Core.iter s).countP (fun w => equiv klt (key w) (key v)) ≤ A) :
    Counts { cmp := Nat.log2 N + 7 + 2 * A, key := 1, node := Nat.log2 N + 2, moved := 2 * (12 * s.load), shifted := 3 * (2 * N), reshaped := 2 }
      (Counted.SKL.remove K.metered v) (remove K v) s ∧ Reachable K (remove K v s).2 ∧
      List.Sublist (Core.iter (remove K v s).2) (Core.iter s) ∧ (remove K v s).2.load = s.load := by
  have h := SKL.ready hK ht hs
  refine ⟨(SKL.remove_counts h h.inv.within hK v).mono ?_, ?_, ?_, ?_⟩
  · have hb := bits_log2 (Core.iter s).length
    have hm := h.inv.bits_sublists
    have h1 := h.inv.sublists_le
    have h2 := log2_mono hN
    simp only [deleteCost, alike]
    calls
  · have := Reachable.step (.op (.remove v)) trivial hs
    rwa [show kstep K (.op (.remove v)) s = Spec.out (fun _ => .none) (remove K v) s from rfl, Spec.out_state] at this
  · rw [(SKL.remove_refines (cmp := K.vcmp) hK v s h.inv).2.1]
    exact Spec.remove_sublist _ _ _
  · obtain ⟨d, _, hq⟩ := SKL.prices hK ht h (Nat.le_refl _) (op := .remove v) rfl (fun v => Nat.le_refl _) {}
    have := hq.bill.load
    rwa [show (api K).step (.remove v) s = Spec.out (fun _ => .none) (remove K v) s from rfl, Spec.out_state] at this

end SKL

/-! ## Both classes -/

namespace ListClass
variable {c : ListClass α} {lt eqv : α → α → Bool} {l : c.State}

theorem width_plain (E : Env α) : (ListClass.plain E).width = 1 := rfl
theorem width_keyed (K : KEnv α κ) : (ListClass.keyed K).width = 2 := rfl

/-- The cost of adding a value to a list of at most `N` values. -/
def addCost (c : ListClass α) (N L : Nat) : Calls :=
  { cmp := Nat.log2 N + 6, key := c.width - 1, node := Nat.log2 N + 2, moved := c.width * (4 * L + 3), shifted := (c.width + 1) * (N + 1), reshaped := 1 }

theorem add_each (hc : c.Orders lt eqv) (ht : c.Tight) (hr : c.Reached l) {N : Nat} (hN : (c.api.iter l).length ≤ N) (v : α) :
    Counts (c.addCost N (c.load l)) (c.metered.add v) (c.api.add v) l ∧ c.Reached (c.api.add v l).2 ∧
      (c.api.iter (c.api.add v l).2).length = (c.api.iter l).length + 1 ∧ c.load (c.api.add v l).2 = c.load l := by
  cases hc with
  | plain hE _ =>
    obtain ⟨h1, h2⟩ := SL.add_each hE ht hr rfl hN rfl v
    refine ⟨h1.mono ?_, h2⟩
    simp only [addCost, width_plain, load]
    calls
  | keyed hK _ =>
    obtain ⟨h1, h2⟩ := SKL.add_each hK ht hr rfl hN rfl v
    refine ⟨h1.mono ?_, h2⟩
    simp only [addCost, width_keyed, load]
    calls

/-- The cost of filling an empty list with `k` values. -/
def fillCost (c : ListClass α) (k : Nat) : Calls := { sorted := k, key := (c.width - 1) * (2 * k), moved := c.width * k }

theorem update_empty (hc : c.Orders lt eqv) (ht : c.Tight) (hr : c.Reached l) (h0 : c.api.iter l = []) (xs : List α) :
    Counts (c.fillCost xs.length) (c.metered.update xs) (c.api.update xs) l := by
  cases hc with
  | plain hE _ =>
    have h := SL.ready hE ht hr
    have : l.maxes = [] := h.inv.maxes.nil_iff.2 (h.inv.lists_nil h0)
    refine (SL.update_counts_empty hE this xs).mono ?_
    simp only [fillCost, width_plain]
    calls
  | keyed hK _ =>
    have h := SKL.ready hK ht hr
    have : l.maxes = [] := h.inv.maxes.nil_iff.2 (h.inv.lists_nil h0)
    refine (SKL.update_counts_empty hK h.inv this xs).mono ?_
    simp only [fillCost, width_keyed]
    calls

theorem clear_each (hc : c.Orders lt eqv) (hr : c.Reached l) :
    (c.api.clear l).1 = .ok () ∧ c.Reached (c.api.clear l).2 ∧ c.api.iter (c.api.clear l).2 = [] ∧ ∀ k, c.metered.clear (l, k) = ((c.api.clear l).1, (c.api.clear l).2, k) := by
  have hk := c.reached_keeps.step .clear (fun _ h => by cases h) l hr
  cases hc with
  | plain hE _ => exact ⟨rfl, hk, rfl, fun _ => rfl⟩
  | keyed hK _ => exact ⟨rfl, hk, rfl, fun _ => rfl⟩

/-- The cost of removing a value from a list of at most `N` values, at most `A` of which have its key. -/
def removeCost (c : ListClass α) (N A L : Nat) : Calls :=
  { cmp := Nat.log2 N + 7 + 2 * A, key := c.width - 1, node := Nat.log2 N + 2, moved := c.width * (12 * L), shifted := (c.width + 1) * (2 * N), reshaped := 2 }

theorem remove_each (hc : c.Orders lt eqv) (ht : c.Tight) (hr : c.Reached l) {N A : Nat} (hN : (c.api.iter l).length ≤ N) (v : α)
    (hA : c.alike lt (c.api.iter l) v ≤ A) :
    Counts (c.removeCost N A (c.load l)) (c.metered.remove v) (c.api.remove v) l ∧ c.Reached (c.api.remove v l).2 ∧
      List.Sublist (c.api.iter (c.api.remove v l).2) (c.api.iter l) ∧ c.load (c.api.remove v l).2 = c.load l := by
  cases hc with
  | plain hE _ =>
    obtain ⟨h1, h2⟩ := SL.remove_each hE ht hr hN v
    refine ⟨h1.mono ?_, h2⟩
    simp only [removeCost, width_plain, load]
    calls
  | keyed hK _ =>
    obtain ⟨h1, h2⟩ := SKL.remove_each hK ht hr hN v hA
    refine ⟨h1.mono ?_, h2⟩
    simp only [removeCost, width_keyed, load]
    calls

end ListClass

end Verif
