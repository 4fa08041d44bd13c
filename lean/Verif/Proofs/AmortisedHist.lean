import Verif.Proofs.AmortisedOps
import Verif.Proofs.Robust
/-!
# The bill of a whole history, and the debt of the object it starts from
-/

namespace Verif
variable {α κ : Type}

/-- The bill of a history of calls each of which has a bill, on an object that always holds at most `N` values. -/
theorem runHist_bill {O : Type} {step : O → Py (St α κ) (Out α)} {stepc : O → CPy (St α κ) (Out α)} {P : St α κ → Prop}
    {ok : O → Prop} {adds dels : O → Bool} {w K L N : Nat} (hP : ∀ s op, P s → ok op → P (step op s).2)
    (hB : ∀ s op, P s → ok op → s.lists.length ≤ K → Billed w K (adds op).toNat (dels op).toNat (stepc op) (step op) s)
    (hK : ∀ s, P s → s.load = L → (Core.iter s).length ≤ N → s.lists.length ≤ K) :
    ∀ (ops : List O) (s : St α κ) (k : Calls), P s → s.load = L → (∀ op ∈ ops, ok op) →
      (∀ ops', ops' <+: ops → (Core.iter (runHist step ops' s).2).length ≤ N) →
      ∃ d, runHist stepc ops (s, k) = ((runHist step ops s).1, (runHist step ops s).2, k + d) ∧
        Bill w K (ops.countP adds) (ops.countP dels) s (runHist step ops s).2 d ∧
        d.reshaped ≤ 2 * (ops.countP adds + ops.countP dels) := by
  intro ops
  induction ops with
  | nil => intro s k _ _ _ _; exact ⟨0, by simp only [runHist, Calls.add_zero], Bill.refl s, by simp⟩
  | cons op ops ih =>
    intro s k h hL hok hN
    have hs := hK s h hL (hN [] (by simp))
    obtain ⟨d, e, h1, h2⟩ := hB s op h (hok op (by simp)) hs k
    have hL' : (step op s).2.load = L := by rw [h1.load, hL]
    obtain ⟨d', e', g1, g2⟩ := ih (step op s).2 (k + d) (hP s op h (hok op (by simp))) hL'
      (fun o ho => hok o (by simp [ho])) (fun ops' hp => hN (op :: ops') (by simpa using hp))
    refine ⟨d + d', ?_, ?_, ?_⟩
    · simp only [runHist, e, e', Calls.add_assoc]
    · have := h1.trans g1
      rw [List.countP_cons, List.countP_cons]
      simp only [runHist]
      refine this.mono ?_ ?_
      · cases adds op <;> simp <;> omega
      · cases dels op <;> simp <;> omega
    · rw [Calls.add_reshaped, List.countP_cons, List.countP_cons]
      revert h2
      cases adds op <;> cases dels op <;> simp <;> omega

/-! ## The debt of the object at the start -/

/-- All sublists hold exactly `load` values, except that the last one may hold fewer. -/
def Packed (s : St α κ) : Prop := (∀ l ∈ s.lists, l.length ≤ s.load) ∧ ∀ l ∈ s.lists.dropLast, l.length = s.load

theorem fars_packed {L : Nat} : ∀ lists : List (List α), (∀ l ∈ lists, l.length ≤ L) → (∀ l ∈ lists.dropLast, l.length = L) →
    fars L lists ≤ 2 * L
  | [], _, _ => Nat.zero_le _
  | [l], h, _ => by
    have := h l (by simp)
    rw [fars_cons]; simp only [fars, far, List.map_nil, List.sum_nil]; omega
  | l :: l' :: t, h, h' => by
    have e := h' l (by simp)
    have := fars_packed (l' :: t) (fun x hx => h x (by simp [List.mem_cons.1 hx])) (fun x hx => h' x (by simp [hx]))
    rw [fars_cons, e]
    simp only [far]; omega

theorem Packed.pot {s : St α κ} (h : Packed s) : pot s.load s.lists ≤ 2 * s.load :=
  Nat.le_trans (pot_le _ _) (fars_packed _ h.1 h.2)

theorem fars_le {L : Nat} : ∀ lists : List (List α), (∀ l ∈ lists, l ≠ []) → (∀ l ∈ lists.dropLast, L / 2 ≤ l.length) →
    fars L lists ≤ 4 * lists.flatten.length + 2 * L
  | [], _, _ => Nat.zero_le _
  | [l], _, _ => by
    rw [fars_cons]; simp only [fars, far, List.map_nil, List.sum_nil, List.flatten_cons, List.flatten_nil, List.append_nil]; omega
  | l :: l' :: t, h, h' => by
    have e := h' l (by simp)
    have e' := List.length_pos_iff.2 (h l (by simp))
    have := fars_le (l' :: t) (fun x hx => h x (by simp [List.mem_cons.1 hx])) (fun x hx => h' x (by simp [hx]))
    rw [fars_cons, List.flatten_cons, List.length_append]
    simp only [far]; omega

theorem Inv.pot {k : α → κ} {lt : κ → κ → Bool} {keyed : Bool} {s : St α κ} (h : Inv k lt keyed s) :
    pot s.load s.lists ≤ 4 * (Core.iter s).length + 2 * s.load :=
  Nat.le_trans (pot_le _ _) (fars_le _ h.ne_nil h.lower)

theorem Inv.pot_empty {k : α → κ} {lt : κ → κ → Bool} {keyed : Bool} {s : St α κ} (h : Inv k lt keyed s) (he : Core.iter s = []) :
    Verif.pot s.load s.lists = 0 := by
  have : s.lists = [] := by
    have h1 := length_le_flatten s.lists h.ne_nil
    have h2 : s.lists.flatten = [] := he
    rw [h2] at h1
    exact List.length_eq_zero_iff.1 (by simpa using h1)
  rw [this, pot_nil]

/-- How many sublists `N` values can be spread over. -/
theorem Inv.spread {k : α → κ} {lt : κ → κ → Bool} {keyed : Bool} {s : St α κ} (h : Inv k lt keyed s) {N : Nat}
    (hN : (Core.iter s).length ≤ N) : s.lists.length ≤ N / max 1 (s.load / 2) + 1 := by
  by_cases hne : s.lists = []
  · rw [hne]; exact Nat.zero_le _
  have h1 := h.sublists_mul hne
  by_cases h0 : s.load / 2 = 0
  · have := length_le_flatten s.lists h.ne_nil
    rw [h0]
    have h2 : (Core.iter s).length = s.lists.flatten.length := rfl
    simp; omega
  · rw [Nat.max_eq_right (by omega)]
    have : s.lists.length - 1 ≤ N / (s.load / 2) := by
      rw [Nat.le_div_iff_mul_le (by omega)]; omega
    omega

/-! ## Bulk loading packs the values -/

theorem chunks_packed {s : St α κ} {vs : List α} {cs : List (List α)} (h : 1 ≤ s.load) (e : Core.chunks s.load vs = .ok cs)
    (hl : s.lists = cs) : Packed s := by
  obtain ⟨cs', e', -, -, h3, h4⟩ := chunks_ok h vs
  rw [e] at e'; cases e'
  unfold Packed
  rw [hl]
  exact ⟨h3, h4⟩

theorem SL.fill_packed {s s' : St α α} (h : 1 ≤ s.load) (hl : s.lists = []) {vs : List α} (e : SL.fill vs s = (.ok (), s')) :
    Packed s' ∧ s'.load = s.load := by
  obtain ⟨cs, ec, -, h2, -, -⟩ := chunks_ok h vs
  obtain ⟨ms, em, -⟩ := mapE_lastItem (k := id) cs h2
  rw [show cs.map (List.map id) = cs by simp] at em
  unfold SL.fill at e
  simp only [Py.get_bind, ec, Py.lift_ok_bind, Py.modify_bind, hl, List.nil_append, em, Py.modify_apply] at e
  cases e
  exact ⟨chunks_packed (s := { s with lists := cs, maxes := _, len := _, index := _ }) h ec rfl, rfl⟩

theorem SKL.fill_packed {K : KEnv α κ} {s s' : St α κ} (h : 1 ≤ s.load) (hl : s.lists = []) {vs : List α}
    (e : SKL.fill K vs s = (.ok (), s')) : Packed s' ∧ s'.load = s.load := by
  obtain ⟨cs, ec, -, -, -, -⟩ := chunks_ok h vs
  unfold SKL.fill at e
  simp only [Py.get_bind, ec, Py.lift_ok_bind, Py.modify_bind, hl, List.nil_append] at e
  rcases ef : Py.forEach (fun l => do
      let ks ← Py.lift (mapE K.key l)
      Py.modify fun (s : St α κ) => { s with keys := s.keys ++ [ks] }) cs { s with lists := cs } with ⟨r, s1⟩
  cases r with
  | error er => rw [Py.bind_error ef] at e; cases e
  | ok u =>
    rw [Py.bind_ok ef] at e
    obtain ⟨ks, rfl, hks⟩ := fillKeys_whole K cs _ _ ef
    simp only [Py.get_bind] at e
    cases em : mapE lastItem (s.keys ++ ks) with
    | error er => rw [em] at e; cases e
    | ok ms' =>
      simp only [em, Py.lift_ok_bind, Py.modify_bind, Py.modify_apply] at e
      cases e
      exact ⟨chunks_packed (s := { s with lists := cs, maxes := _, len := _, index := _, keys := _ }) h ec rfl, rfl⟩

theorem SL.update_packed {E : Env α} {s s' : St α α} {xs : List α} (h : 1 ≤ s.load) (hl : s.lists = []) (hm : s.maxes = [])
    (e : SL.update E xs s = (.ok (), s')) : Packed s' ∧ s'.load = s.load := by
  unfold SL.update at e
  cases es : E.sorted xs with
  | error er => rw [es] at e; cases e
  | ok ys =>
    simp only [es, Py.lift_ok_bind, Py.get_bind, hm, ne_eq, not_true_eq_false, if_false] at e
    exact SL.fill_packed h hl e

theorem SKL.update_packed {K : KEnv α κ} {s s' : St α κ} {xs : List α} (h : 1 ≤ s.load) (hl : s.lists = []) (hm : s.maxes = [])
    (e : SKL.update K xs s = (.ok (), s')) : Packed s' ∧ s'.load = s.load := by
  unfold SKL.update at e
  cases es : K.sortedByKey xs with
  | error er => rw [es] at e; cases e
  | ok ys =>
    simp only [es, Py.lift_ok_bind, Py.get_bind, hm, ne_eq, not_true_eq_false, if_false] at e
    exact SKL.fill_packed h hl e

theorem SL.new_packed {E : Env α} {xs : Option (List α)} {s : St α α} (e : SL.new E xs = .ok s) : Packed s ∧ s.load = 1000 := by
  cases xs with
  | none => cases e; exact ⟨⟨nofun, nofun⟩, rfl⟩
  | some xs =>
    simp only [SL.new] at e
    split at e
    · cases e; rename_i e; exact SL.update_packed (s := St.empty) (show 1 ≤ 1000 by decide) rfl rfl e
    · cases e

theorem SKL.new_packed {K : KEnv α κ} {xs : Option (List α)} {s : St α κ} (e : SKL.new K xs = .ok s) : Packed s ∧ s.load = 1000 := by
  cases xs with
  | none => cases e; exact ⟨⟨nofun, nofun⟩, rfl⟩
  | some xs =>
    simp only [SKL.new] at e
    split at e
    · cases e; rename_i e; exact SKL.update_packed (s := St.empty) (show 1 ≤ 1000 by decide) rfl rfl e
    · cases e

theorem SL.reset_packed {E : Env α} {s : St α α} {L : Nat} (h : 1 ≤ L) (e : (Core.reset (SL.methods E) L s).1 = .ok ()) :
    Packed (Core.reset (SL.methods E) L s).2 ∧ (Core.reset (SL.methods E) L s).2.load = L := by
  have hc : Core.reset (SL.methods E) L s =
      SL.update E (Core.iter s) { s with len := 0, lists := [], maxes := [], index := [], offset := 0, load := L } := rfl
  rw [hc] at e ⊢
  exact SL.update_packed (s := { s with len := 0, lists := [], maxes := [], index := [], offset := 0, load := L }) h rfl rfl
    (Prod.ext e rfl)

theorem SKL.reset_packed {K : KEnv α κ} {s : St α κ} {L : Nat} (h : 1 ≤ L) (e : (Core.reset (SKL.methods K) L s).1 = .ok ()) :
    Packed (Core.reset (SKL.methods K) L s).2 ∧ (Core.reset (SKL.methods K) L s).2.load = L := by
  have hc : Core.reset (SKL.methods K) L s =
      SKL.update K (Core.iter s) { s with len := 0, lists := [], keys := [], maxes := [], index := [], load := L } := rfl
  rw [hc] at e ⊢
  exact SKL.update_packed (s := { s with len := 0, lists := [], keys := [], maxes := [], index := [], load := L }) h rfl rfl
    (Prod.ext e rfl)

end Verif
