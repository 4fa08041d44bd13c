import Verif.Proofs.CountedBulk
/-!
# Metered updates of sorted sets and dicts
-/

namespace Verif
variable {σ α κ ν β γ τ : Type}

theorem PyDict.set_length_le (eqv : κ → κ → Bool) (d : List (κ × ν)) (k : κ) (v : ν) : (PyDict.set eqv d k v).length ≤ d.length + 1 := by
  unfold PyDict.set
  split <;> simp

theorem PyDict.update_length_le (eqv : κ → κ → Bool) (ps : List (κ × ν)) : ∀ d : List (κ × ν),
    (PyDict.update eqv d ps).length ≤ d.length + ps.length := by
  induction ps with
  | nil => intro d; exact Nat.le_refl _
  | cons p ps ih =>
    intro d
    have h1 := ih (PyDict.set eqv d p.1 p.2)
    have h2 := PyDict.set_length_le eqv d p.1 p.2
    have : PyDict.update eqv d (p :: ps) = PyDict.update eqv (PyDict.set eqv d p.1 p.2) ps := rfl
    rw [this, List.length_cons]
    omega

/-- A silent call. -/
theorem Counts.silent {B : Calls} {mc : CPy σ β} {m : Py σ β} {s : σ} (h : ∀ k, mc (s, k) = ((m s).1, (m s).2, k)) : Counts B mc m s :=
  fun k => ⟨0, Calls.zero_le _, by rw [Calls.add_zero]; exact h k⟩

theorem ListClass.load_pos {c : ListClass α} {lt eqv : α → α → Bool} (hc : c.Orders lt eqv) (ht : c.Tight) {l : c.State} (hr : c.Reached l) :
    1 ≤ c.load l := by
  cases hc with
  | plain hE _ => exact (SL.ready hE ht hr).inv.load_pos
  | keyed hK _ => exact (SKL.ready hK ht hr).inv.load_pos

theorem foldl_addNew_length_le (eqv : α → α → Bool) (xs : List α) : ∀ l : List α, (xs.foldl (addNew eqv) l).length ≤ l.length + xs.length := by
  induction xs with
  | nil => intro l; exact Nat.le_refl _
  | cons x xs ih =>
    intro l
    have h1 := ih (addNew eqv l x)
    have h2 : (addNew eqv l x).length ≤ l.length + 1 := by
      unfold addNew
      split <;> simp
    rw [List.foldl_cons, List.length_cons]
    omega

theorem ListClass.fillCost_mono (c : ListClass α) {j k : Nat} (h : j ≤ k) : c.fillCost j ≤ c.fillCost k := by
  unfold ListClass.fillCost
  rw [Calls.le_iff]
  exact ⟨Nat.zero_le _, Nat.mul_le_mul_left _ (by omega), Nat.zero_le _, Nat.zero_le _, Nat.mul_le_mul_left _ h, Nat.zero_le _, Nat.zero_le _, h⟩

theorem ListClass.alike_mono (c : ListClass α) (lt : α → α → Bool) {l l' : List α} (h : List.Sublist l l') (v : α) :
    c.alike lt l v ≤ c.alike lt l' v := by
  cases c with
  | plain => exact Nat.le_refl _
  | keyed => exact h.countP_le

namespace SD
variable {eqv : κ → κ → Bool} {s : SD κ ν σ} {B : Calls}

theorem onList_counts {mc : CPy σ β} {m : Py σ β} (h : Counts B mc m s.list) : Counts B (metering (onList mc)) (onList m) s := by
  intro k
  obtain ⟨d, hd, e⟩ := h k
  refine ⟨d, hd, ?_⟩
  simp only [metering, onList]
  rw [e]

theorem get_counts {fc : SD κ ν (σ × Calls) → Py (SD κ ν (σ × Calls)) β} {f : SD κ ν σ → Py (SD κ ν σ) β}
    {gc : Py (SD κ ν (σ × Calls)) β} {g : Py (SD κ ν σ) β} (e : ∀ k, fc { dict := s.dict, list := (s.list, k) } = gc) (e' : f s = g)
    (h : Counts B (metering gc) g s) : Counts B (metering (Py.get >>= fc)) (Py.get >>= f) s := by
  intro k
  rw [← e k, ← e'] at h
  exact h k

theorem bind_counts {B' : Calls} {mc : Py (SD κ ν (σ × Calls)) β} {m : Py (SD κ ν σ) β} {fc : β → Py (SD κ ν (σ × Calls)) γ}
    {f : β → Py (SD κ ν σ) γ} (h : Counts B (metering mc) m s)
    (h' : ∀ b, (m s).1 = .ok b → Counts B' (metering (fc b)) (f b) (m s).2) :
    Counts (B + B') (metering (mc >>= fc)) (m >>= f) s := by
  rw [metering_bind]
  exact h.bind h'

theorem lift_counts {b : β} {fc : β → Py (SD κ ν (σ × Calls)) γ} {f : β → Py (SD κ ν σ) γ} (h : Counts B (metering (fc b)) (f b) s) :
    Counts B (metering (Py.lift (.ok b) >>= fc)) (Py.lift (.ok b) >>= f) s := h

theorem ite_counts {p : Prop} [Decidable p] {ac bc : Py (SD κ ν (σ × Calls)) β} {a b : Py (SD κ ν σ) β}
    (h : p → Counts B (metering ac) a s) (h' : ¬p → Counts B (metering bc) b s) :
    Counts B (metering (if p then ac else bc)) (if p then a else b) s := by
  by_cases hp : p
  · rw [if_pos hp, if_pos hp]; exact h hp
  · rw [if_neg hp, if_neg hp]; exact h' hp

theorem metering_forEach (f : β → Py (SD κ ν (σ × Calls)) Unit) (bs : List β) :
    metering (Py.forEach f bs) = Py.forEach (fun b => metering (f b)) bs := by
  induction bs with
  | nil => rfl
  | cons b bs ih =>
    show metering (f b >>= fun _ => Py.forEach f bs) = (metering (f b) >>= fun _ => Py.forEach (fun b => metering (f b)) bs : Py _ _)
    rw [metering_bind, ih]
    rfl

end SD

section
variable {c : ListClass κ} {lt eqv : κ → κ → Bool} {s : SD κ ν c.State} (hc : c.Orders lt eqv) (ht : c.Tight)
include hc ht

theorem SD.setitem_counts (hr : c.Reached s.list) {n N : Nat} (hn : (c.api.iter s.list).length ≤ n) (hN : n ≤ N) (k : κ) (v : ν) :
    Counts (c.addCost N (c.load s.list)) (SD.metering (SD.setitem eqv c.metered k v)) (SD.setitem eqv c.api k v) s ∧
      c.Reached (SD.setitem eqv c.api k v s).2.list ∧ (c.api.iter (SD.setitem eqv c.api k v s).2.list).length ≤ n + 1 ∧
      c.load (SD.setitem eqv c.api k v s).2.list = c.load s.list := by
  obtain ⟨h1, h2, h3, h4⟩ := c.add_each hc ht hr (Nat.le_trans hn hN) k
  have hst : ∀ {m : Py c.State Unit}, ((SD.onList m >>= fun _ => SD.onDict fun d => PyDict.set eqv d k v) s).2.list = (m s.list).2 := by
    intro m
    show (Py.bind _ _ s).2.list = _
    simp only [Py.bind, SD.onList]
    rcases m s.list with ⟨_ | _, _⟩ <;> rfl
  unfold SD.setitem
  by_cases hk : SD.contains eqv k s = true
  · refine ⟨?_, ?_⟩
    · exact SD.get_counts (fun _ => if_pos hk) (if_pos hk) (.silent fun _ => rfl)
    · dsimp only
      rw [Py.get_bind, if_pos hk]
      exact ⟨hr, Nat.le_succ_of_le hn, rfl⟩
  · refine ⟨?_, ?_⟩
    · rw [show c.addCost N (c.load s.list) = c.addCost N (c.load s.list) + 0 from (Calls.add_zero _).symm]
      exact SD.get_counts (fun _ => if_neg hk) (if_neg hk) (SD.bind_counts (SD.onList_counts h1) fun _ _ => .silent fun _ => rfl)
    · dsimp only
      rw [Py.get_bind, if_neg hk, hst]
      exact ⟨h2, by omega, h4⟩

/-- The cost of `update` with `k` items. -/
theorem SD.update_counts (hr : c.Reached s.list) {n L : Nat} (hn : (c.api.iter s.list).length = n) (hd : s.dict.length = n)
    (hL : c.load s.list = L) (arg : DictArg κ ν) :
    Counts { cmp := arg.items.length * (Nat.log2 (n + arg.items.length) + 6), key := (c.width - 1) * (22 * arg.items.length), node := arg.items.length * (Nat.log2 (n + arg.items.length) + 2), sorted := 11 * arg.items.length, moved := c.width * (arg.items.length * (4 * L + 7)), shifted := arg.items.length * ((c.width + 1) * (n + arg.items.length + 1)), reshaped := arg.items.length }
      (SD.metering (SD.update eqv c.metered arg)) (SD.update eqv c.api arg) s := by
  have hL1 := c.load_pos hc ht hr
  rw [hL] at hL1
  have hfill : ∀ m k, m ≤ 11 * k → c.fillCost m ≤ { cmp := k * (Nat.log2 (n + k) + 6), key := (c.width - 1) * (22 * k), node := k * (Nat.log2 (n + k) + 2), sorted := 11 * k, moved := c.width * (k * (4 * L + 7)), shifted := k * ((c.width + 1) * (n + k + 1)), reshaped := k } := by
    intro m k h
    have h1 : k * 11 ≤ k * (4 * L + 7) := Nat.mul_le_mul_left _ (by omega)
    have h2 : c.width * m ≤ c.width * (k * (4 * L + 7)) := Nat.mul_le_mul_left _ (by omega)
    have h3 : (c.width - 1) * (2 * m) ≤ (c.width - 1) * (22 * k) := Nat.mul_le_mul_left _ (by omega)
    unfold ListClass.fillCost
    rw [Calls.le_iff]
    exact ⟨Nat.zero_le _, h3, Nat.zero_le _, Nat.zero_le _, h2, Nat.zero_le _, Nat.zero_le _, h⟩
  have hdu : ∀ (arg : DictArg κ ν) (s : SD κ ν c.State) (k : Calls), SD.metering (SD.dictUpdate eqv arg) (s, k) =
      ((SD.dictUpdate eqv arg s).1, (SD.dictUpdate eqv arg s).2, k) := by
    intro arg s k
    unfold SD.dictUpdate
    rcases arg.fail with _ | e <;> rfl
  have hds : ∀ (arg : DictArg κ ν) (s : SD κ ν c.State),
      (SD.dictUpdate eqv arg s).2 = { s with dict := PyDict.update eqv s.dict arg.items } := by
    intro arg s
    unfold SD.dictUpdate
    rcases arg.fail with _ | e <;> rfl
  unfold SD.update
  by_cases h0 : s.dict.length = 0
  · refine SD.get_counts (fun _ => if_pos h0) (if_pos h0) ?_
    have hk := PyDict.update_length_le eqv arg.items s.dict
    refine Counts.mono (SD.bind_counts (B := 0) (B' := c.fillCost (PyDict.keys (PyDict.update eqv s.dict arg.items)).length)
      (.silent (hdu arg s)) fun _ _ => ?_)
      (by rw [Calls.zero_add]; exact hfill _ _ (by simp only [PyDict.keys, List.length_map]; omega))
    rw [hds]
    refine SD.get_counts (gc := SD.onList (c.metered.update (PyDict.keys (PyDict.update eqv s.dict arg.items)))) (fun _ => rfl) rfl (SD.onList_counts ?_)
    exact c.update_empty hc ht hr (List.eq_nil_of_length_eq_zero (by omega)) _
  · refine SD.get_counts
      (gc := Py.lift (SD.pairsOf eqv arg) >>= fun pairs =>
        if 10 * pairs.length > s.dict.length then
          SD.dictUpdate eqv (DictArg.dict pairs) >>= fun _ => SD.onList c.metered.clear >>= fun _ =>
            Py.get >>= fun s => SD.onList (c.metered.update (PyDict.keys s.dict))
        else Py.forEach (fun p => SD.setitem eqv c.metered p.1 p.2) pairs)
      (fun _ => if_neg h0) (if_neg h0) ?_
    have hpl : ∀ ps, SD.pairsOf eqv arg = .ok ps → ps.length ≤ arg.items.length := by
      intro ps h
      cases arg with
      | dict items => cases h; exact Nat.le_refl _
      | pairs items fail =>
        cases fail with
        | none =>
          cases h
          have := PyDict.update_length_le eqv items []
          rw [List.length_nil, Nat.zero_add] at this
          exact this
        | some e => cases h
    cases hps : SD.pairsOf eqv arg with
    | error e => exact .silent fun _ => rfl
    | ok ps =>
      have hk := hpl ps hps
      refine SD.lift_counts (SD.ite_counts (fun hb => ?_) fun hb => ?_)
      · have hu := PyDict.update_length_le eqv ps s.dict
        obtain ⟨hc1, hc2, hc3, hc4⟩ := c.clear_each hc hr
        refine Counts.mono (SD.bind_counts (B := 0) (B' := 0 + c.fillCost (PyDict.keys (PyDict.update eqv s.dict ps)).length)
          (.silent (hdu (.dict ps) s)) fun _ _ => ?_)
          (by rw [Calls.zero_add, Calls.zero_add]; exact hfill _ _ (by simp only [PyDict.keys, List.length_map]; omega))
        rw [hds]
        refine SD.bind_counts (SD.onList_counts (.silent hc4)) fun _ _ => ?_
        refine SD.get_counts (gc := SD.onList (c.metered.update (PyDict.keys (PyDict.update eqv s.dict ps)))) (fun _ => rfl) rfl (SD.onList_counts ?_)
        exact c.update_empty hc ht hc2 hc3 _
      · rw [SD.metering_forEach]
        refine Counts.mono (Counts.forEach (N := ps.length) (B := c.addCost (n + arg.items.length) L)
          (I := fun j s' => c.Reached s'.list ∧ (c.api.iter s'.list).length ≤ n + j ∧ c.load s'.list = L)
          ?_ ps 0 s ⟨hr, Nat.le_of_eq hn, hL⟩ (by omega)) ?_
        · intro j s' p hj ⟨i1, i2, i3⟩
          obtain ⟨j1, j2⟩ := SD.setitem_counts (eqv := eqv) hc ht i1 i2 (N := n + arg.items.length) (by omega) p.1 p.2
          rw [i3] at j1 j2
          exact ⟨j1, j2⟩
        · generalize arg.items.length = k at *
          have hm : ∀ x, ps.length * x ≤ k * x := fun x => Nat.mul_le_mul_right x hk
          have h1 := hm (Nat.log2 (n + k) + 6)
          have h2 := hm (Nat.log2 (n + k) + 2)
          have h3 : ps.length * (c.width * (4 * L + 3)) ≤ c.width * (k * (4 * L + 7)) := by
            rw [Nat.mul_left_comm]
            exact Nat.mul_le_mul_left _ (Nat.mul_le_mul hk (by omega))
          have h4 : ps.length * (c.width - 1) ≤ (c.width - 1) * (22 * k) := by
            rw [Nat.mul_comm]
            exact Nat.mul_le_mul_left _ (by omega)
          unfold ListClass.addCost Calls.times
          rw [Calls.le_iff]
          exact ⟨h1, h4, h2, Nat.zero_le _, h3, hm _, by show ps.length * 1 ≤ k; omega, Nat.zero_le _⟩

end

/-! ## Sorted sets -/

namespace SS
variable {s : SS τ σ} {B : Calls}

theorem onList_counts {mc : CPy σ β} {m : Py σ β} (h : Counts B mc m s.list) : Counts B (metering (onList mc)) (onList m) s := by
  intro k
  obtain ⟨d, hd, e⟩ := h k
  refine ⟨d, hd, ?_⟩
  simp only [metering, onList]
  rw [e]

theorem get_counts {fc : SS τ (σ × Calls) → Py (SS τ (σ × Calls)) β} {f : SS τ σ → Py (SS τ σ) β}
    {gc : Py (SS τ (σ × Calls)) β} {g : Py (SS τ σ) β} (e : ∀ k, fc { set := s.set, list := (s.list, k) } = gc) (e' : f s = g)
    (h : Counts B (metering gc) g s) : Counts B (metering (Py.get >>= fc)) (Py.get >>= f) s := by
  intro k
  rw [← e k, ← e'] at h
  exact h k

theorem bind_counts {B' : Calls} {mc : Py (SS τ (σ × Calls)) β} {m : Py (SS τ σ) β} {fc : β → Py (SS τ (σ × Calls)) γ}
    {f : β → Py (SS τ σ) γ} (h : Counts B (metering mc) m s)
    (h' : ∀ b, (m s).1 = .ok b → Counts B' (metering (fc b)) (f b) (m s).2) :
    Counts (B + B') (metering (mc >>= fc)) (m >>= f) s := by
  rw [metering_bind]
  exact h.bind h'

theorem metering_forEach (f : β → Py (SS τ (σ × Calls)) Unit) (bs : List β) :
    metering (Py.forEach f bs) = Py.forEach (fun b => metering (f b)) bs := by
  induction bs with
  | nil => rfl
  | cons b bs ih =>
    show metering (f b >>= fun _ => Py.forEach f bs) = (metering (f b) >>= fun _ => Py.forEach (fun b => metering (f b)) bs : Py _ _)
    rw [metering_bind, ih]
    rfl

end SS

section
variable {c : ListClass α} {lt eqv : α → α → Bool} {S : SetOps τ α} {s : SS τ c.State} (hc : c.Orders lt eqv) (ht : c.Tight)
include hc ht

theorem SS.add_counts (hr : c.Reached s.list) {n N : Nat} (hn : (c.api.iter s.list).length ≤ n) (hN : n ≤ N) (v : α) :
    Counts (c.addCost N (c.load s.list)) (SS.metering (SS.add S c.metered v)) (SS.add S c.api v) s ∧
      c.Reached (SS.add S c.api v s).2.list ∧ (c.api.iter (SS.add S c.api v s).2.list).length ≤ n + 1 ∧
      c.load (SS.add S c.api v s).2.list = c.load s.list := by
  obtain ⟨h1, h2, h3, h4⟩ := c.add_each hc ht hr (Nat.le_trans hn hN) v
  unfold SS.add
  by_cases hk : S.mem v s.set = true
  · refine ⟨SS.get_counts (fun _ => if_pos hk) (if_pos hk) (.silent fun _ => rfl), ?_⟩
    rw [Py.get_bind, if_pos hk]
    exact ⟨hr, Nat.le_succ_of_le hn, rfl⟩
  · refine ⟨?_, ?_⟩
    · rw [show c.addCost N (c.load s.list) = 0 + c.addCost N (c.load s.list) from (Calls.zero_add _).symm]
      exact SS.get_counts (fun _ => if_neg hk) (if_neg hk) (SS.bind_counts (.silent fun _ => rfl) fun _ _ => SS.onList_counts h1)
    · rw [Py.get_bind, if_neg hk]
      exact ⟨h2, by show (c.api.iter (c.api.add v s.list).2).length ≤ n + 1; omega, h4⟩

theorem SS.discard_counts (hr : c.Reached s.list) {N A : Nat} (hN : (c.api.iter s.list).length ≤ N) (v : α)
    (hA : c.alike lt (c.api.iter s.list) v ≤ A) :
    Counts (c.removeCost N A (c.load s.list)) (SS.metering (SS.discard S c.metered v)) (SS.discard S c.api v) s ∧
      c.Reached (SS.discard S c.api v s).2.list ∧ List.Sublist (c.api.iter (SS.discard S c.api v s).2.list) (c.api.iter s.list) ∧
      c.load (SS.discard S c.api v s).2.list = c.load s.list := by
  obtain ⟨h1, h2, h3, h4⟩ := c.remove_each hc ht hr hN v hA
  unfold SS.discard
  by_cases hk : S.mem v s.set = true
  · refine ⟨?_, ?_⟩
    · rw [show c.removeCost N A (c.load s.list) = 0 + c.removeCost N A (c.load s.list) from (Calls.zero_add _).symm]
      refine SS.get_counts (fun _ => if_pos hk) (if_pos hk) (SS.bind_counts (.silent fun k => ?_) fun _ _ => ?_)
      · simp only [SS.metering, SS.setRemove]
        rcases S.remove v s.set with _ | _ <;> rfl
      · refine SS.onList_counts ?_
        exact (SS.setRemove_list (S := S) (v := v) (s := s) (Prod.eta _).symm).symm ▸ h1
    · rw [Py.get_bind, if_pos hk]
      show c.Reached (Py.bind (SS.setRemove S v) _ s).2.list ∧ List.Sublist (c.api.iter (Py.bind (SS.setRemove S v) _ s).2.list) _ ∧
        c.load (Py.bind (SS.setRemove S v) _ s).2.list = _
      simp only [Py.bind, SS.setRemove]
      rcases S.remove v s.set with _ | _
      · exact ⟨hr, List.Sublist.refl _, rfl⟩
      · exact ⟨h2, h3, h4⟩
  · refine ⟨SS.get_counts (fun _ => if_neg hk) (if_neg hk) (.silent fun _ => rfl), ?_⟩
    rw [Py.get_bind, if_neg hk]
    exact ⟨hr, List.Sublist.refl _, rfl⟩

theorem SS.rebuild_counts (hr : c.Reached s.list) :
    Counts (c.fillCost (S.toList s.set).length) (SS.metering (SS.rebuild S c.metered)) (SS.rebuild S c.api) s := by
  obtain ⟨hc1, hc2, hc3, hc4⟩ := c.clear_each hc hr
  unfold SS.rebuild
  rw [show c.fillCost (S.toList s.set).length = 0 + c.fillCost (S.toList s.set).length from (Calls.zero_add _).symm]
  refine SS.bind_counts (SS.onList_counts (.silent hc4)) fun _ _ =>
    SS.get_counts (gc := SS.onList (c.metered.update (S.toList s.set))) (fun _ => rfl) rfl (SS.onList_counts ?_)
  exact c.update_empty hc ht hc2 hc3 _

theorem SS.setThenRebuild_counts (hr : c.Reached s.list) (f : τ → τ) :
    Counts (c.fillCost (S.toList (f s.set)).length) (SS.metering (SS.onSet f >>= fun _ => SS.rebuild S c.metered))
      (SS.onSet f >>= fun _ => SS.rebuild S c.api) s := by
  rw [show c.fillCost (S.toList (f s.set)).length = 0 + c.fillCost (S.toList (f s.set)).length from (Calls.zero_add _).symm]
  exact SS.bind_counts (.silent fun _ => rfl) fun _ _ => SS.rebuild_counts (s := { s with set := f s.set }) hc ht hr

/-- The cost of `update` with `k` values in all. -/
theorem SS.update_counts (hS : S.Lawful eqv) (hr : c.Reached s.list) {n L : Nat} (hn : (c.api.iter s.list).length = n)
    (hL : c.load s.list = L) (xss : List (List α)) {k : Nat} (hk : xss.flatten.length = k) :
    Counts { cmp := k * (Nat.log2 (n + k) + 6), key := (c.width - 1) * (10 * k), node := k * (Nat.log2 (n + k) + 2), sorted := 5 * k, moved := c.width * (k * (4 * L + 3)), shifted := k * ((c.width + 1) * (n + k + 1)), reshaped := k }
      (SS.metering (SS.update S c.metered xss)) (SS.update S c.api xss) s := by
  have hL1 := c.load_pos hc ht hr
  rw [hL] at hL1
  have hm : (S.toList (S.ofList xss.flatten)).length ≤ k := by
    rw [(hS.ofList _).length_eq]
    have := foldl_addNew_length_le eqv xss.flatten []
    rw [List.length_nil] at this
    omega
  unfold SS.update
  by_cases hb : 4 * S.len (S.ofList xss.flatten) > S.len s.set
  · refine SS.get_counts (fun _ => if_pos hb) (if_pos hb) ((SS.setThenRebuild_counts hc ht hr _).mono ?_)
    have hu : (S.toList (S.update (S.toList (S.ofList xss.flatten)) s.set)).length ≤ 5 * k := by
      rw [(hS.update _ _).length_eq]
      have := foldl_addNew_length_le eqv (S.toList (S.ofList xss.flatten)) (S.toList s.set)
      have hl := hS.len s.set
      have hl' := hS.len (S.ofList xss.flatten)
      omega
    generalize (S.toList (S.update (S.toList (S.ofList xss.flatten)) s.set)).length = m at hu
    have h1 : k * 7 ≤ k * (4 * L + 3) := Nat.mul_le_mul_left _ (by omega)
    have h2 : c.width * m ≤ c.width * (k * (4 * L + 3)) := Nat.mul_le_mul_left _ (by omega)
    have h3 : (c.width - 1) * (2 * m) ≤ (c.width - 1) * (10 * k) := Nat.mul_le_mul_left _ (by omega)
    unfold ListClass.fillCost
    rw [Calls.le_iff]
    exact ⟨Nat.zero_le _, h3, Nat.zero_le _, Nat.zero_le _, h2, Nat.zero_le _, Nat.zero_le _, hu⟩
  · refine SS.get_counts (gc := Py.forEach (SS.add S c.metered) (S.toList (S.ofList xss.flatten))) (fun _ => if_neg hb) (if_neg hb) ?_
    rw [SS.metering_forEach]
    refine Counts.mono (Counts.forEach (N := k) (B := c.addCost (n + k) L)
      (I := fun j s' => c.Reached s'.list ∧ (c.api.iter s'.list).length ≤ n + j ∧ c.load s'.list = L)
      ?_ _ 0 s ⟨hr, Nat.le_of_eq hn, hL⟩ (by omega)) ?_
    · intro j s' p hj ⟨i1, i2, i3⟩
      obtain ⟨j1, j2⟩ := SS.add_counts (S := S) hc ht i1 i2 (N := n + k) (by omega) p
      rw [i3] at j1 j2
      exact ⟨j1, j2⟩
    · generalize (S.toList (S.ofList xss.flatten)).length = m at hm
      have hm' : ∀ x, m * x ≤ k * x := fun x => Nat.mul_le_mul_right x hm
      have h3 : m * (c.width * (4 * L + 3)) ≤ c.width * (k * (4 * L + 3)) := by
        rw [Nat.mul_left_comm]
        exact Nat.mul_le_mul_left _ (hm' _)
      have h4 : m * (c.width - 1) ≤ (c.width - 1) * (10 * k) := by
        rw [Nat.mul_comm]
        exact Nat.mul_le_mul_left _ (by omega)
      unfold ListClass.addCost Calls.times
      rw [Calls.le_iff]
      exact ⟨hm' _, h4, hm' _, Nat.zero_le _, h3, hm' _, by show m * 1 ≤ k; omega, Nat.zero_le _⟩

/-- The cost of `difference_update` with `k` values in all, if at most `A` values of the set have the same key as any given value. -/
theorem SS.differenceUpdate_counts (hS : S.Lawful eqv) (hr : c.Reached s.list) {n L A : Nat} (hn : (c.api.iter s.list).length = n)
    (hL : c.load s.list = L) (xss : List (List α)) {k : Nat} (hk : xss.flatten.length = k)
    (hA : ∀ v, c.alike lt (c.api.iter s.list) v ≤ A) :
    Counts { cmp := k * (Nat.log2 n + 7 + 2 * A), key := (c.width - 1) * (8 * k), node := k * (Nat.log2 n + 2), sorted := 4 * k, moved := c.width * (k * (12 * L)), shifted := k * ((c.width + 1) * (2 * n)), reshaped := k * 2 }
      (SS.metering (SS.differenceUpdate S c.metered xss)) (SS.differenceUpdate S c.api xss) s := by
  have hL1 := c.load_pos hc ht hr
  rw [hL] at hL1
  have hm : (S.toList (S.ofList xss.flatten)).length ≤ k := by
    rw [(hS.ofList _).length_eq]
    have := foldl_addNew_length_le eqv xss.flatten []
    rw [List.length_nil] at this
    omega
  unfold SS.differenceUpdate
  by_cases hb : 4 * S.len (S.ofList xss.flatten) > S.len s.set
  · refine SS.get_counts (fun _ => if_pos hb) (if_pos hb) ((SS.setThenRebuild_counts hc ht hr _).mono ?_)
    have hu : (S.toList (S.differenceUpdate (S.toList (S.ofList xss.flatten)) s.set)).length ≤ 4 * k := by
      rw [(hS.differenceUpdate _ _).length_eq]
      have := List.length_filter_le (fun y => !(S.toList (S.ofList xss.flatten)).any (eqv · y)) (S.toList s.set)
      have hl := hS.len s.set
      have hl' := hS.len (S.ofList xss.flatten)
      omega
    generalize (S.toList (S.differenceUpdate (S.toList (S.ofList xss.flatten)) s.set)).length = m at hu
    have h1 : k * 4 ≤ k * (12 * L) := Nat.mul_le_mul_left _ (by omega)
    have h2 : c.width * m ≤ c.width * (k * (12 * L)) := Nat.mul_le_mul_left _ (by omega)
    have h3 : (c.width - 1) * (2 * m) ≤ (c.width - 1) * (8 * k) := Nat.mul_le_mul_left _ (by omega)
    unfold ListClass.fillCost
    rw [Calls.le_iff]
    exact ⟨Nat.zero_le _, h3, Nat.zero_le _, Nat.zero_le _, h2, Nat.zero_le _, Nat.zero_le _, hu⟩
  · refine SS.get_counts (gc := Py.forEach (SS.discard S c.metered) (S.toList (S.ofList xss.flatten))) (fun _ => if_neg hb) (if_neg hb) ?_
    rw [SS.metering_forEach]
    refine Counts.mono (Counts.forEach (N := k) (B := c.removeCost n A L)
      (I := fun _ s' => c.Reached s'.list ∧ List.Sublist (c.api.iter s'.list) (c.api.iter s.list) ∧ c.load s'.list = L)
      ?_ _ 0 s ⟨hr, List.Sublist.refl _, hL⟩ (by omega)) ?_
    · intro j s' v hj ⟨i1, i2, i3⟩
      obtain ⟨j1, j2, j3, j4⟩ := SS.discard_counts (S := S) hc ht i1 (N := n) (by have := i2.length_le; omega) v
        (Nat.le_trans (c.alike_mono lt i2 v) (hA v))
      rw [i3] at j1 j4
      exact ⟨j1, j2, j3.trans i2, j4⟩
    · generalize (S.toList (S.ofList xss.flatten)).length = m at hm
      have hm' : ∀ x, m * x ≤ k * x := fun x => Nat.mul_le_mul_right x hm
      have h3 : m * (c.width * (12 * L)) ≤ c.width * (k * (12 * L)) := by
        rw [Nat.mul_left_comm]
        exact Nat.mul_le_mul_left _ (hm' _)
      have h4 : m * (c.width - 1) ≤ (c.width - 1) * (8 * k) := by
        rw [Nat.mul_comm]
        exact Nat.mul_le_mul_left _ (by omega)
      unfold ListClass.removeCost Calls.times
      rw [Calls.le_iff]
      exact ⟨hm' _, h4, hm' _, Nat.zero_le _, h3, hm' _, hm' _, Nat.zero_le _⟩

theorem SS.intersectionUpdate_counts (hS : S.Lawful eqv) (hr : c.Reached s.list) {n : Nat} (hd : S.len s.set = n) (xss : List (List α)) :
    Counts (c.fillCost n) (SS.metering (SS.intersectionUpdate S c.metered xss)) (SS.intersectionUpdate S c.api xss) s := by
  refine (SS.setThenRebuild_counts hc ht hr _).mono (c.fillCost_mono ?_)
  rw [← hd, hS.len]
  refine Distinct.length_le ⟨hS.refl, hS.symm, hS.trans⟩ (hS.distinct _) (hS.distinct _) fun x hx => ?_
  have := hS.intersectionUpdate xss s.set x
  rw [show (S.toList _).any (eqv · x) = true from List.any_eq_true.2 ⟨x, hx, hS.refl x⟩] at this
  exact (Bool.and_eq_true_iff.1 this.symm).1

theorem SS.symmetricDifferenceUpdate_counts (hS : S.Lawful eqv) (hr : c.Reached s.list) {n : Nat} (hd : S.len s.set = n) (xs : List α) :
    Counts (c.fillCost (n + xs.length)) (SS.metering (SS.symmetricDifferenceUpdate S c.metered xs))
      (SS.symmetricDifferenceUpdate S c.api xs) s := by
  refine (SS.setThenRebuild_counts hc ht hr _).mono (c.fillCost_mono ?_)
  have he : IsEquiv eqv := ⟨hS.refl, hS.symm, hS.trans⟩
  rw [← hd, hS.len]
  refine Nat.le_trans (Distinct.length_le he (hS.distinct _) (distinct_foldl_addNew (hS.distinct s.set) xs) fun x hx => ?_)
    (foldl_addNew_length_le eqv xs _)
  rw [any_foldl_addNew he]
  have := hS.symmetricDifferenceUpdate xs s.set x
  rw [show (S.toList _).any (eqv · x) = true from List.any_eq_true.2 ⟨x, hx, hS.refl x⟩] at this
  cases h : (S.toList s.set).any (eqv · x) with
  | true => rfl
  | false => rw [h] at this; simpa using this.symm

end
end Verif
