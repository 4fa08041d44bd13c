import Verif.Model.Views
import Verif.Proofs.SortedDict
/-!
# The mixin methods of `Set` and `Sequence`
-/

namespace Verif

/-! ## Sets -/

/-- The set behaves as the finite set of the values in `l`, up to `eqv`. -/
structure ASet.Lawful {β : Type} (eqv : β → β → Bool) (a : ASet β) (l : List β) : Prop where
  iter : a.iter = .ok l
  len : a.len = l.length
  distinct : l.Pairwise fun x y => eqv x y = false
  has : ∀ v, a.has v = l.any (eqv · v)

namespace ASet
variable {β : Type} {eqv : β → β → Bool} {a b : ASet β} {l r : List β}

theorem Lawful.congr (he : IsEquiv eqv) (h : a.Lawful eqv l) {x y : β} (hxy : eqv x y = true) : a.has x = a.has y := by
  rw [h.has, h.has, any_congr_eqv he hxy]

theorem Lawful.of_mem (he : IsEquiv eqv) (h : a.Lawful eqv l) {x : β} (hx : x ∈ l) : a.has x = true := by
  rw [h.has]; exact any_self he hx

theorem Lawful.exists_of_has (h : a.Lawful eqv l) {x : β} (hx : a.has x = true) : ∃ y ∈ l, eqv y x = true := by
  rw [h.has, List.any_eq_true] at hx; exact hx

theorem subset_iff (he : IsEquiv eqv) (ha : a.Lawful eqv l) (hb : b.Lawful eqv r) :
    l.all b.has = true ↔ ∀ x, a.has x = true → b.has x = true := by
  rw [List.all_eq_true]
  constructor
  · intro h x hx
    obtain ⟨y, hy, hyx⟩ := ha.exists_of_has hx
    rw [← hb.congr he hyx]; exact h y hy
  · intro h x hx
    exact h x (ha.of_mem he hx)

theorem length_le (he : IsEquiv eqv) (ha : a.Lawful eqv l) (hb : b.Lawful eqv r)
    (h : ∀ x, a.has x = true → b.has x = true) : l.length ≤ r.length :=
  Distinct.length_le he ha.distinct hb.distinct fun x hx => by rw [← hb.has]; exact h x (ha.of_mem he hx)

theorem superset (he : IsEquiv eqv) (ha : a.Lawful eqv l) (hb : b.Lawful eqv r)
    (h : ∀ x, a.has x = true → b.has x = true) (hlen : r.length ≤ l.length) : ∀ x, b.has x = true → a.has x = true := by
  intro x hx
  obtain ⟨y, hy, hyx⟩ := hb.exists_of_has hx
  rw [← ha.congr he hyx, ha.has]
  exact Distinct.superset_of_length he ha.distinct hb.distinct
    (fun x hx => by rw [← hb.has]; exact h x (ha.of_mem he hx)) hlen y hy

theorem le_ok (he : IsEquiv eqv) (ha : a.Lawful eqv l) (hb : b.Lawful eqv r) :
    ∃ t, le a b = .ok t ∧ (t = true ↔ ∀ x, a.has x = true → b.has x = true) := by
  unfold le
  split
  · rename_i h
    refine ⟨false, rfl, ⟨(fun h => by cases h), fun hs => ?_⟩⟩
    have := length_le he ha hb hs
    rw [ha.len, hb.len] at h; omega
  · rw [ha.iter]
    exact ⟨_, rfl, subset_iff he ha hb⟩

theorem ge_ok (he : IsEquiv eqv) (ha : a.Lawful eqv l) (hb : b.Lawful eqv r) :
    ∃ t, ge a b = .ok t ∧ (t = true ↔ ∀ x, b.has x = true → a.has x = true) := by
  unfold ge
  split
  · rename_i h
    refine ⟨false, rfl, ⟨(fun h => by cases h), fun hs => ?_⟩⟩
    have := length_le he hb ha hs
    rw [ha.len, hb.len] at h; omega
  · rw [hb.iter]
    exact ⟨_, rfl, subset_iff he hb ha⟩

theorem lt_ok (he : IsEquiv eqv) (ha : a.Lawful eqv l) (hb : b.Lawful eqv r) :
    ∃ t, compare .lt a b = .ok t ∧ (t = true ↔ (∀ x, a.has x = true → b.has x = true) ∧
      ¬ ∀ x, b.has x = true → a.has x = true) := by
  unfold compare
  simp only
  split
  · rename_i h
    obtain ⟨t, e, ht⟩ := le_ok he ha hb
    refine ⟨t, e, ht.trans ⟨fun h' => ⟨h', fun h'' => ?_⟩, fun h' => h'.1⟩⟩
    have := length_le he hb ha h''
    rw [ha.len, hb.len] at h; omega
  · rename_i h
    refine ⟨false, rfl, ⟨(fun h => by cases h), fun ⟨h1, h2⟩ => ?_⟩⟩
    exact absurd (superset he ha hb h1 (by rw [ha.len, hb.len] at h; omega)) h2

theorem gt_ok (he : IsEquiv eqv) (ha : a.Lawful eqv l) (hb : b.Lawful eqv r) :
    ∃ t, compare .gt a b = .ok t ∧ (t = true ↔ (∀ x, b.has x = true → a.has x = true) ∧
      ¬ ∀ x, a.has x = true → b.has x = true) := by
  unfold compare
  simp only
  split
  · rename_i h
    obtain ⟨t, e, ht⟩ := ge_ok he ha hb
    refine ⟨t, e, ht.trans ⟨fun h' => ⟨h', fun h'' => ?_⟩, fun h' => h'.1⟩⟩
    have := length_le he ha hb h''
    rw [ha.len, hb.len] at h; omega
  · rename_i h
    refine ⟨false, rfl, ⟨(fun h => by cases h), fun ⟨h1, h2⟩ => ?_⟩⟩
    exact absurd (superset he hb ha h1 (by rw [ha.len, hb.len] at h; omega)) h2

theorem eq_ok (he : IsEquiv eqv) (ha : a.Lawful eqv l) (hb : b.Lawful eqv r) :
    ∃ t, (if a.len = b.len then le a b else .ok false) = .ok t ∧ (t = true ↔ ∀ x, a.has x = b.has x) := by
  split
  · rename_i h
    obtain ⟨t, e, ht⟩ := le_ok he ha hb
    refine ⟨t, e, ht.trans ⟨fun h' x => ?_, fun h' x hx => by rw [← h' x]; exact hx⟩⟩
    rw [Bool.eq_iff_iff]
    exact ⟨h' x, superset he ha hb h' (by rw [ha.len, hb.len] at h; omega) x⟩
  · rename_i h
    refine ⟨false, rfl, ⟨(fun h => by cases h), fun h' => ?_⟩⟩
    have h1 := length_le he ha hb fun x hx => by rw [← h' x]; exact hx
    have h2 := length_le he hb ha fun x hx => by rw [h' x]; exact hx
    rw [ha.len, hb.len] at h; omega

end ASet

/-! ## Sequences -/

namespace Seq
variable {σ β : Type} {P : σ → Prop} {len : σ → Nat} {at_ : Int → Py σ β} {l : List β}

theorem getInt_nat (n : Nat) (l : List β) : (Spec.getInt (n : Int) l).1 = match l[n]? with
    | some a => .ok a
    | none => .error .indexError := by
  rcases Nat.lt_or_ge n l.length with h | h
  · have hp : Spec.position l.length (n : Int) = some n := by unfold Spec.position; simp; omega
    simp only [Spec.getInt, hp, Option.bind_some]
    rw [List.getElem?_eq_getElem h]
  · have hp : Spec.position l.length (n : Int) = none := by
      unfold Spec.position; rw [if_neg (by omega), if_neg (by omega)]
    simp only [Spec.getInt, hp, Option.bind_none]
    rw [List.getElem?_eq_none h]

theorem mapEach_at (hat : ∀ t, P t → ∀ i, ∃ t', at_ i t = ((Spec.getInt i l).1, t') ∧ P t') (idxs : List Nat)
    (hi : ∀ i ∈ idxs, i < l.length) {s : σ} (hs : P s) :
    ∃ s', Py.mapEach at_ (idxs.map Int.ofNat) s = (.ok (idxs.filterMap (l[·]?)), s') ∧ P s' := by
  induction idxs generalizing s with
  | nil => exact ⟨s, rfl, hs⟩
  | cons i idxs ih =>
    have hlt := hi i (by simp)
    obtain ⟨s1, e1, h1⟩ := hat s hs (Int.ofNat i)
    have := getInt_nat i l
    rw [List.getElem?_eq_getElem hlt] at this
    change (Spec.getInt (Int.ofNat i) l).1 = _ at this
    rw [this] at e1
    obtain ⟨s2, e2, h2⟩ := ih (fun j hj => hi j (by simp [hj])) h1
    refine ⟨s2, ?_, h2⟩
    rw [List.map_cons, Py.mapEach, Py.bind_ok e1, Py.bind_ok e2, List.filterMap_cons, List.getElem?_eq_getElem hlt]
    rfl

theorem filterMap_range (l : List β) : (List.range l.length).filterMap (l[·]?) = l := by
  induction l with
  | nil => rfl
  | cons a l ih =>
    rw [List.length_cons, List.range_succ_eq_map, List.filterMap_cons, List.filterMap_map]
    simp only [List.getElem?_cons_zero]
    congr 1

theorem reversed_ok (hat : ∀ t, P t → ∀ i, ∃ t', at_ i t = ((Spec.getInt i l).1, t') ∧ P t') {s : σ} (hs : P s)
    (hlen : len s = l.length) : ∃ s', reversed len at_ s = (.ok l.reverse, s') ∧ P s' := by
  unfold reversed
  simp only [Py.get_bind]
  rw [hlen]
  obtain ⟨s', e, h⟩ := mapEach_at hat (List.range l.length).reverse (fun i hi => by simpa using hi) hs
  refine ⟨s', ?_, h⟩
  rw [e, List.filterMap_reverse, filterMap_range]

theorem indexLoop_ok (hat : ∀ t, P t → ∀ i, ∃ t', at_ i t = ((Spec.getInt i l).1, t') ∧ P t') (eq : β → β → Bool)
    (value : β) (stop : Option Int) (fuel i : Nat) (h1 : 1 ≤ fuel) (h2 : l.length + 1 ≤ fuel + i) {s : σ} (hs : P s) :
    ∃ s', P s' ∧
      ((∃ (n : Nat) (y : β), indexLoop at_ eq value stop fuel i s = (.ok (n : Int), s') ∧ i ≤ n ∧
          stop.all ((n : Int) < ·) = true ∧ l[n]? = some y ∧ eq y value = true ∧
          ∀ (m : Nat) (z : β), i ≤ m → m < n → l[m]? = some z → eq z value = false) ∨
       (indexLoop at_ eq value stop fuel i s = (.error .valueError, s') ∧
          ∀ (m : Nat) (z : β), i ≤ m → stop.all ((m : Int) < ·) = true → l[m]? = some z → eq z value = false)) := by
  induction fuel generalizing i s with
  | zero => omega
  | succ fuel ih =>
    unfold indexLoop
    by_cases hstop : stop.all ((i : Int) < ·) = true
    · rw [if_pos hstop]
      obtain ⟨s1, e1, hs1⟩ := hat s hs i
      rw [e1, getInt_nat]
      cases hl : l[i]? with
      | none =>
        refine ⟨s1, hs1, .inr ⟨rfl, fun m z hm _ hz => ?_⟩⟩
        rw [List.getElem?_eq_none_iff] at hl
        rw [List.getElem?_eq_none (by omega)] at hz; cases hz
      | some y =>
        simp only
        by_cases hy : eq y value = true
        · rw [if_pos hy]
          exact ⟨s1, hs1, .inl ⟨i, y, rfl, Nat.le_refl _, hstop, hl, hy, fun m z h1 h2 => by omega⟩⟩
        · rw [if_neg hy]
          have hlt : i < l.length := (List.getElem?_eq_some_iff.1 hl).1
          obtain ⟨s', hs', h⟩ := ih (i + 1) (by omega) (by omega) hs1
          refine ⟨s', hs', ?_⟩
          rcases h with ⟨n, z, e, hn, hst, hz, hez, hmin⟩ | ⟨e, hall⟩
          · refine .inl ⟨n, z, e, by omega, hst, hz, hez, fun m w hm hmn hw => ?_⟩
            rcases Nat.eq_or_lt_of_le hm with rfl | hm'
            · rw [hl] at hw; cases hw; simpa using hy
            · exact hmin m w hm' hmn hw
          · refine .inr ⟨e, fun m w hm hst hw => ?_⟩
            rcases Nat.eq_or_lt_of_le hm with rfl | hm'
            · rw [hl] at hw; cases hw; simpa using hy
            · exact hall m w hm' hst hw
    · rw [if_neg hstop]
      refine ⟨s, hs, .inr ⟨rfl, fun m z hm hst _ => ?_⟩⟩
      exfalso
      apply hstop
      cases stop with
      | none => rfl
      | some t => simp only [Option.all_some, decide_eq_true_eq] at hst ⊢; omega

end Seq
end Verif
