import Verif.Proofs.Whole
import Verif.Wild
/-!
# What the methods do when the comparison and key functions raise or contradict each other
-/

namespace Verif
variable {α κ κ' β : Type}

theorem Inserted.perm {v : α} {l l' : List α} (h : Inserted v l l') : l'.Perm (v :: l) := by
  obtain ⟨X, Y, rfl, rfl⟩ := h; exact List.perm_middle

/-! ## Calls that change at most the positional index -/

section Keeps
variable {k0 : α → κ'} {keyed : Bool}

/-- From any object that differs from `s0` in the positional index at most, the call leads to another such object,
whether it raises or not. -/
def Keeps (k0 : α → κ') (keyed : Bool) (s0 : St α κ) (m : Py (St α κ) β) : Prop :=
  ∀ s, Reindexed s0 s → Whole k0 keyed s → Reindexed s0 (m s).2 ∧ Whole k0 keyed (m s).2

namespace Keeps
variable {s0 : St α κ} {γ : Type}

theorem pure (b : β) : Keeps k0 keyed s0 (Pure.pure b) := fun _ h1 h2 => ⟨h1, h2⟩
theorem raise (e : PyErr) : Keeps k0 keyed s0 (Py.raise e : Py _ β) := fun _ h1 h2 => ⟨h1, h2⟩
theorem lift (x : Except PyErr β) : Keeps k0 keyed s0 (Py.lift x) := fun _ h1 h2 => ⟨h1, h2⟩

theorem get_bind {f : St α κ → Py (St α κ) β} (h : ∀ s, Reindexed s0 s → Whole k0 keyed s → Keeps k0 keyed s0 (f s)) :
    Keeps k0 keyed s0 (Py.get >>= f) := fun s h1 h2 => h s h1 h2 s h1 h2

theorem lift_bind {x : Except PyErr β} {f : β → Py (St α κ) γ} (h : ∀ a, x = .ok a → Keeps k0 keyed s0 (f a)) :
    Keeps k0 keyed s0 (Py.lift x >>= f) := by
  cases x with
  | error e => exact fun _ h1 h2 => ⟨h1, h2⟩
  | ok a => exact h a rfl

theorem bind {m : Py (St α κ) β} {f : β → Py (St α κ) γ} (hm : Keeps k0 keyed s0 m) (h : ∀ a, Keeps k0 keyed s0 (f a)) :
    Keeps k0 keyed s0 (m >>= f) := by
  intro s h1 h2
  obtain ⟨g1, g2⟩ := hm s h1 h2
  rcases e : m s with ⟨r, s'⟩
  rw [e] at g1 g2
  cases r with
  | error er => rw [Py.bind_error e]; exact ⟨g1, g2⟩
  | ok a => rw [Py.bind_ok e]; exact h a _ g1 g2

theorem ite {p : Prop} [Decidable p] {m n : Py (St α κ) β} (h1 : p → Keeps k0 keyed s0 m) (h2 : ¬p → Keeps k0 keyed s0 n) :
    Keeps k0 keyed s0 (if p then m else n) := by
  by_cases hp : p
  · rw [if_pos hp]; exact h1 hp
  · rw [if_neg hp]; exact h2 hp

theorem loc {ilog2 : Nat → Nat} (hlog : ∀ n, 1 ≤ n → n < 2 ^ (ilog2 n + 1)) {p : Nat} (hp : p < s0.lists.length) (i : Nat) :
    Keeps k0 keyed s0 (Core.loc ilog2 p i) := by
  intro s h1 h2
  obtain ⟨s', e, hr, hw⟩ := h2.loc hlog (p := p) (by rw [h1.lists]; exact hp) i
  rw [e]
  exact ⟨h1.trans hr, hw⟩

theorem out {f : β → Out α} {m : Py (St α κ) β} (h : Keeps k0 keyed s0 m) : Keeps k0 keyed s0 (Spec.out f m) := by
  intro s h1 h2
  have : (Spec.out f m s).2 = (m s).2 := by
    unfold Spec.out
    split <;> rename_i e <;> rw [e]
  rw [this]
  exact h s h1 h2

theorem of_eq {m : Py (St α κ) β} (h : ∀ s, (m s).2 = s) : Keeps k0 keyed s0 m := fun s h1 h2 => by rw [h]; exact ⟨h1, h2⟩

end Keeps

theorem Whole.pos_lt {s0 s : St α κ} (hr : Reindexed s0 s) (h : Whole k0 keyed s) {p : Nat} (hp : p ≤ s.maxes.length)
    (hne : ¬p = s.maxes.length) : p < s0.lists.length := by
  rw [← hr.lists, ← h.maxes_length]; omega

end Keeps

/-! ## The shared mutating methods -/

/-- What the shared code needs to know about `clear`, `update` and `_delete` when nothing is known about the comparisons.
`M0` are the methods for the order in which nothing is less than anything. -/
structure RobustM (M : Methods α κ) (M0 : Methods α κ') (O : Spec.Order α) (k0 : α → κ') (keyed : Bool) : Prop where
  log : M.ilog2 = M0.ilog2
  ok : MethodsOK M0 O k0 noOrder keyed
  clear : Sim M.clear M0.clear
  delete : ∀ p i, Sim (M.delete p i) (M0.delete p i)
  update : ∀ {xs s s'}, Whole k0 keyed s → M.update xs s = (.ok (), s') →
    Whole k0 keyed s' ∧ (Core.iter s').Perm (Core.iter s ++ xs)

namespace RobustM
variable {M : Methods α κ} {M0 : Methods α κ'} {O : Spec.Order α} {k0 : α → κ'} {keyed : Bool}

theorem hlog (h : RobustM M M0 O k0 keyed) : ∀ n, 1 ≤ n → n < 2 ^ (M.ilog2 n + 1) := by rw [h.log]; exact h.ok.log

theorem delInt (h : RobustM M M0 O k0 keyed) (i : Int) :
    Refines (Whole k0 keyed) Core.iter (Core.delInt M i) (Spec.delInt i) :=
  (h.ok.delInt_refines i).whole (Core.delInt_sim h.log h.delete i)

theorem pop (h : RobustM M M0 O k0 keyed) (i : Int) :
    Refines (Whole k0 keyed) Core.iter (Core.pop M i) (Spec.pop i) :=
  (h.ok.pop_refines i).whole (Core.pop_sim h.log h.delete i)

theorem clear_refines (h : RobustM M M0 O k0 keyed) : Refines (Whole k0 keyed) Core.iter M.clear Spec.clear :=
  h.ok.clear_refines.whole h.clear

theorem getSliceStep1_sim' (h : RobustM M M0 O k0 keyed) (a b : Option Int) :
    Sim (Core.getSliceStep1 M.ilog2 a b : Py (St α κ) _) (Core.getSliceStep1 M0.ilog2 a b : Py (St α κ') _) := by
  rw [h.log]; exact Core.getSliceStep1_sim _ _ _

/-- Clear the object, then put the values back. -/
theorem refill (h : RobustM M M0 O k0 keyed) {s s' : St α κ} (hs : Whole k0 keyed s) (vs : List α)
    (e : (do M.clear; M.update vs) s = (.ok (), s')) : Whole k0 keyed s' ∧ (Core.iter s').Perm vs := by
  obtain ⟨s1, e1, h1, h2⟩ := h.clear_refines.eq_of hs rfl
  rw [Py.bind_ok e1] at e
  obtain ⟨g1, g2⟩ := h.update h2 e
  rw [h1] at g2
  exact ⟨g1, g2⟩

theorem imul (h : RobustM M M0 O k0 keyed) {s s' : St α κ} (hs : Whole k0 keyed s) {n : Int}
    (e : Core.imul M n s = (.ok (), s')) : Whole k0 keyed s' ∧ (Core.iter s').Perm (repeatList (Core.iter s) n) :=
  h.refill hs _ e

theorem reset (h : RobustM M M0 O k0 keyed) {s s' : St α κ} (hs : Whole k0 keyed s) {load : Nat} (hload : 1 ≤ load)
    (e : Core.reset M load s = (.ok (), s')) : Whole k0 keyed s' ∧ (Core.iter s').Perm (Core.iter s) := by
  obtain ⟨t, hl, hi⟩ := hs
  unfold Core.reset at e
  simp only [Py.get_bind] at e
  obtain ⟨t1, e1, f1, f2, f3, f4, f5, f6⟩ := h.ok.clear t
  obtain ⟨g1, g2⟩ := h.clear s t hl
  rw [e1] at g1 g2
  have e0 : M.clear s = (.ok (), (M.clear s).2) := Prod.ext g1 rfl
  rw [Py.bind_ok e0, Py.modify_bind] at e
  have hw : Whole k0 keyed { (M.clear s).2 with load := load } :=
    ⟨{ t1 with load := load }, g2.with_load _, Inv.of_empty hload f1 f2 f3 f4 f6⟩
  obtain ⟨u1, u2⟩ := h.update hw e
  refine ⟨u1, u2.trans ?_⟩
  have : Core.iter { (M.clear s).2 with load := load } = [] := by
    show (M.clear s).2.lists.flatten = []
    rw [g2.lists, f2]; rfl
  rw [this]
  exact List.Perm.refl _

/-- If `m` returns, the object is whole and has, in some order, the values that `m'` leads to. -/
def PSim (k0 : α → κ') (keyed : Bool) (m : Py (St α κ) Unit) (m' : Py (St α κ') Unit) : Prop :=
  ∀ s t s', Like s t → Inv k0 noOrder keyed t → m s = (.ok (), s') →
    Whole k0 keyed s' ∧ (Core.iter s').Perm (Core.iter (m' t).2)

theorem PSim.of_sim {m : Py (St α κ) Unit} {m' : Py (St α κ') Unit} (h : Sim m m')
    (hI : ∀ t, Inv k0 noOrder keyed t → Inv k0 noOrder keyed (m' t).2) : PSim k0 keyed m m' := by
  intro s t s' hl hi e
  obtain ⟨h1, h2⟩ := h s t hl
  rw [e] at h1 h2
  exact ⟨⟨_, h2, hI t hi⟩, by rw [h2.iter]⟩

theorem PSim.bind {m : Py (St α κ) β} {m' : Py (St α κ') β} {f : β → Py (St α κ) Unit} {f' : β → Py (St α κ') Unit}
    (h : Sim m m') (hI : ∀ t, Inv k0 noOrder keyed t → Inv k0 noOrder keyed (m' t).2)
    (hf : ∀ b, PSim k0 keyed (f b) (f' b)) : PSim k0 keyed (m >>= f) (m' >>= f') := by
  intro s t s' hl hi e
  obtain ⟨h1, h2⟩ := h s t hl
  have h3 := hI t hi
  rcases e1 : m s with ⟨r, s1⟩
  rcases e2 : m' t with ⟨r', t1⟩
  rw [e1, e2] at h1 h2
  rw [e2] at h3
  simp only at h1
  subst h1
  cases r with
  | error er => rw [Py.bind_error e1] at e; cases e
  | ok a =>
    rw [Py.bind_ok e1] at e
    rw [Py.bind_ok e2]
    exact hf a _ _ _ h2 h3 e

theorem PSim.ite {p : Prop} [Decidable p] {m n : Py (St α κ) Unit} {m' n' : Py (St α κ') Unit}
    (h1 : PSim k0 keyed m m') (h2 : PSim k0 keyed n n') :
    PSim k0 keyed (if p then m else n) (if p then m' else n') := by
  split
  · exact h1
  · exact h2

theorem refill_psim (h : RobustM M M0 O k0 keyed) (vs : List α) :
    PSim k0 keyed (do M.clear; M.update vs) (do M0.clear; M0.update vs) := by
  intro s1 t1 s' hl1 hi1 e1
  obtain ⟨q1, q2⟩ := h.refill ⟨t1, hl1, hi1⟩ vs e1
  refine ⟨q1, q2.trans ?_⟩
  obtain ⟨t2, e2, z1, z2⟩ := h.ok.clear_refines.eq_of hi1 rfl
  rw [Py.bind_ok e2]
  obtain ⟨t3, e3, z3, z4⟩ := (h.ok.update vs).eq_of z2 rfl
  rw [e3, z3, z1]
  have := (Spec.insertAll_isStableSort (O := O) h.ok.order (l := []) List.Pairwise.nil vs).perm
  simpa using this.symm

theorem delSlice (h : RobustM M M0 O k0 keyed) {s s' : St α κ} (hs : Whole k0 keyed s) {sl : PySlice}
    (e : Core.delSlice M sl s = (.ok (), s')) :
    Whole k0 keyed s' ∧ (Core.iter s').Perm (Spec.delSlice sl (Core.iter s)).2 := by
  obtain ⟨t, hl, hi⟩ := hs
  obtain ⟨r1, r2, r3⟩ := h.ok.delSlice_refines sl t hi
  rw [hl.iter, ← r2]
  revert e
  suffices hp : PSim k0 keyed (Core.delSlice M sl) (Core.delSlice M0 sl) from fun e => hp _ _ _ hl hi e
  clear hl hi r1 r2 r3 s s' t
  intro s t s' hl hi e
  unfold Core.delSlice at e ⊢
  simp only [Py.get_bind] at e ⊢
  rw [hl.len] at e
  revert e
  have hslice : ∀ a b (t : St α κ'), Inv k0 noOrder keyed t →
      Inv k0 noOrder keyed (Core.getSliceStep1 M0.ilog2 a b t).2 := by
    intro a b t ht
    obtain ⟨t', e, _, h'⟩ := ht.getSliceStep1_ok h.ok.log a b
    rw [e]; exact h'
  suffices hp : PSim k0 keyed _ _ from fun e => hp _ _ _ hl hi e
  refine PSim.bind (Sim.lift _) (fun _ h => h) fun ⟨a, b, c⟩ => ?_
  refine PSim.ite (PSim.of_sim h.clear fun t ht => (h.ok.clear_refines t ht).2.2) (PSim.ite ?_ ?_)
  · refine PSim.bind (h.getSliceStep1_sim' _ _) (hslice _ _) fun vs => ?_
    refine PSim.ite ?_ ?_
    · refine PSim.bind (h.getSliceStep1_sim' _ _) (hslice _ _) fun vs => PSim.bind (Sim.pure _) (fun _ h => h) fun vs => ?_
      exact h.refill_psim vs
    · exact PSim.bind (Sim.pure _) (fun _ h => h) fun vs => h.refill_psim vs
  · refine PSim.of_sim (Sim.forEach (Core.delInt_sim h.log h.delete) _) fun t ht => ?_
    exact ((Refines.forEach _ fun i _ => h.ok.delInt_refines i) t ht).2.2

end RobustM

namespace SL

abbrev W (s : St α α) : Prop := Whole id false s

theorem add_whole (E : Env α) {s : St α α} (h : W s) (v : α) :
    (∃ e, add E v s = (.error e, s)) ∨
    ∃ s', add E v s = (.ok (), s') ∧ W s' ∧ Inserted v (Core.iter s) (Core.iter s') := by
  unfold add
  simp only [Py.get_bind]
  by_cases hm0 : s.maxes = []
  · have hl0 : s.lists = [] := h.maxes_nil.1 hm0
    have hi0 := h.index_nil (by rw [hl0]; simp)
    have hn0 := h.len_eq
    have hlp := h.load_pos
    rw [hl0] at hn0
    simp only [hm0, ne_eq, not_true_eq_false, if_false, Py.modify_bind, Py.modify_apply, hl0, List.nil_append]
    refine .inr ⟨_, rfl, ⟨_, ⟨rfl, rfl, rfl, rfl, rfl, rfl, rfl⟩, ?_⟩, [], [], by rw [Core.iter, hl0]; rfl, rfl⟩
    have hseg : Seg id noOrder s.load [] [v] [] :=
      ⟨hlp, by simp, by simp, by simp, sorted_noOrder _, by simp, by simp; omega, by simp, by simp, by simp, by simp⟩
    exact hseg.inv_keep (MA := []) (MC := []) (m := v) rfl rfl rfl rfl rfl rfl (by simp; omega) (by simp [hn0])
      (fun h' => absurd hi0 h') (by simp)
  rw [if_pos hm0]
  cases eb : bisectRight E.lt s.maxes v with
  | error e => exact .inl ⟨e, rfl⟩
  | ok p =>
    have hple := bisectRight_le eb
    have hml := h.maxes_length
    have hmpos : 0 < s.maxes.length := List.length_pos_iff.2 hm0
    rw [Py.lift_ok_bind]
    by_cases hp : p = s.maxes.length
    · rw [if_pos hp]
      obtain ⟨A, B, C, hl, hpA, -, -⟩ := take_drop_split (l := s.lists) (p := p - 1) (by omega)
      have hg : getItem s.lists A.length = .ok B := by rw [hl]; simp
      have hC : C = [] := by
        have := congrArg List.length hl; simp at this
        exact List.length_eq_zero_iff.1 (by omega)
      subst hC
      simp only [hpA, hg, Py.lift_ok_bind, Py.modify_bind]
      have hset : s.lists.set A.length (B ++ [v]) = A ++ [B ++ [v]] := by rw [hl]; simp
      simp only [hset]
      obtain ⟨s', e, h1, h2, h3⟩ := h.insert (expand := expand) expand_sim expand_ok (A := A) (C := []) (B1 := B) (B2 := []) (v := v)
        (s1 := { s with lists := A ++ [B ++ [v]], maxes := s.maxes.set A.length v }) (by simpa using hl) rfl rfl rfl rfl rfl
        (by simp) (by simp)
      rw [Py.bind_ok e]
      refine .inr ⟨_, rfl, h3, Core.iter s, [], by simp, ?_⟩
      show s'.lists.flatten = _
      rw [h2, Core.iter, hl]; simp
    · rw [if_neg hp]
      obtain ⟨A, B, C, hl, hpA, -, -⟩ := take_drop_split (l := s.lists) (p := p) (by omega)
      have hg : getItem s.lists A.length = .ok B := by rw [hl]; simp
      simp only [hpA, hg, Py.lift_ok_bind]
      unfold insort
      cases ei : bisectRight E.lt B v with
      | error e => exact .inl ⟨e, rfl⟩
      | ok i =>
        obtain ⟨B1, B2, rfl, -, hins⟩ := insertAt_eq (bisectRight_le ei) v
        have hset : s.lists.set A.length (B1 ++ v :: B2) = A ++ (B1 ++ v :: B2) :: C := by rw [hl]; simp
        simp only [Py.lift_ok_bind, Py.modify_bind, hins, hset]
        obtain ⟨s', e, h1, h2, h3⟩ := h.insert (expand := expand) expand_sim expand_ok (A := A) (C := C) (B1 := B1) (B2 := B2) (v := v)
          (s1 := { s with lists := A ++ (B1 ++ v :: B2) :: C }) hl rfl rfl rfl rfl rfl rfl (by simp)
        rw [Py.bind_ok e]
        refine .inr ⟨_, rfl, h3, A.flatten ++ B1, B2 ++ C.flatten, by rw [Core.iter, hl]; simp, ?_⟩
        show s'.lists.flatten = _
        rw [h2]; simp

theorem delete_whole {s : St α α} (h : W s) {p i n : Nat} {v : α} (hat : At s.lists p i n v) :
    ∃ s', delete p i s = (.ok (), s') ∧ W s' ∧ Core.iter s' = (Core.iter s).eraseIdx n := by
  obtain ⟨t, hl, hi⟩ := h
  obtain ⟨t', e, hi', hit⟩ := delete_ok hi (hl.lists ▸ hat)
  obtain ⟨h1, h2⟩ := delete_sim p i s t hl
  rw [e] at h1 h2
  exact ⟨(delete p i s).2, Prod.ext h1 rfl, ⟨_, h2, hi'⟩, by rw [h2.iter, hit, hl.iter]⟩


/-- The value at offset `i` of sublist `p`. -/
theorem _root_.Verif.At.of_getItem {lists : List (List α)} {p i : Nat} {l : List α} {x : α} (h1 : getItem lists p = .ok l)
    (h2 : getItem l i = .ok x) : ∃ n, At lists p i n x := by
  rw [getItem_ok_iff] at h1 h2
  obtain ⟨hp, rfl⟩ := List.getElem?_eq_some_iff.1 h1
  obtain ⟨hi, rfl⟩ := List.getElem?_eq_some_iff.1 h2
  obtain ⟨A, B, C, hl, hA, -, hB⟩ := take_drop_split hp
  obtain ⟨B1, b, B2, hl', hB1, -, hb⟩ := take_drop_split hi
  exact ⟨_, A, B1, B2, C, by rw [← hb, ← hl', ← hB]; exact hl, hA, hB1, rfl⟩

theorem _root_.Verif.At.removed {lists : List (List α)} {p i n : Nat} {x : α} (h : At lists p i n x) {P : α → Prop} (hx : P x) :
    Removed P lists.flatten (lists.flatten.eraseIdx n) := by
  obtain ⟨A, B1, B2, C, rfl, rfl, rfl, rfl⟩ := h
  have e : (A ++ (B1 ++ x :: B2) :: C).flatten = (A.flatten ++ B1) ++ x :: (B2 ++ C.flatten) := by simp
  rw [e, ← List.length_append]
  refine ⟨A.flatten ++ B1, x, B2 ++ C.flatten, rfl, ?_, hx⟩
  rw [List.eraseIdx_append_of_length_le (Nat.le_refl _)]
  simp

theorem discard_whole (E : Env α) {s : St α α} (h : W s) (v : α) :
    (∃ r, discard E v s = (r, s)) ∨
    ∃ s', discard E v s = (.ok (), s') ∧ W s' ∧
      Removed (fun x => E.cmp .eq x v = .ok true) (Core.iter s) (Core.iter s') := by
  unfold discard
  simp only [Py.get_bind]
  by_cases hm0 : s.maxes = []
  · rw [if_pos hm0]; exact .inl ⟨_, rfl⟩
  rw [if_neg hm0]
  cases eb : bisectLeft E.lt s.maxes v with
  | error e => exact .inl ⟨_, rfl⟩
  | ok p =>
    rw [Py.lift_ok_bind]
    by_cases hp : p = s.maxes.length
    · rw [if_pos hp]; exact .inl ⟨_, rfl⟩
    rw [if_neg hp]
    cases eg : getItem s.lists p with
    | error e => exact .inl ⟨_, rfl⟩
    | ok l =>
      rw [Py.lift_ok_bind]
      cases ei : bisectLeft E.lt l v with
      | error e => exact .inl ⟨_, rfl⟩
      | ok i =>
        rw [Py.lift_ok_bind]
        cases ex : getItem l i with
        | error e => exact .inl ⟨_, rfl⟩
        | ok x =>
          rw [Py.lift_ok_bind]
          cases ec : E.cmp .eq x v with
          | error e => exact .inl ⟨_, rfl⟩
          | ok b =>
            rw [Py.lift_ok_bind]
            cases b with
            | false => exact .inl ⟨_, rfl⟩
            | true =>
              rw [if_pos rfl]
              obtain ⟨n, hat⟩ := At.of_getItem eg ex
              obtain ⟨s', e, h1, h2⟩ := delete_whole h hat
              refine .inr ⟨s', e, h1, ?_⟩
              rw [h2]
              exact hat.removed ec

theorem remove_whole (E : Env α) {s : St α α} (h : W s) (v : α) :
    (∃ e, remove E v s = (.error e, s)) ∨
    ∃ s', remove E v s = (.ok (), s') ∧ W s' ∧
      Removed (fun x => E.cmp .eq x v = .ok true) (Core.iter s) (Core.iter s') := by
  unfold remove
  simp only [Py.get_bind]
  by_cases hm0 : s.maxes = []
  · rw [if_pos hm0]; exact .inl ⟨_, rfl⟩
  rw [if_neg hm0]
  cases eb : bisectLeft E.lt s.maxes v with
  | error e => exact .inl ⟨_, rfl⟩
  | ok p =>
    rw [Py.lift_ok_bind]
    by_cases hp : p = s.maxes.length
    · rw [if_pos hp]; exact .inl ⟨_, rfl⟩
    rw [if_neg hp]
    cases eg : getItem s.lists p with
    | error e => exact .inl ⟨_, rfl⟩
    | ok l =>
      rw [Py.lift_ok_bind]
      cases ei : bisectLeft E.lt l v with
      | error e => exact .inl ⟨_, rfl⟩
      | ok i =>
        rw [Py.lift_ok_bind]
        cases ex : getItem l i with
        | error e => exact .inl ⟨_, rfl⟩
        | ok x =>
          rw [Py.lift_ok_bind]
          cases ec : E.cmp .eq x v with
          | error e => exact .inl ⟨_, rfl⟩
          | ok b =>
            rw [Py.lift_ok_bind]
            cases b with
            | false => exact .inl ⟨_, rfl⟩
            | true =>
              rw [if_pos rfl]
              obtain ⟨n, hat⟩ := At.of_getItem eg ex
              obtain ⟨s', e, h1, h2⟩ := delete_whole h hat
              refine .inr ⟨s', e, h1, ?_⟩
              rw [h2]
              exact hat.removed ec

theorem addAll_whole (E : Env α) {s : St α α} (h : W s) (vs : List α) :
    ∃ r s' done rest, Py.forEach (add E) vs s = (r, s') ∧ vs = done ++ rest ∧ W s' ∧
      (Core.iter s').Perm (Core.iter s ++ done) ∧ (r = .ok () → rest = []) := by
  induction vs generalizing s with
  | nil => exact ⟨_, s, [], [], rfl, rfl, h, by simp, fun _ => rfl⟩
  | cons v vs ih =>
    rcases add_whole E h v with ⟨e, he⟩ | ⟨s1, e1, h1, h2⟩
    · refine ⟨.error e, s, [], v :: vs, ?_, rfl, h, by simp, nofun⟩
      exact Py.bind_error he
    · obtain ⟨r, s', d, rest, e, hv, hw, hp, hr⟩ := ih h1
      refine ⟨r, s', v :: d, rest, ?_, by rw [hv]; rfl, hw, ?_, hr⟩
      · exact (Py.bind_ok e1).trans e
      · refine hp.trans ((h2.perm.append_right d).trans ?_)
        exact List.perm_middle.symm

theorem fill_whole {s : St α α} (hload : 1 ≤ s.load) (hl : s.lists = []) (hm : s.maxes = []) (vs : List α) :
    ∃ s', fill vs s = (.ok (), s') ∧ W s' ∧ Core.iter s' = vs := by
  obtain ⟨s', e, h1, h2⟩ := fill_ok (lt := noOrder) hload hl hm (sorted_noOrder (k0 := id) vs)
  exact ⟨s', e, h1.whole, h2⟩

/-- `update` that returns adds exactly the values it was given. -/
theorem update_whole {E : Env α} (hE : E.Sane) {s s' : St α α} (h : W s) {xs : List α}
    (e : update E xs s = (.ok (), s')) : W s' ∧ (Core.iter s').Perm (Core.iter s ++ xs) := by
  unfold update at e
  cases es : E.sorted xs with
  | error er => rw [es] at e; cases e
  | ok ys =>
    have hp := hE.perm _ _ es
    simp only [es, Py.lift_ok_bind, Py.get_bind] at e
    by_cases hm0 : s.maxes = []
    · have hl0 := h.maxes_nil.1 hm0
      rw [if_neg (by simp [hm0])] at e
      obtain ⟨s1, e1, h1, h2⟩ := fill_whole h.load_pos hl0 hm0 ys
      rw [e1] at e; cases e
      refine ⟨h1, ?_⟩
      rw [h2, Core.iter, hl0]; exact hp
    · rw [if_pos hm0] at e
      by_cases hbig : ys.length * 4 ≥ s.len
      · rw [if_pos hbig] at e
        simp only [Py.modify_bind, Py.get_bind] at e
        cases es2 : E.sorted (Core.iter { s with lists := s.lists ++ [ys] }) with
        | error er => rw [es2] at e; cases e
        | ok zs =>
          simp only [es2, Py.lift_ok_bind, clear, Py.modify_bind] at e
          obtain ⟨s1, e1, h1, h2⟩ := fill_whole (s := { s with lists := [], len := 0, maxes := [], index := [], offset := 0 })
            h.load_pos rfl rfl zs
          rw [e1] at e; cases e
          refine ⟨h1, ?_⟩
          rw [h2]
          refine (hE.perm _ _ es2).trans ?_
          simpa [Core.iter] using hp.append_left s.lists.flatten
      · rw [if_neg hbig] at e
        obtain ⟨r, s1, d, rest, e1, hv, hw, hperm, hr⟩ := addAll_whole E h ys
        rw [e1] at e; cases e
        have := hr rfl
        subst this
        rw [List.append_nil] at hv
        subst hv
        exact ⟨hw, hperm.trans (hp.append_left _)⟩

/-- A raising `update` that does not take the bulk path has added some of the values, one by one. -/
theorem update_error_small {E : Env α} {s s' : St α α} (h : W s) {xs : List α} {er : PyErr}
    (e : update E xs s = (.error er, s')) :
    (∀ ys, E.sorted xs = .ok ys → s.len ≠ 0 → ys.length * 4 < s.len) → W s' ∧
      (s' = s ∨ ∃ ys d rest, E.sorted xs = .ok ys ∧ ys = d ++ rest ∧ (Core.iter s').Perm (Core.iter s ++ d)) := by
  intro hsmall
  unfold update at e
  cases es : E.sorted xs with
  | error er => rw [es] at e; cases e; exact ⟨h, .inl rfl⟩
  | ok ys =>
    simp only [es, Py.lift_ok_bind, Py.get_bind] at e
    by_cases hm0 : s.maxes = []
    · have hl0 := h.maxes_nil.1 hm0
      rw [if_neg (by simp [hm0])] at e
      obtain ⟨s1, e1, h1, h2⟩ := fill_whole h.load_pos hl0 hm0 ys
      rw [e1] at e; cases e
    · rw [if_pos hm0] at e
      have hn : s.len ≠ 0 := by
        rw [h.len_eq]
        have hl0 : s.lists ≠ [] := fun hl0 => hm0 (h.maxes_nil.2 hl0)
        intro h0
        obtain ⟨l, L, hL⟩ := List.exists_cons_of_ne_nil hl0
        have := h.ne_nil l (by rw [hL]; simp)
        rw [hL] at h0
        simp at h0
        exact this h0.1
      rw [if_neg (by have := hsmall ys es hn; omega)] at e
      obtain ⟨r, s1, d, rest, e1, hv, hw, hperm, hr⟩ := addAll_whole E h ys
      rw [e1] at e; cases e
      exact ⟨hw, .inr ⟨ys, d, rest, rfl, hv, hperm⟩⟩

/-- Comparisons for the order in which nothing is less than anything. -/
def E0 (α : Type) (ilog2 : Nat → Nat) : Env α :=
  { cmp := fun op a b => .ok (op.ofLt noOrder a b), sorted := .ok, ilog2 := ilog2 }

theorem E0_lawful {ilog2 : Nat → Nat} (hlog : ∀ n, 1 ≤ n → n < 2 ^ (ilog2 n + 1)) : (E0 α ilog2).Lawful noOrder where
  order := noOrder_swo
  cmp := fun _ _ _ => rfl
  sorted := fun xs => ⟨xs, rfl, List.Perm.refl _, sorted_noOrder (k0 := id) _, fun _ => rfl⟩
  ilog2 := hlog

theorem clear_sim : Sim (clear : Py (St α α) Unit) clear :=
  Sim.modify fun _ _ h => ⟨rfl, h.load, rfl, rfl, rfl, rfl, h.keys⟩

theorem methods_robust {E : Env α} (hE : E.Sane) :
    RobustM (methods E) (methods (E0 α E.ilog2)) (Spec.Order.ofValues noOrder) id false where
  log := rfl
  ok := methods_ok (E0_lawful hE.ilog2)
  clear := clear_sim
  delete := delete_sim
  update := fun h e => update_whole hE h e

section Queries
variable {E : Env α} {s0 : St α α}

theorem contains_keeps (v : α) : Keeps id false s0 (contains E v) :=
  .get_bind fun _ _ _ => .ite (fun _ => .pure _) fun _ => .lift_bind fun _ _ => .ite (fun _ => .pure _) fun _ =>
    .lift_bind fun _ _ => .lift_bind fun _ _ => .lift_bind fun _ _ => .lift _

theorem bisect_left_keeps (hE : E.Sane) (v : α) : Keeps id false s0 (bisect_left E v) :=
  .get_bind fun _ hr hw => .ite (fun _ => .pure _) fun _ => .lift_bind fun _ e => .ite (fun _ => .pure _) fun hne =>
    .lift_bind fun _ _ => .lift_bind fun _ _ => .loc hE.ilog2 (hw.pos_lt hr (bisectLeft_le e) hne) _

theorem bisect_right_keeps (hE : E.Sane) (v : α) : Keeps id false s0 (bisect_right E v) :=
  .get_bind fun _ hr hw => .ite (fun _ => .pure _) fun _ => .lift_bind fun _ e => .ite (fun _ => .pure _) fun hne =>
    .lift_bind fun _ _ => .lift_bind fun _ _ => .loc hE.ilog2 (hw.pos_lt hr (bisectRight_le e) hne) _

theorem count_keeps (hE : E.Sane) (v : α) : Keeps id false s0 (count E v) :=
  .get_bind fun _ hr hw => .ite (fun _ => .pure _) fun _ => .lift_bind fun _ e => .ite (fun _ => .pure _) fun hne =>
    .lift_bind fun _ _ => .lift_bind fun _ _ => .lift_bind fun _ e' => .ite
      (fun _ => .bind (.loc hE.ilog2 (hw.pos_lt hr (bisectLeft_le e) hne) _) fun _ => .pure _)
      (fun hne' => .lift_bind fun _ _ => .lift_bind fun _ _ => .ite (fun _ => .pure _) fun _ =>
        .bind (.loc hE.ilog2 (hw.pos_lt hr (bisectRight_le e') hne') _) fun _ =>
        .bind (.loc hE.ilog2 (hw.pos_lt hr (bisectLeft_le e) hne) _) fun _ => .pure _)

theorem index_keeps (hE : E.Sane) (v : α) (a b : Option Int) : Keeps id false s0 (index E v a b) :=
  .get_bind fun _ hr hw => .ite (fun _ => .raise _) fun _ => .ite (fun _ => .raise _) fun _ =>
    .lift_bind fun _ e => .ite (fun _ => .raise _) fun hne => .lift_bind fun _ _ => .lift_bind fun _ _ =>
    .lift_bind fun _ _ => .lift_bind fun _ _ => .ite (fun _ => .raise _) fun _ =>
    .bind (.loc hE.ilog2 (hw.pos_lt hr (bisectLeft_le e) hne) _) fun _ =>
    .ite (fun _ => .ite (fun _ => .pure _) fun _ => .raise _) fun _ =>
    .bind (bisect_right_keeps hE v) fun _ => .ite (fun _ => .pure _) fun _ => .raise _

theorem irange_keeps (lo hi : Option α) (a b r : Bool) : Keeps id false s0 (irange E lo hi a b r) := by
  refine .get_bind fun s hr hw => .ite (fun _ => .pure _) fun _ => ?_
  have key : ∀ lo' : Option (Nat × Nat), Keeps id false s0 (match lo' with
    | none => (pure [] : Py (St α α) (List α))
    | some (minPos, minIdx) => do
      let (maxPos, maxIdx) ←
        match hi with
        | none => do
          let l ← Py.lift (getItem s.lists (s.maxes.length - 1))
          pure (s.maxes.length - 1, l.length)
        | some m => do
          let maxPos ← Py.lift (if b then bisectRight E.lt s.maxes m else bisectLeft E.lt s.maxes m)
          if maxPos = s.maxes.length then
            let l ← Py.lift (getItem s.lists (maxPos - 1))
            pure (maxPos - 1, l.length)
          else
            let l ← Py.lift (getItem s.lists maxPos)
            let maxIdx ← Py.lift (if b then bisectRight E.lt l m else bisectLeft E.lt l m)
            pure (maxPos, maxIdx)
      Py.lift (Core.islicePos s minPos minIdx maxPos maxIdx r)) := by
    intro lo'
    cases lo' with
    | none => exact .pure _
    | some p =>
      cases hi with
      | none => exact .lift_bind fun _ _ => .bind (.pure _) fun _ => .lift _
      | some m =>
        refine .lift_bind fun _ _ => .ite (fun _ => ?_) fun _ => ?_
        · exact .lift_bind fun _ _ => .bind (.pure _) fun _ => .lift _
        · exact .lift_bind fun _ _ => .lift_bind fun _ _ => .bind (.pure _) fun _ => .lift _
  cases lo with
  | none => exact .bind (.pure _) fun lo' => key lo'
  | some m =>
    refine .lift_bind fun _ _ => .ite (fun _ => .bind (.pure _) fun lo' => key lo') fun _ => ?_
    exact .lift_bind fun _ _ => .lift_bind fun _ _ => .bind (.pure _) fun lo' => key lo'

end Queries

/-! ## Histories -/

theorem new_whole {E : Env α} (hE : E.Sane) {xs : Option (List α)} {s : St α α} (e : new E xs = .ok s) :
    W s ∧ (Core.iter s).Perm (xs.getD []) := by
  have h0 : W (St.empty : St α α) :=
    (Inv.of_empty (k := id) (lt := noOrder) (keyed := false) (show 1 ≤ 1000 by decide) rfl rfl rfl rfl (by simp)).whole
  cases xs with
  | none => cases e; exact ⟨h0, List.Perm.refl _⟩
  | some xs =>
    simp only [new] at e
    split at e
    · rename_i s1 eu
      cases e
      exact update_whole hE h0 eu
    · cases e

theorem out_whole {f : β → Out α} {m : Py (St α α) β} {s : St α α} (h : W (m s).2) : W (Spec.out f m s).2 := by
  rwa [show (Spec.out f m s).2 = (m s).2 by unfold Spec.out; split <;> rename_i e <;> rw [e]]

/-- A call on a whole object leaves it whole, except that a bulk call (`update`, `+=`, `*=`, slice deletion, `_reset`)
may raise halfway. -/
theorem step_whole {E : Env α} (hE : E.Sane) (op : Op α) (hv : op.Valid) {s : St α α} (h : W s)
    (hb : op.bulk = true → (∃ r, ((SL.api E).step op s).1 = .ok r) ∨ ((SL.api E).step op s).2 = s) :
    W ((SL.api E).step op s).2 := by
  have bulk : ∀ (m : Py (St α α) Unit), (∀ s', m s = (.ok (), s') → W s') →
      ((∃ r, (Spec.out (fun _ => (.none : Out α)) m s).1 = .ok r) ∨ (Spec.out (fun _ => (.none : Out α)) m s).2 = s) →
      W (Spec.out (fun _ => (.none : Out α)) m s).2 := by
    intro m hm hr
    rcases hr with ⟨r, hr⟩ | hr
    · apply out_whole
      unfold Spec.out at hr
      split at hr
      · rename_i e; rw [e]; exact hm _ e
      · cases hr
    · rw [hr]; exact h
  have hR := methods_robust hE
  have rr := Reindexed.refl s
  cases op with
  | add v => rcases add_whole E h v with ⟨e, he⟩ | ⟨s', e, h1, _⟩
             · exact out_whole (m := add E v) (by rw [he]; exact h)
             · exact out_whole (m := add E v) (by rw [e]; exact h1)
  | update xs => exact bulk _ (fun s' e => (update_whole hE h e).1) (hb rfl)
  | clear => exact out_whole (m := clear) (hR.clear_refines s h).2.2
  | contains v => exact out_whole (m := contains E v) (contains_keeps v s rr h).2
  | discard v => rcases discard_whole E h v with ⟨e, he⟩ | ⟨s', e, h1, _⟩
                 · exact out_whole (m := discard E v) (by rw [he]; exact h)
                 · exact out_whole (m := discard E v) (by rw [e]; exact h1)
  | remove v => rcases remove_whole E h v with ⟨e, he⟩ | ⟨s', e, h1, _⟩
                · exact out_whole (m := remove E v) (by rw [he]; exact h)
                · exact out_whole (m := remove E v) (by rw [e]; exact h1)
  | getInt i => exact out_whole (m := Core.getInt E.ilog2 i) (((getInt_refines hE.ilog2 i).whole (Core.getInt_sim _ _)) s h).2.2
  | getSlice sl =>
    exact out_whole (m := Core.getSlice E.ilog2 sl) (((getSlice_refines hE.ilog2 sl).whole (Core.getSlice_sim _ _)) s h).2.2
  | delInt i => exact out_whole (m := Core.delInt (methods E) i) (hR.delInt i s h).2.2
  | delSlice sl => exact bulk _ (fun s' e => (hR.delSlice h e).1) (hb rfl)
  | pop i => exact out_whole (m := Core.pop (methods E) i) (hR.pop i s h).2.2
  | bisectLeft v => exact out_whole (m := bisect_left E v) (bisect_left_keeps hE v s rr h).2
  | bisectRight v => exact out_whole (m := bisect_right E v) (bisect_right_keeps hE v s rr h).2
  | count v => exact out_whole (m := count E v) (count_keeps hE v s rr h).2
  | index v a b => exact out_whole (m := index E v a b) (index_keeps hE v a b s rr h).2
  | irange lo hi a b r => exact out_whole (m := irange E lo hi a b r) (irange_keeps lo hi a b r s rr h).2
  | islice a b r =>
    exact out_whole (m := Core.islice E.ilog2 a b r) (((islice_refines hE.ilog2 a b r).whole (Core.islice_sim _ _ _ _)) s h).2.2
  | iter => exact h
  | reversed => exact h
  | len => exact h
  | compare op other => exact out_whole (m := ListAPI.read (Core.compare E.cmp op other)) h
  | iadd xs => exact bulk _ (fun s' e => (update_whole hE h e).1) (hb rfl)
  | imul n => exact bulk _ (fun s' e => (hR.imul h e).1) (hb rfl)
  | reset load => exact bulk _ (fun s' e => (hR.reset h hv e).1) (hb rfl)
  | copy =>
    exact out_whole (m := (SL.api E).valuesOf _) (by unfold ListAPI.valuesOf; split <;> exact h)
  | concat xs =>
    exact out_whole (m := (SL.api E).valuesOf _) (by unfold ListAPI.valuesOf; split <;> exact h)
  | mul n =>
    exact out_whole (m := (SL.api E).valuesOf _) (by unfold ListAPI.valuesOf; split <;> exact h)
  | unsupported u => exact h

/-- Queries change nothing one can observe, whatever the comparisons do and whether the call raises or not. -/
theorem query_whole {E : Env α} (hE : E.Sane) (op : Op α) (hq : op.isQuery = true) {s : St α α} (h : W s) :
    Core.iter ((SL.api E).step op s).2 = Core.iter s := by
  have snd : ∀ {β : Type} (f : β → Out α) (m : Py (St α α) β), Core.iter (m s).2 = Core.iter s →
      Core.iter (Spec.out f m s).2 = Core.iter s := by
    intro β f m hm
    rwa [show (Spec.out f m s).2 = (m s).2 by unfold Spec.out; split <;> rename_i e <;> rw [e]]
  have keeps : ∀ {β : Type} (f : β → Out α) (m : Py (St α α) β), Keeps id false s m →
      Core.iter (Spec.out f m s).2 = Core.iter s := by
    intro β f m hm
    refine snd f m ?_
    rw [Core.iter, (hm s (Reindexed.refl s) h).1.lists]; rfl
  cases op <;> simp only [Op.isQuery] at hq <;> first | contradiction | skip
  case contains v => exact keeps _ _ (contains_keeps v)
  case getInt i =>
    refine snd .val (Core.getInt E.ilog2 i) ((((getInt_refines hE.ilog2 i).whole (Core.getInt_sim _ _)) s h).2.1.trans ?_)
    unfold Spec.getInt; split <;> rfl
  case getSlice sl =>
    refine snd .vals (Core.getSlice E.ilog2 sl) ((((getSlice_refines hE.ilog2 sl).whole (Core.getSlice_sim _ _)) s h).2.1.trans ?_)
    unfold Spec.getSlice; split <;> rfl
  case bisectLeft v => exact keeps _ _ (bisect_left_keeps hE v)
  case bisectRight v => exact keeps _ _ (bisect_right_keeps hE v)
  case count v => exact keeps _ _ (count_keeps hE v)
  case index v a b => exact keeps _ _ (index_keeps hE v a b)
  case irange lo hi a b r => exact keeps _ _ (irange_keeps lo hi a b r)
  case islice a b r =>
    refine snd .vals (Core.islice E.ilog2 a b r) ((((islice_refines hE.ilog2 a b r).whole (Core.islice_sim _ _ _ _)) s h).2.1.trans ?_)
    unfold Spec.islice; split <;> rfl
  case iter => rfl
  case reversed => rfl
  case len => rfl
  case compare op other => exact snd .bool (ListAPI.read (Core.compare E.cmp op other)) rfl
  case copy => exact snd .vals ((SL.api E).valuesOf _) (by unfold ListAPI.valuesOf; split <;> rfl)
  case concat => exact snd .vals ((SL.api E).valuesOf _) (by unfold ListAPI.valuesOf; split <;> rfl)
  case mul => exact snd .vals ((SL.api E).valuesOf _) (by unfold ListAPI.valuesOf; split <;> rfl)

end SL

namespace SKL

abbrev W (s : St α κ) : Prop := Whole (fun _ : α => ()) true s

theorem add_whole (K : KEnv α κ) {s : St α κ} (h : W s) (v : α) :
    (∃ e, add K v s = (.error e, s)) ∨
    ∃ s', add K v s = (.ok (), s') ∧ W s' ∧ Inserted v (Core.iter s) (Core.iter s') := by
  unfold add
  simp only [Py.get_bind]
  cases ek : K.key v with
  | error e => exact .inl ⟨e, rfl⟩
  | ok kv =>
  rw [Py.lift_ok_bind]
  have hkl := h.keys_lens rfl
  by_cases hm0 : s.maxes = []
  · have hl0 : s.lists = [] := h.maxes_nil.1 hm0
    have hi0 := h.index_nil (by rw [hl0]; simp)
    have hn0 := h.len_eq
    have hlp := h.load_pos
    rw [hl0] at hn0 hkl
    have hk0 : s.keys = [] := by simpa using hkl
    simp only [hm0, ne_eq, not_true_eq_false, if_false, Py.modify_bind, Py.modify_apply, hl0, List.nil_append, hk0]
    refine .inr ⟨_, rfl, ⟨{ len := s.len + 1, load := s.load, lists := [[v]], keys := [[()]], maxes := [()], index := s.index, offset := s.offset },
      ⟨rfl, rfl, rfl, rfl, rfl, rfl, rfl⟩, ?_⟩, [], [], by rw [Core.iter, hl0]; rfl, rfl⟩
    have hseg : Seg (fun _ : α => ()) noOrder s.load [] [v] [] :=
      ⟨hlp, by simp, by simp, by simp, sorted_noOrder _, by simp, by simp; omega, by simp, by simp, by simp, by simp⟩
    exact hseg.inv_keep (MA := []) (MC := []) (m := ()) rfl rfl rfl rfl rfl rfl (by simp; omega) (by simp [hn0])
      (fun h' => absurd hi0 h') (fun _ => rfl)
  rw [if_pos hm0]
  cases eb : bisectRight K.lt s.maxes kv with
  | error e => exact .inl ⟨e, rfl⟩
  | ok p =>
    have hple := bisectRight_le eb
    have hml := h.maxes_length
    have hmpos : 0 < s.maxes.length := List.length_pos_iff.2 hm0
    rw [Py.lift_ok_bind]
    have hkll : s.keys.length = s.lists.length := by simpa using congrArg List.length hkl
    by_cases hp : p = s.maxes.length
    · rw [if_pos hp]
      obtain ⟨A, B, C, hl, hpA, -, -⟩ := take_drop_split (l := s.lists) (p := p - 1) (by omega)
      obtain ⟨KA, KB, KC, hkk, hpK, -, -⟩ := take_drop_split (l := s.keys) (p := p - 1) (by omega)
      have hg : getItem s.lists A.length = .ok B := by rw [hl]; simp
      have hgk : getItem s.keys A.length = .ok KB := by rw [hkk, show A.length = KA.length by omega]; simp
      have hC : C = [] := by
        have := congrArg List.length hl; simp at this
        exact List.length_eq_zero_iff.1 (by omega)
      subst hC
      simp only [hpA, hg, hgk, Py.lift_ok_bind, Py.modify_bind]
      have hset : s.lists.set A.length (B ++ [v]) = A ++ [B ++ [v]] := by rw [hl]; simp
      have hlens : (s.keys.set A.length (KB ++ [kv])).map List.length = (A ++ [B ++ [v]]).map List.length := by
        rw [List.map_set, hkl, ← hset, List.map_set]
        congr 1
        have e1 := congrArg (fun l => l[A.length]?) hkl
        rw [hl, hkk] at e1
        rw [show A.length = KA.length by omega] at e1
        simp at e1
        have : A.length = KA.length := by omega
        simp [← this] at e1
        simp [e1]
      simp only [hset]
      obtain ⟨s', e, h1, h2, h3⟩ := h.insert (expand := expand) expand_sim expand_ok (A := A) (C := []) (B1 := B) (B2 := []) (v := v)
        (s1 := { s with lists := A ++ [B ++ [v]], keys := s.keys.set A.length (KB ++ [kv]), maxes := s.maxes.set A.length kv })
        (by simpa using hl) rfl rfl rfl rfl rfl
        (by simp) (by simpa using hlens)
      rw [Py.bind_ok e]
      refine .inr ⟨_, rfl, h3, Core.iter s, [], by simp, ?_⟩
      show s'.lists.flatten = _
      rw [h2, Core.iter, hl]; simp
    · rw [if_neg hp]
      obtain ⟨A, B, C, hl, hpA, -, hB⟩ := take_drop_split (l := s.lists) (p := p) (by omega)
      obtain ⟨KA, KB, KC, hkk, hpK, -, hKB⟩ := take_drop_split (l := s.keys) (p := p) (by omega)
      have hg : getItem s.lists p = .ok B := by rw [hl, hpA]; simp
      have hgk : getItem s.keys p = .ok KB := by rw [hkk, hpK]; simp
      have hlenB : KB.length = B.length := by
        have e1 := congrArg (fun l => l[p]?) hkl
        have q1 : p < s.keys.length := by omega
        have q2 : p < s.lists.length := by omega
        simp [q1, q2] at e1
        rw [hB, hKB]; exact e1
      simp only [hgk, Py.lift_ok_bind]
      cases ei : bisectRight K.lt KB kv with
      | error e => exact .inl ⟨e, rfl⟩
      | ok i =>
        simp only [hg, Py.lift_ok_bind, Py.modify_bind]
        obtain ⟨B1, B2, rfl, hi1, hins⟩ := insertAt_eq (l := B) (i := i) (by have := bisectRight_le ei; omega) v
        have hset : s.lists.set p (B1 ++ v :: B2) = A ++ (B1 ++ v :: B2) :: C := by rw [hl, hpA]; simp
        have hlens : (s.keys.set p (insertAt KB i kv)).map List.length = (A ++ (B1 ++ v :: B2) :: C).map List.length := by
          rw [List.map_set, hkl, ← hset, List.map_set, ← hins]
          congr 1
          exact insertAt_length_rel hlenB _ _ _
        simp only [hins, hset]
        obtain ⟨s', e, h1, h2, h3⟩ := h.insert (expand := expand) expand_sim expand_ok (A := A) (C := C) (B1 := B1) (B2 := B2) (v := v)
          (s1 := { s with lists := A ++ (B1 ++ v :: B2) :: C, keys := s.keys.set p (insertAt KB i kv) }) hl rfl rfl rfl rfl rfl rfl
          (by simpa using hlens)
        rw [← hpA] at e
        rw [Py.bind_ok e]
        refine .inr ⟨_, rfl, h3, A.flatten ++ B1, B2 ++ C.flatten, by rw [Core.iter, hl]; simp, ?_⟩
        show s'.lists.flatten = _
        rw [h2]; simp

theorem delete_whole {s : St α κ} (h : W s) {p i n : Nat} {v : α} (hat : At s.lists p i n v) :
    ∃ s', delete p i s = (.ok (), s') ∧ W s' ∧ Core.iter s' = (Core.iter s).eraseIdx n := by
  obtain ⟨t, hl, hi⟩ := h
  obtain ⟨t', e, hi', hit⟩ := delete_ok hi (hl.lists ▸ hat)
  obtain ⟨h1, h2⟩ := delete_sim p i s t hl
  rw [e] at h1 h2
  exact ⟨(delete p i s).2, Prod.ext h1 rfl, ⟨_, h2, hi'⟩, by rw [h2.iter, hit, hl.iter]⟩

theorem findLoop_some {K : KEnv α κ} {lists : List (List α)} {keys : List (List κ)} {value : α} {key : κ} {pos idx n : Nat}
    {q : Nat × Nat} (e : findLoop K lists keys value key pos idx n = .ok (some q)) :
    ∃ l x, getItem lists q.1 = .ok l ∧ getItem l q.2 = .ok x ∧ K.vcmp .eq x value = .ok true := by
  fun_induction findLoop K lists keys value key pos idx n
  all_goals first
    | (cases e; done)
    | (rename_i ih; exact ih e)
    | (cases e; exact ⟨_, _, by assumption, by assumption, by assumption⟩)

theorem find_snd (K : KEnv α κ) (v : α) (s : St α κ) : ∃ r, find K v s = (r, s) ∧ ∀ q, r = .ok (some q) →
    ∃ l x, getItem s.lists q.1 = .ok l ∧ getItem l q.2 = .ok x ∧ K.vcmp .eq x v = .ok true := by
  unfold find
  simp only [Py.get_bind]
  split
  · exact ⟨_, rfl, nofun⟩
  cases K.key v with
  | error e => exact ⟨_, rfl, nofun⟩
  | ok kv =>
    rw [Py.lift_ok_bind]
    cases bisectLeft K.lt s.maxes kv with
    | error e => exact ⟨_, rfl, nofun⟩
    | ok p =>
      rw [Py.lift_ok_bind]
      split
      · exact ⟨_, rfl, nofun⟩
      cases getItem s.keys p with
      | error e => exact ⟨_, rfl, nofun⟩
      | ok ks =>
        rw [Py.lift_ok_bind]
        cases bisectLeft K.lt ks kv with
        | error e => exact ⟨_, rfl, nofun⟩
        | ok i =>
          rw [Py.lift_ok_bind]
          exact ⟨_, rfl, fun q hq => findLoop_some hq⟩

theorem discard_whole (K : KEnv α κ) {s : St α κ} (h : W s) (v : α) :
    (∃ r, discard K v s = (r, s)) ∨
    ∃ s', discard K v s = (.ok (), s') ∧ W s' ∧
      Removed (fun x => K.vcmp .eq x v = .ok true) (Core.iter s) (Core.iter s') := by
  unfold discard
  obtain ⟨r, e, hr⟩ := find_snd K v s
  rcases r with er | (_ | ⟨p, i⟩)
  · rw [Py.bind_error e]; exact .inl ⟨_, rfl⟩
  · rw [Py.bind_ok e]; exact .inl ⟨_, rfl⟩
  · rw [Py.bind_ok e]
    obtain ⟨l, x, h1, h2, h3⟩ := hr _ rfl
    obtain ⟨n, hat⟩ := At.of_getItem h1 h2
    obtain ⟨s', e, g1, g2⟩ := delete_whole h hat
    refine .inr ⟨s', e, g1, ?_⟩
    rw [g2]
    exact hat.removed h3

theorem remove_whole (K : KEnv α κ) {s : St α κ} (h : W s) (v : α) :
    (∃ e, remove K v s = (.error e, s)) ∨
    ∃ s', remove K v s = (.ok (), s') ∧ W s' ∧
      Removed (fun x => K.vcmp .eq x v = .ok true) (Core.iter s) (Core.iter s') := by
  unfold remove
  obtain ⟨r, e, hr⟩ := find_snd K v s
  rcases r with er | (_ | ⟨p, i⟩)
  · rw [Py.bind_error e]; exact .inl ⟨_, rfl⟩
  · rw [Py.bind_ok e]; exact .inl ⟨_, rfl⟩
  · rw [Py.bind_ok e]
    obtain ⟨l, x, h1, h2, h3⟩ := hr _ rfl
    obtain ⟨n, hat⟩ := At.of_getItem h1 h2
    obtain ⟨s', e, g1, g2⟩ := delete_whole h hat
    refine .inr ⟨s', e, g1, ?_⟩
    rw [g2]
    exact hat.removed h3

theorem addAll_whole (K : KEnv α κ) {s : St α κ} (h : W s) (vs : List α) :
    ∃ r s' done rest, Py.forEach (add K) vs s = (r, s') ∧ vs = done ++ rest ∧ W s' ∧
      (Core.iter s').Perm (Core.iter s ++ done) ∧ (r = .ok () → rest = []) := by
  induction vs generalizing s with
  | nil => exact ⟨_, s, [], [], rfl, rfl, h, by simp, fun _ => rfl⟩
  | cons v vs ih =>
    rcases add_whole K h v with ⟨e, he⟩ | ⟨s1, e1, h1, h2⟩
    · refine ⟨.error e, s, [], v :: vs, ?_, rfl, h, by simp, nofun⟩
      exact Py.bind_error he
    · obtain ⟨r, s', d, rest, e, hv, hw, hp, hr⟩ := ih h1
      refine ⟨r, s', v :: d, rest, ?_, by rw [hv]; rfl, hw, ?_, hr⟩
      · exact (Py.bind_ok e1).trans e
      · refine hp.trans ((h2.perm.append_right d).trans ?_)
        exact List.perm_middle.symm

theorem _root_.Verif.mapE_length {β γ : Type} {f : β → Except PyErr γ} {l : List β} {r : List γ} (h : mapE f l = .ok r) : r.length = l.length := by
  induction l generalizing r with
  | nil => cases h; rfl
  | cons a l ih =>
    simp only [mapE] at h
    split at h
    · cases h
    · split at h
      · cases h
      · rename_i e; cases h; simp [ih e]

theorem fillKeys_whole (K : KEnv α κ) (L : List (List α)) (s s' : St α κ)
    (e : Py.forEach (fun l => do
      let ks ← Py.lift (mapE K.key l)
      Py.modify fun (s : St α κ) => { s with keys := s.keys ++ [ks] }) L s = (.ok (), s')) :
    ∃ ks, s' = { s with keys := s.keys ++ ks } ∧ ks.map List.length = L.map List.length := by
  induction L generalizing s with
  | nil => cases e; exact ⟨[], by simp, rfl⟩
  | cons l L ih =>
    simp only [Py.forEach] at e
    cases em : mapE K.key l with
    | error er => rw [em] at e; cases e
    | ok ks =>
      rw [em] at e
      obtain ⟨ks', h1, h2⟩ := ih _ e
      exact ⟨ks :: ks', by rw [h1]; simp, by simp [h2, mapE_length em]⟩

theorem fill_whole {K : KEnv α κ} {s s' : St α κ} (hload : 1 ≤ s.load) (hl : s.lists = []) (hm : s.maxes = []) (hk : s.keys = [])
    {vs : List α} (e : fill K vs s = (.ok (), s')) : W s' ∧ Core.iter s' = vs := by
  obtain ⟨cs, ec, h1, h2, h3, h4⟩ := chunks_ok hload vs
  obtain ⟨ms, -, h5⟩ := mapE_lastItem (k := fun _ : α => ()) cs h2
  unfold fill at e
  simp only [Py.get_bind, ec, Py.lift_ok_bind, Py.modify_bind, hl, List.nil_append] at e
  rcases ef : Py.forEach (fun l => do
      let ks ← Py.lift (mapE K.key l)
      Py.modify fun (s : St α κ) => { s with keys := s.keys ++ [ks] }) cs { s with lists := cs } with ⟨r, s1⟩
  cases r with
  | error er => rw [Py.bind_error ef] at e; cases e
  | ok u =>
    rw [Py.bind_ok ef] at e
    obtain ⟨ks, rfl, hks⟩ := fillKeys_whole K cs _ _ ef
    simp only [Py.get_bind, hk, List.nil_append] at e
    cases em : mapE lastItem ks with
    | error er => rw [em] at e; cases e
    | ok ms' =>
      simp only [em, Py.lift_ok_bind, Py.modify_bind, Py.modify_apply, hm, List.nil_append] at e
      cases e
      have hlen : ms'.length = cs.length := by
        rw [mapE_length em]; simpa using congrArg List.length hks
      refine ⟨⟨{ len := vs.length, load := s.load, lists := cs, keys := cs.map (List.map fun _ => ()), maxes := ms, index := [], offset := s.offset },
        ⟨rfl, rfl, rfl, rfl, rfl, ?_, ?_⟩, ?_⟩, h1⟩
      · show ms'.length = ms.length
        rw [hlen, h5.length_eq]
      · show ks.map List.length = (cs.map (List.map fun _ => ())).map List.length
        rw [hks]; simp [Function.comp_def]
      · exact Inv.of_chunks rfl hload (sorted_noOrder _) h1 h2 h3 h4 h5 rfl rfl (fun _ => rfl)

theorem update_whole {K : KEnv α κ} (hK : K.Sane) {s s' : St α κ} (h : W s) {xs : List α}
    (e : update K xs s = (.ok (), s')) : W s' ∧ (Core.iter s').Perm (Core.iter s ++ xs) := by
  unfold update at e
  cases es : K.sortedByKey xs with
  | error er => rw [es] at e; cases e
  | ok ys =>
    have hp := hK.perm _ _ es
    simp only [es, Py.lift_ok_bind, Py.get_bind] at e
    by_cases hm0 : s.maxes = []
    · have hl0 := h.maxes_nil.1 hm0
      have hk0 : s.keys = [] := by have := h.keys_lens rfl; rw [hl0] at this; simpa using this
      rw [if_neg (by simp [hm0])] at e
      obtain ⟨h1, h2⟩ := fill_whole h.load_pos hl0 hm0 hk0 e
      refine ⟨h1, ?_⟩
      rw [h2, Core.iter, hl0]; exact hp
    · rw [if_pos hm0] at e
      by_cases hbig : ys.length * 4 ≥ s.len
      · rw [if_pos hbig] at e
        simp only [Py.modify_bind, Py.get_bind] at e
        cases es2 : K.sortedByKey (Core.iter { s with lists := s.lists ++ [ys] }) with
        | error er => rw [es2] at e; cases e
        | ok zs =>
          simp only [es2, Py.lift_ok_bind, clear, Py.modify_bind] at e
          obtain ⟨h1, h2⟩ := fill_whole (s := { s with lists := [], len := 0, maxes := [], index := [], keys := [] })
            h.load_pos rfl rfl rfl e
          refine ⟨h1, ?_⟩
          rw [h2]
          refine (hK.perm _ _ es2).trans ?_
          simpa [Core.iter] using hp.append_left s.lists.flatten
      · rw [if_neg hbig] at e
        obtain ⟨r, s1, d, rest, e1, hv, hw, hperm, hr⟩ := addAll_whole K h ys
        rw [e1] at e; cases e
        have := hr rfl
        subst this
        rw [List.append_nil] at hv
        subst hv
        exact ⟨hw, hperm.trans (hp.append_left _)⟩

end SKL
end Verif
