import Verif.Proofs.RobustKey
import Verif.Changing
/-!
# The maxima and the cached keys stay true, whatever the comparisons do

`Inv k noOrder keyed` is the invariant without the part that the values are in order.  It holds after every history with
comparisons of which nothing is assumed: within one call the comparison is a function, so the two searches of `add` cannot
disagree about the last value of a sublist.
-/

namespace Verif
variable {α κ β γ : Type}

/-! ## What the search has asked -/

theorem bisectRightLoop_asked {lt : β → β → Except PyErr Bool} {a : List β} {x : β} {lo hi i : Nat} (h : lo ≤ hi)
    (e : bisectRightLoop lt a x lo hi = .ok i) :
    (i = hi ∨ ∃ m, getItem a i = .ok m ∧ lt x m = .ok true) ∧
      (i = lo ∨ ∃ m, getItem a (i - 1) = .ok m ∧ lt x m = .ok false) := by
  fun_induction bisectRightLoop lt a x lo hi with
  | case1 | case2 => cases e
  | case3 lo hi h m hm he ih =>
    obtain ⟨h1, h2⟩ := ih (by omega) e
    exact ⟨h1.elim (fun h1 => .inr ⟨m, h1 ▸ hm, he⟩) .inr, h2⟩
  | case4 lo hi h m hm he ih =>
    obtain ⟨h1, h2⟩ := ih (by omega) e
    exact ⟨h1, h2.elim (fun h2 => .inr ⟨m, by rw [h2]; exact hm, he⟩) .inr⟩
  | case5 lo hi h' => cases e; exact ⟨.inl (by omega), .inl rfl⟩

/-- `bisect_right` ends at a value it found to be greater, or at the end. -/
theorem bisectRight_greater {lt : β → β → Except PyErr Bool} {a : List β} {x : β} {i : Nat} (e : bisectRight lt a x = .ok i)
    (hi : i ≠ a.length) : ∃ m, getItem a i = .ok m ∧ lt x m = .ok true :=
  (bisectRightLoop_asked (Nat.zero_le _) e).1.resolve_left hi

/-- `bisect_right` ends after a value it found not to be greater, or at the start. -/
theorem bisectRight_notGreater {lt : β → β → Except PyErr Bool} {a : List β} {x : β} {i : Nat} (e : bisectRight lt a x = .ok i)
    (hi : i ≠ 0) : ∃ m, getItem a (i - 1) = .ok m ∧ lt x m = .ok false :=
  (bisectRightLoop_asked (Nat.zero_le _) e).2.resolve_left hi

/-- The second search of `add` does not end at the end of the sublist. -/
theorem bisectRight_inside {lt : β → β → Except PyErr Bool} {a : List β} {x m : β} {i : Nat} (e : bisectRight lt a x = .ok i)
    (hm : a.getLast? = some m) (hx : lt x m = .ok true) : i < a.length := by
  have hle := bisectRight_le e
  have hne : a ≠ [] := by rintro rfl; cases hm
  have hpos := List.length_pos_iff.2 hne
  refine Nat.lt_of_le_of_ne hle fun h => ?_
  obtain ⟨m', h1, h2⟩ := bisectRight_notGreater e (by omega)
  rw [getItem_ok_iff, h, ← List.getLast?_eq_getElem?, hm] at h1
  cases h1
  rw [hx] at h2
  cases h2

theorem getLast?_insert {B1 B2 : List α} {v : α} (h : B2 ≠ []) : (B1 ++ v :: B2).getLast? = (B1 ++ B2).getLast? := by
  obtain rfl | ⟨D, d, rfl⟩ := List.eq_nil_or_concat B2
  · exact absurd rfl h
  · rw [List.concat_eq_append, ← List.append_assoc, show B1 ++ v :: (D ++ [d]) = (B1 ++ v :: D) ++ [d] by simp]
    rw [List.getLast?_concat, List.getLast?_concat]

namespace Restored
variable {k : α → κ} {lt : κ → κ → Bool} {keyed : Bool}

/-- If the values are in order, the whole invariant holds. -/
theorem ordered {s : St α κ} (h : Inv k noOrder keyed s) (hs : Sorted (fun a b => lt (k a) (k b)) (Core.iter s)) :
    Inv k lt keyed s :=
  { h with sorted := hs }

theorem unordered {s : St α κ} (h : Inv k lt keyed s) : Inv k noOrder keyed s := { h with sorted := sorted_noOrder _ }

theorem reindexed {k0 : α → γ} {s s' : St α κ} (h : Inv k noOrder keyed s) (hr : Reindexed s s') (hw : Whole k0 keyed s') :
    Inv k noOrder keyed s' := by
  obtain ⟨i, o, rfl⟩ := hr
  exact { load_pos := h.load_pos, len_eq := h.len_eq, ne_nil := h.ne_nil, sorted := sorted_noOrder _, maxes := h.maxes,
          upper := h.upper, lower := h.lower, index_ok := hw.index_ok, keys_eq := h.keys_eq }

/-- Inserting one value into sublist number `A.length` and calling `_expand`. -/
theorem insert {expand : Nat → Py (St α κ) Unit} (hex : ExpandOK expand k noOrder keyed) {s s1 : St α κ}
    (hi : Inv k noOrder keyed s) {A C : List (List α)} {B1 B2 : List α} {v : α} {MA MC : List κ} {m : κ}
    (hl : s.lists = A ++ (B1 ++ B2) :: C) (hl1 : s1.lists = A ++ (B1 ++ v :: B2) :: C) (hlen : s1.len = s.len)
    (hload : s1.load = s.load) (hix : s1.index = s.index) (hoff : s1.offset = s.offset)
    (hA : MaxesOK k A MA) (hC : MaxesOK k C MC) (hm : (B1 ++ v :: B2).getLast?.map k = some m)
    (hmax : s1.maxes = MA ++ m :: MC) (hkeys : keyed = true → s1.keys = s1.lists.map (List.map k)) :
    ∃ s', expand A.length s1 = (.ok (), s') ∧ Inv k noOrder keyed { s' with len := s'.len + 1 } := by
  obtain ⟨f1, f2, f3, f4, f5, f6, f7, f8, f9⟩ := hi.seg_facts hl
  have hlp := hi.load_pos
  have hseg : Seg k noOrder s1.load A (B1 ++ v :: B2) C := by
    rw [hload]
    refine ⟨hlp, f1, by simp, f3, sorted_noOrder _, f4, ?_, f6, f7, ?_, f9⟩
    · simp at f5 ⊢; omega
    · intro hC; have := f8 hC
      simp at this ⊢; omega
  obtain ⟨s', e, hlen', hflat', hinv⟩ := hex s1 A (B1 ++ v :: B2) C MA m MC (B1 ++ B2).length hseg hl1 hmax hA hm hC
    (by simp; omega) (fun hne => by
      obtain ⟨ht, h2⟩ := hi.index_ok (hix ▸ hne)
      rw [hl] at ht h2
      rw [hix, hoff, hl1]
      exact ⟨by simpa using ht, by simpa using h2⟩) hkeys
  refine ⟨s', e, ?_⟩
  have : s'.len + 1 = s'.lists.flatten.length := by
    rw [hlen', hflat', hlen, hi.len_eq, hl, hl1]; simp; omega
  rw [this]; exact hinv

/-! ## Calls that return -/

/-- The invariant without the order, for an object all of whose values satisfy `V`. -/
def Has (V : α → Prop) (k : α → κ) (keyed : Bool) (s : St α κ) : Prop := Inv k noOrder keyed s ∧ ∀ v ∈ Core.iter s, V v

/-- If the call returns, the object still is of that kind, and `Q` holds for the result. -/
def Safe (V : α → Prop) (k : α → κ) (keyed : Bool) (Q : β → Prop) (m : Py (St α κ) β) : Prop :=
  ∀ s b s', Has V k keyed s → m s = (.ok b, s') → Has V k keyed s' ∧ Q b

namespace Safe
variable {V : α → Prop} {Q : β → Prop} {R : γ → Prop}

theorem pure {b : β} (h : Q b) : Safe V k keyed Q (Pure.pure b) := fun _ _ _ hi e => by cases e; exact ⟨hi, h⟩

theorem bind {m : Py (St α κ) β} {f : β → Py (St α κ) γ} (hm : Safe V k keyed Q m) (h : ∀ a, Q a → Safe V k keyed R (f a)) :
    Safe V k keyed R (m >>= f) := by
  intro s b s' hi e
  rcases e1 : m s with ⟨r, s1⟩
  cases r with
  | error er => rw [Py.bind_error e1] at e; cases e
  | ok a => rw [Py.bind_ok e1] at e; exact h a (hm _ _ _ hi e1).2 _ _ _ (hm _ _ _ hi e1).1 e

theorem lift_bind {x : Except PyErr β} {f : β → Py (St α κ) γ} (h : ∀ a, Safe V k keyed R (f a)) :
    Safe V k keyed R (Py.lift x >>= f) := by
  cases x with
  | error e => intro s b s' _ e'; cases e'
  | ok a => exact h a

theorem get_bind {f : St α κ → Py (St α κ) β} (h : ∀ s, Has V k keyed s → Safe V k keyed Q (f s)) :
    Safe V k keyed Q (Py.get >>= f) := fun s b s' h1 h2 => h s h1 s b s' h1 h2

theorem ite {p : Prop} [Decidable p] {m n : Py (St α κ) β} (h1 : Safe V k keyed Q m) (h2 : Safe V k keyed Q n) :
    Safe V k keyed Q (if p then m else n) := by
  split
  · exact h1
  · exact h2

theorem of_refines {m : Py (St α κ) β} {f : Py (List α) β} (h : Refines (Inv k noOrder keyed) Core.iter m f)
    (hf : ∀ l, ∀ v ∈ (f l).2, v ∈ l) : Safe V k keyed (fun _ => True) m := fun s b s' hi e => by
  obtain ⟨h1, h2, h3⟩ := h s hi.1
  rw [e] at h2 h3
  exact ⟨⟨h3, fun v hv => hi.2 v (hf _ v (h2 ▸ hv))⟩, trivial⟩

theorem forEach {f : γ → Py (St α κ) Unit} {l : List γ} (h : ∀ a ∈ l, Safe V k keyed (fun _ => True) (f a)) :
    Safe V k keyed (fun _ => True) (Py.forEach f l) := by
  induction l with
  | nil => exact pure trivial
  | cons a l ih => exact bind (h a (by simp)) fun _ _ => ih fun a ha => h a (by simp [ha])

end Safe

/-- The methods that the shared code calls.  `M0` are those for the order in which nothing is less than anything. -/
structure SafeM (V : α → Prop) (M M0 : Methods α κ) (O : Spec.Order α) (k : α → κ) (keyed : Bool) : Prop where
  log : M.ilog2 = M0.ilog2
  ok : MethodsOK M0 O k noOrder keyed
  clear : M.clear = M0.clear
  delete : M.delete = M0.delete
  update : ∀ xs, (∀ v ∈ xs, V v) → Safe V k keyed (fun _ => True) (M.update xs)

namespace SafeM
variable {V : α → Prop} {M M0 : Methods α κ} {O : Spec.Order α}

theorem delInt (h : SafeM V M M0 O k keyed) (i : Int) :
    Refines (Inv k noOrder keyed) Core.iter (Core.delInt M i) (Spec.delInt i) := by
  rw [show Core.delInt M i = Core.delInt M0 i by unfold Core.delInt; rw [h.log, h.delete]]
  exact h.ok.delInt_refines i

theorem pop (h : SafeM V M M0 O k keyed) (i : Int) : Refines (Inv k noOrder keyed) Core.iter (Core.pop M i) (Spec.pop i) := by
  rw [show Core.pop M i = Core.pop M0 i by unfold Core.pop; rw [h.log, h.delete]]
  exact h.ok.pop_refines i

theorem clear_refines (h : SafeM V M M0 O k keyed) : Refines (Inv k noOrder keyed) Core.iter M.clear Spec.clear := by
  rw [h.clear]; exact h.ok.clear_refines

theorem clear_safe (h : SafeM V M M0 O k keyed) : Safe V k keyed (fun _ => True) M.clear :=
  .of_refines h.clear_refines fun _ _ hv => nomatch hv

theorem refill (h : SafeM V M M0 O k keyed) {vs : List α} (hv : ∀ v ∈ vs, V v) :
    Safe V k keyed (fun _ => True) (do M.clear; M.update vs) :=
  .bind h.clear_safe fun _ _ => h.update vs hv

theorem imul (h : SafeM V M M0 O k keyed) (n : Int) : Safe V k keyed (fun _ => True) (Core.imul M n) :=
  .get_bind fun _ hs => h.refill fun v hv => hs.2 v (by
    simp only [repeatList, List.mem_flatten, List.mem_replicate] at hv
    obtain ⟨l, ⟨_, rfl⟩, hv⟩ := hv
    exact hv)

theorem reset (h : SafeM V M M0 O k keyed) {load : Nat} (hload : 1 ≤ load) :
    Safe V k keyed (fun _ => True) (Core.reset M load) := by
  intro s b s' hi e
  unfold Core.reset at e
  simp only [Py.get_bind] at e
  obtain ⟨t1, e1, f1, f2, f3, f4, f5, f6⟩ := h.ok.clear s
  rw [← h.clear] at e1
  rw [Py.bind_ok e1, Py.modify_bind] at e
  have hi1 : Has V k keyed { t1 with load := load } := ⟨Inv.of_empty hload f1 f2 f3 f4 f6, fun v hv => by
    simp only [Core.iter, f2] at hv; cases hv⟩
  exact h.update _ hi.2 _ _ _ hi1 e

theorem slice (h : SafeM V M M0 O k keyed) (a b : Option Int) :
    Safe V k keyed (fun vs => ∀ v ∈ vs, V v) (Core.getSliceStep1 M.ilog2 a b) := by
  intro s r s' hi e
  obtain ⟨t', e', hr, h'⟩ := hi.1.getSliceStep1_ok (h.log ▸ h.ok.log) a b
  rw [e] at e'
  obtain ⟨e1, rfl⟩ := Prod.mk.inj e'
  refine ⟨⟨h', fun v hv => hi.2 v (by rwa [Core.iter, hr.lists] at hv)⟩, fun v hv => hi.2 v ?_⟩
  unfold Spec.getSlice at e1
  split at e1
  · cases e1
  · cases e1
    obtain ⟨i, -, hi⟩ := List.mem_filterMap.1 hv
    exact List.mem_of_getElem? hi

theorem delSlice (h : SafeM V M M0 O k keyed) (sl : PySlice) : Safe V k keyed (fun _ => True) (Core.delSlice M sl) := by
  refine .get_bind fun s _ => .lift_bind fun ⟨a, b, c⟩ => .ite h.clear_safe (.ite ?_ ?_)
  · refine .bind (h.slice _ _) fun vs hvs => .ite ?_ ?_
    · refine .bind (h.slice _ _) fun ws hws => .bind (Q := fun vs => ∀ v ∈ vs, V v) (.pure ?_) fun vs hvs => h.refill hvs
      intro v hv
      exact (List.mem_append.1 hv).elim (hvs v) (hws v)
    · exact .bind (Q := fun vs => ∀ v ∈ vs, V v) (.pure hvs) fun vs hvs => h.refill hvs
  · refine .forEach fun i _ => .of_refines (h.delInt i) fun l v hv => ?_
    unfold Spec.delInt at hv
    split at hv
    · exact List.mem_of_mem_eraseIdx hv
    · exact hv

end SafeM
end Restored

/-! ## SortedList -/

namespace SL
open Restored

/-- The invariant without the order. -/
abbrev N (s : St α α) : Prop := Inv id noOrder false s

theorem add_safe (E : Env α) (v : α) {s s' : St α α} {b : Unit} (h : N s) (e : add E v s = (.ok b, s')) : N s' := by
  unfold add at e
  simp only [Py.get_bind] at e
  by_cases hm0 : s.maxes = []
  · have hl0 : s.lists = [] := h.whole.maxes_nil.1 hm0
    have hi0 := h.index_nil (by rw [hl0]; simp)
    have hn0 := h.len_eq
    have hlp := h.load_pos
    rw [hl0] at hn0
    simp only [hm0, ne_eq, not_true_eq_false, if_false, Py.modify_bind, Py.modify_apply, hl0, List.nil_append] at e
    cases e
    have hseg : Seg id noOrder s.load [] [v] [] :=
      ⟨hlp, by simp, by simp, by simp, sorted_noOrder _, by simp, by simp; omega, by simp, by simp, by simp, by simp⟩
    exact hseg.inv_keep (MA := []) (MC := []) (m := v) rfl rfl rfl rfl rfl rfl (by simp; omega) (by simp [hn0])
      (fun h' => absurd hi0 h') (by simp)
  rw [if_pos hm0] at e
  cases eb : bisectRight E.lt s.maxes v with
  | error er => rw [eb] at e; cases e
  | ok p =>
    have hple := bisectRight_le eb
    have hml := h.maxes.length_eq
    have hmpos : 0 < s.maxes.length := List.length_pos_iff.2 hm0
    rw [eb, Py.lift_ok_bind] at e
    by_cases hp : p = s.maxes.length
    · rw [if_pos hp] at e
      obtain ⟨A, B, C, hl, hpA, -, -⟩ := take_drop_split (l := s.lists) (p := p - 1) (by omega)
      have hg : getItem s.lists A.length = .ok B := by rw [hl]; simp
      have hC : C = [] := by
        have := congrArg List.length hl; simp at this
        exact List.length_eq_zero_iff.1 (by omega)
      subst hC
      have hmx := h.maxes
      rw [hl] at hmx
      obtain ⟨MA, m, MC, hm, hA, hB, hC⟩ := hmx.split_cons
      have hMC : MC = [] := hC.nil_iff.2 rfl
      subst hMC
      simp only [hpA, hg, Py.lift_ok_bind, Py.modify_bind] at e
      obtain ⟨s2, e2, h2⟩ := insert (expand := expand) expand_ok h (A := A) (C := []) (B1 := B) (B2 := []) (v := v) (MA := MA) (MC := []) (m := v)
        (s1 := { s with lists := s.lists.set A.length (B ++ [v]), maxes := s.maxes.set A.length v }) (by simpa using hl)
        (by simp [hl]) rfl rfl rfl rfl hA rfl (by simp) (by rw [hm, ← hA.length_eq]; simp) (by simp)
      rw [Py.bind_ok e2] at e
      cases e
      exact h2
    · rw [if_neg hp] at e
      obtain ⟨A, B, C, hl, hpA, -, -⟩ := take_drop_split (l := s.lists) (p := p) (by omega)
      have hg : getItem s.lists A.length = .ok B := by rw [hl]; simp
      simp only [hpA, hg, Py.lift_ok_bind] at e
      have hmx := h.maxes
      rw [hl] at hmx
      obtain ⟨MA, m, MC, hm, hA, hB, hC⟩ := hmx.split_cons
      obtain ⟨m', hm', hlt⟩ := bisectRight_greater eb hp
      have : m' = m := by
        rw [hm, hpA, ← hA.length_eq] at hm'
        simpa using hm'.symm
      subst this
      unfold insort at e
      cases ei : bisectRight E.lt B v with
      | error er => rw [ei] at e; cases e
      | ok i =>
        have hin := bisectRight_inside ei (by simpa using hB) hlt
        rw [ei] at e
        obtain ⟨B1, B2, rfl, hB1, hins⟩ := insertAt_eq (bisectRight_le ei) v
        have hB2 : B2 ≠ [] := by rintro rfl; simp at hin; omega
        simp only [Py.lift_ok_bind, Py.modify_bind, hins] at e
        obtain ⟨s2, e2, h2⟩ := insert (expand := expand) expand_ok h (A := A) (C := C) (B1 := B1) (B2 := B2) (v := v) (MA := MA) (MC := MC) (m := m')
          (s1 := { s with lists := s.lists.set A.length (B1 ++ v :: B2) }) hl (by simp [hl]) rfl rfl rfl rfl hA hC
          (by rw [getLast?_insert hB2, hB]) hm (by simp)
        rw [Py.bind_ok e2] at e
        cases e
        exact h2

theorem delete_keeps {s : St α α} (h : N s) {p i n : Nat} {v : α} (hat : At s.lists p i n v) : N (delete p i s).2 := by
  obtain ⟨s', e, h', _⟩ := delete_ok h hat
  rw [e]; exact h'

theorem discard_keeps (E : Env α) {s : St α α} (h : N s) (v : α) : N (discard E v s).2 := by
  unfold discard
  simp only [Py.get_bind]
  by_cases hm0 : s.maxes = []
  · rw [if_pos hm0]; exact h
  rw [if_neg hm0]
  cases eb : bisectLeft E.lt s.maxes v with
  | error e => exact h
  | ok p =>
    rw [Py.lift_ok_bind]
    by_cases hp : p = s.maxes.length
    · rw [if_pos hp]; exact h
    rw [if_neg hp]
    cases eg : getItem s.lists p with
    | error e => exact h
    | ok l =>
      rw [Py.lift_ok_bind]
      cases ei : bisectLeft E.lt l v with
      | error e => exact h
      | ok i =>
        rw [Py.lift_ok_bind]
        cases ex : getItem l i with
        | error e => exact h
        | ok x =>
          rw [Py.lift_ok_bind]
          cases ec : E.cmp .eq x v with
          | error e => exact h
          | ok b =>
            rw [Py.lift_ok_bind]
            cases b with
            | false => exact h
            | true =>
              obtain ⟨n, hat⟩ := At.of_getItem eg ex
              exact delete_keeps h hat

theorem remove_keeps (E : Env α) {s : St α α} (h : N s) (v : α) : N (remove E v s).2 := by
  unfold remove
  simp only [Py.get_bind]
  by_cases hm0 : s.maxes = []
  · rw [if_pos hm0]; exact h
  rw [if_neg hm0]
  cases eb : bisectLeft E.lt s.maxes v with
  | error e => exact h
  | ok p =>
    rw [Py.lift_ok_bind]
    by_cases hp : p = s.maxes.length
    · rw [if_pos hp]; exact h
    rw [if_neg hp]
    cases eg : getItem s.lists p with
    | error e => exact h
    | ok l =>
      rw [Py.lift_ok_bind]
      cases ei : bisectLeft E.lt l v with
      | error e => exact h
      | ok i =>
        rw [Py.lift_ok_bind]
        cases ex : getItem l i with
        | error e => exact h
        | ok x =>
          rw [Py.lift_ok_bind]
          cases ec : E.cmp .eq x v with
          | error e => exact h
          | ok b =>
            rw [Py.lift_ok_bind]
            cases b with
            | false => exact h
            | true =>
              obtain ⟨n, hat⟩ := At.of_getItem eg ex
              exact delete_keeps h hat

theorem add_keeps (E : Env α) {s : St α α} (h : N s) (v : α) : N (add E v s).2 := by
  rcases add_whole E h.whole v with ⟨e, he⟩ | ⟨s', e, _⟩
  · rw [he]; exact h
  · rw [e]; exact add_safe E v h e

theorem fill_safe {s : St α α} (hload : 1 ≤ s.load) (hl : s.lists = []) (hm : s.maxes = []) {vs : List α} {b : Unit} {s' : St α α}
    (e : fill vs s = (.ok b, s')) : N s' := by
  obtain ⟨s1, e1, h1, h2⟩ := fill_ok (lt := noOrder) hload hl hm (sorted_noOrder (k0 := id) vs)
  rw [e] at e1; cases e1; exact h1

theorem update_safe (E : Env α) (xs : List α) {s s' : St α α} {b : Unit} (h : N s) (e : update E xs s = (.ok b, s')) : N s' := by
  unfold update at e
  cases es : E.sorted xs with
  | error er => rw [es] at e; cases e
  | ok ys =>
    simp only [es, Py.lift_ok_bind, Py.get_bind] at e
    by_cases hm0 : s.maxes = []
    · rw [if_neg (by simp [hm0])] at e
      exact fill_safe h.load_pos (h.whole.maxes_nil.1 hm0) hm0 e
    · rw [if_pos hm0] at e
      by_cases hbig : ys.length * 4 ≥ s.len
      · rw [if_pos hbig] at e
        simp only [Py.modify_bind, Py.get_bind] at e
        cases es2 : E.sorted (Core.iter { s with lists := s.lists ++ [ys] }) with
        | error er => rw [es2] at e; cases e
        | ok zs =>
          simp only [es2, Py.lift_ok_bind, clear, Py.modify_bind] at e
          exact fill_safe (s := { s with lists := [], len := 0, maxes := [], index := [], offset := 0 }) h.load_pos rfl rfl e
      · rw [if_neg hbig] at e
        exact (Safe.forEach (V := fun _ => True) (fun v _ s b s' h e => ⟨⟨add_safe E v h.1 e, fun _ _ => trivial⟩, trivial⟩)
          s b s' ⟨h, fun _ _ => trivial⟩ e).1.1

theorem methods_safe {E : Env α} (hE : E.Sane) :
    SafeM (fun _ => True) (methods E) (methods (E0 α E.ilog2)) (Spec.Order.ofValues noOrder) id false where
  log := rfl
  ok := methods_ok (E0_lawful hE.ilog2)
  clear := rfl
  delete := rfl
  update := fun xs _ _ _ _ h e => ⟨⟨update_safe E xs h.1 e, fun _ _ => trivial⟩, trivial⟩

theorem step_keeps {E : Env α} (hE : E.Sane) (op : Op α) (hv : op.Valid) {s : St α α} (h : N s)
    (hb : op.bulk = true → (∃ r, ((SL.api E).step op s).1 = .ok r) ∨ ((SL.api E).step op s).2 = s) :
    N ((SL.api E).step op s).2 := by
  have out : ∀ {β : Type} (f : β → Out α) (m : Py (St α α) β), N (m s).2 → N (Spec.out f m s).2 := by
    intro β f m hm; rwa [SKL.out_snd]
  have bulk : ∀ (m : Py (St α α) Unit), (∀ b s', m s = (.ok b, s') → N s') →
      ((∃ r, (Spec.out (fun _ => (.none : Out α)) m s).1 = .ok r) ∨ (Spec.out (fun _ => (.none : Out α)) m s).2 = s) →
      N (Spec.out (fun _ => (.none : Out α)) m s).2 := by
    intro m hm hr
    rcases hr with ⟨r, hr⟩ | hr
    · apply out
      unfold Spec.out at hr
      split at hr
      · rename_i e; rw [e]; exact hm _ _ e
      · cases hr
    · rw [hr]; exact h
  have hM := methods_safe hE
  have quiet : ∀ {β : Type} (f : β → Out α) (m : Py (St α α) β), Keeps id false s m → N (Spec.out f m s).2 := by
    intro β f m hm
    obtain ⟨h1, h2⟩ := hm s (Reindexed.refl s) h.whole
    exact out f m (reindexed h h1 h2)
  have copies : ∀ m : St α α → Except PyErr (St α α), N (Spec.out .vals ((SL.api E).valuesOf m) s).2 := by
    intro m; refine out _ _ ?_; unfold ListAPI.valuesOf; split <;> exact h
  cases op with
  | add v => exact out _ _ (add_keeps E h v)
  | update xs => exact bulk _ (fun _ _ => update_safe E xs h) (hb rfl)
  | clear => exact out _ _ (hM.clear_refines s h).2.2
  | contains v => exact quiet _ _ (contains_keeps v)
  | discard v => exact out _ _ (discard_keeps E h v)
  | remove v => exact out _ _ (remove_keeps E h v)
  | getInt i => exact out _ _ ((getInt_refines hE.ilog2 i) s h).2.2
  | getSlice sl => exact out _ _ ((getSlice_refines hE.ilog2 sl) s h).2.2
  | delInt i => exact out _ _ (hM.delInt i s h).2.2
  | delSlice sl => exact bulk _ (fun b s' e => (hM.delSlice sl s b s' ⟨h, fun _ _ => trivial⟩ e).1.1) (hb rfl)
  | pop i => exact out _ _ (hM.pop i s h).2.2
  | bisectLeft v => exact quiet _ _ (bisect_left_keeps hE v)
  | bisectRight v => exact quiet _ _ (bisect_right_keeps hE v)
  | count v => exact quiet _ _ (count_keeps hE v)
  | index v a b => exact quiet _ _ (index_keeps hE v a b)
  | irange lo hi a b r => exact quiet _ _ (irange_keeps lo hi a b r)
  | islice a b r => exact out _ _ ((islice_refines hE.ilog2 a b r) s h).2.2
  | iter => exact h
  | reversed => exact h
  | len => exact h
  | compare op other => exact out _ (ListAPI.read (Core.compare E.cmp op other)) h
  | iadd xs => exact bulk _ (fun _ _ => update_safe E xs h) (hb rfl)
  | imul n => exact bulk _ (fun b s' e => (hM.imul n s b s' ⟨h, fun _ _ => trivial⟩ e).1.1) (hb rfl)
  | reset load => exact bulk _ (fun b s' e => (hM.reset hv s b s' ⟨h, fun _ _ => trivial⟩ e).1.1) (hb rfl)
  | copy => exact copies _
  | concat xs => exact copies _
  | mul n => exact copies _
  | unsupported u => exact h

theorem new_keeps {E : Env α} {xs : Option (List α)} {s : St α α} (e : new E xs = .ok s) : N s := by
  have h0 : N (St.empty : St α α) :=
    Inv.of_empty (k := id) (lt := noOrder) (keyed := false) (show 1 ≤ 1000 by decide) rfl rfl rfl rfl (by simp)
  cases xs with
  | none => cases e; exact h0
  | some xs =>
    simp only [new] at e
    split at e
    · rename_i s1 eu
      cases e
      exact update_safe E xs h0 eu
    · cases e

/-- After every history, whatever the comparisons were, only the order can be wrong. -/
theorem wild_keeps {s : St α α} (h : Wild s) : N s := by
  induction h with
  | new hE e => exact new_keeps e
  | step op hE hv _ hb ih => exact step_keeps hE op hv ih hb

end SL
/-! ## SortedKeyList -/

namespace SKL
open Restored
variable {key : α → κ}

/-- The invariant without the order. -/
abbrev N (key : α → κ) (s : St α κ) : Prop := Inv key noOrder true s

theorem add_safe (K : KEnv α κ) {v : α} (hv : ∀ k, K.key v = .ok k → k = key v) {s s' : St α κ} {b : Unit} (h : N key s)
    (e : add K v s = (.ok b, s')) : N key s' := by
  unfold add at e
  simp only [Py.get_bind] at e
  cases ek : K.key v with
  | error er => rw [ek] at e; cases e
  | ok kv =>
  obtain rfl := hv _ ek
  rw [ek, Py.lift_ok_bind] at e
  have hkeys := h.keys_eq rfl
  by_cases hm0 : s.maxes = []
  · have hl0 : s.lists = [] := h.whole.maxes_nil.1 hm0
    have hi0 := h.index_nil (by rw [hl0]; simp)
    have hn0 := h.len_eq
    have hlp := h.load_pos
    rw [hl0] at hn0 hkeys
    simp only [List.map_nil] at hkeys
    simp only [hm0, ne_eq, not_true_eq_false, if_false, Py.modify_bind, Py.modify_apply, hl0, List.nil_append, hkeys] at e
    cases e
    have hseg : Seg key noOrder s.load [] [v] [] :=
      ⟨hlp, by simp, by simp, by simp, sorted_noOrder _, by simp, by simp; omega, by simp, by simp, by simp, by simp⟩
    exact hseg.inv_keep (MA := []) (MC := []) (m := key v) rfl rfl rfl rfl rfl rfl (by simp; omega) (by simp [hn0])
      (fun h' => absurd hi0 h') (by simp)
  rw [if_pos hm0] at e
  cases eb : bisectRight K.lt s.maxes (key v) with
  | error er => rw [eb] at e; cases e
  | ok p =>
    have hple := bisectRight_le eb
    have hml := h.maxes.length_eq
    have hmpos : 0 < s.maxes.length := List.length_pos_iff.2 hm0
    rw [eb, Py.lift_ok_bind] at e
    by_cases hp : p = s.maxes.length
    · rw [if_pos hp] at e
      obtain ⟨A, B, C, hl, hpA, -, -⟩ := take_drop_split (l := s.lists) (p := p - 1) (by omega)
      have hg : getItem s.lists A.length = .ok B := by rw [hl]; simp
      have hC : C = [] := by
        have := congrArg List.length hl; simp at this
        exact List.length_eq_zero_iff.1 (by omega)
      subst hC
      have hgk : getItem s.keys A.length = .ok (B.map key) := by rw [hkeys, hl]; simp [getItem_ok_iff]
      have hmx := h.maxes
      rw [hl] at hmx
      obtain ⟨MA, m, MC, hm, hA, hB, hC⟩ := hmx.split_cons
      have hMC : MC = [] := hC.nil_iff.2 rfl
      subst hMC
      simp only [hpA, hg, hgk, Py.lift_ok_bind, Py.modify_bind] at e
      obtain ⟨s2, e2, h2⟩ := insert (expand := expand) expand_ok h (A := A) (C := []) (B1 := B) (B2 := []) (v := v) (MA := MA) (MC := [])
        (m := key v)
        (s1 := { s with lists := s.lists.set A.length (B ++ [v]), keys := s.keys.set A.length (B.map key ++ [key v]),
                        maxes := s.maxes.set A.length (key v) }) (by simpa using hl)
        (by simp [hl]) rfl rfl rfl rfl hA rfl (by simp) (by rw [hm, ← hA.length_eq]; simp) (fun _ => by simp [hkeys, hl])
      rw [Py.bind_ok e2] at e
      cases e
      exact h2
    · rw [if_neg hp] at e
      obtain ⟨A, B, C, hl, hpA, -, -⟩ := take_drop_split (l := s.lists) (p := p) (by omega)
      have hg : getItem s.lists A.length = .ok B := by rw [hl]; simp
      have hgk : getItem s.keys A.length = .ok (B.map key) := by rw [hkeys, hl]; simp [getItem_ok_iff]
      simp only [hpA, hgk, Py.lift_ok_bind] at e
      have hmx := h.maxes
      rw [hl] at hmx
      obtain ⟨MA, m, MC, hm, hA, hB, hC⟩ := hmx.split_cons
      obtain ⟨m', hm', hlt⟩ := bisectRight_greater eb hp
      have : m' = m := by
        rw [hm, hpA, ← hA.length_eq] at hm'
        simpa using hm'.symm
      subst this
      cases ei : bisectRight K.lt (B.map key) (key v) with
      | error er => rw [ei] at e; cases e
      | ok i =>
        have hin := bisectRight_inside ei (by simpa using hB) hlt
        have hle := bisectRight_le ei
        rw [List.length_map] at hin hle
        rw [ei] at e
        simp only [Py.lift_ok_bind, hg, Py.modify_bind] at e
        obtain ⟨B1, B2, rfl, rfl, hins⟩ := insertAt_eq hle v
        have hB2 : B2 ≠ [] := by rintro rfl; simp at hin
        have hinsk : insertAt ((B1 ++ B2).map key) B1.length (key v) = (B1 ++ v :: B2).map key := by
          simp [insertAt]
        simp only [hins, hinsk] at e
        obtain ⟨s2, e2, h2⟩ := insert (expand := expand) expand_ok h (A := A) (C := C) (B1 := B1) (B2 := B2) (v := v) (MA := MA) (MC := MC)
          (m := m')
          (s1 := { s with lists := s.lists.set A.length (B1 ++ v :: B2), keys := s.keys.set A.length ((B1 ++ v :: B2).map key) })
          hl (by simp [hl]) rfl rfl rfl rfl hA hC (by rw [getLast?_insert hB2, hB]) hm (fun _ => by simp [hkeys, hl])
        rw [Py.bind_ok e2] at e
        cases e
        exact h2

theorem delete_keeps {s : St α κ} (h : N key s) {p i n : Nat} {v : α} (hat : At s.lists p i n v) : N key (delete p i s).2 := by
  obtain ⟨s', e, h', _⟩ := delete_ok h hat
  rw [e]; exact h'

theorem discard_keeps (K : KEnv α κ) {s : St α κ} (h : N key s) (v : α) : N key (discard K v s).2 := by
  unfold discard
  obtain ⟨r, e, hr⟩ := find_snd K v s
  rcases r with er | (_ | ⟨p, i⟩)
  · rw [Py.bind_error e]; exact h
  · rw [Py.bind_ok e]; exact h
  · rw [Py.bind_ok e]
    obtain ⟨l, x, h1, h2, h3⟩ := hr _ rfl
    obtain ⟨n, hat⟩ := At.of_getItem h1 h2
    exact delete_keeps h hat

theorem remove_keeps (K : KEnv α κ) {s : St α κ} (h : N key s) (v : α) : N key (remove K v s).2 := by
  unfold remove
  obtain ⟨r, e, hr⟩ := find_snd K v s
  rcases r with er | (_ | ⟨p, i⟩)
  · rw [Py.bind_error e]; exact h
  · rw [Py.bind_ok e]; exact h
  · rw [Py.bind_ok e]
    obtain ⟨l, x, h1, h2, h3⟩ := hr _ rfl
    obtain ⟨n, hat⟩ := At.of_getItem h1 h2
    exact delete_keeps h hat

theorem add_keeps (K : KEnv α κ) {s : St α κ} (h : N key s) {v : α} (hv : ∀ k, K.key v = .ok k → k = key v) :
    N key (add K v s).2 := by
  rcases add_whole K h.whole_erase v with ⟨e, he⟩ | ⟨s', e, _⟩
  · rw [he]; exact h
  · rw [e]; exact add_safe K hv h e

theorem mapE_keyIs {K : KEnv α κ} {l : List α} {ks : List κ} (hk : K.KeyIs key l) (e : mapE K.key l = .ok ks) : ks = l.map key := by
  induction l generalizing ks with
  | nil => cases e; rfl
  | cons a l ih =>
    simp only [mapE] at e
    split at e
    · cases e
    · rename_i ek
      split at e
      · cases e
      · rename_i e'
        cases e
        rw [hk a (by simp) _ ek, ih (fun v hv => hk v (by simp [hv])) e', List.map_cons]

theorem fillKeys_keyIs {K : KEnv α κ} {L : List (List α)} (hk : ∀ l ∈ L, K.KeyIs key l) {s s' : St α κ}
    (e : Py.forEach (fun l => do
      let ks ← Py.lift (mapE K.key l)
      Py.modify fun (s : St α κ) => { s with keys := s.keys ++ [ks] }) L s = (.ok (), s')) :
    s' = { s with keys := s.keys ++ L.map (List.map key) } := by
  induction L generalizing s with
  | nil => cases e; simp
  | cons l L ih =>
    simp only [Py.forEach] at e
    cases em : mapE K.key l with
    | error er => rw [em] at e; cases e
    | ok ks =>
      rw [em] at e
      rw [ih (fun l hl => hk l (by simp [hl])) e, mapE_keyIs (hk l (by simp)) em]
      simp

theorem fill_safe {K : KEnv α κ} {s s' : St α κ} (hload : 1 ≤ s.load) (hl : s.lists = []) (hm : s.maxes = []) (hk : s.keys = [])
    {vs : List α} (hv : K.KeyIs key vs) {b : Unit} (e : fill K vs s = (.ok b, s')) : N key s' := by
  obtain ⟨cs, ec, h1, h2, h3, h4⟩ := chunks_ok hload vs
  obtain ⟨ms, e', h5⟩ := mapE_lastItem (k := key) cs h2
  unfold fill at e
  simp only [Py.get_bind, ec, Py.lift_ok_bind, Py.modify_bind, hl, List.nil_append] at e
  rcases ef : Py.forEach (fun l => do
      let ks ← Py.lift (mapE K.key l)
      Py.modify fun (s : St α κ) => { s with keys := s.keys ++ [ks] }) cs { s with lists := cs } with ⟨r, s1⟩
  cases r with
  | error er => rw [Py.bind_error ef] at e; cases e
  | ok u =>
    rw [Py.bind_ok ef] at e
    have hcs : ∀ l ∈ cs, K.KeyIs key l := fun l hl v hvl => hv v (h1 ▸ List.mem_flatten.2 ⟨l, hl, hvl⟩)
    obtain rfl := fillKeys_keyIs hcs ef
    simp only [Py.get_bind, hk, List.nil_append, e', Py.lift_ok_bind, Py.modify_bind, Py.modify_apply, hm] at e
    cases e
    exact Inv.of_chunks rfl hload (sorted_noOrder _) h1 h2 h3 h4 h5 rfl rfl (fun _ => rfl)

theorem update_safe {K : KEnv α κ} (hK : K.Sane) (xs : List α) {s s' : St α κ} {b : Unit} (h : N key s)
    (hk : K.KeyIs key (Core.iter s ++ xs)) (e : update K xs s = (.ok b, s')) : N key s' := by
  have hks := h.keys_eq rfl
  unfold update at e
  cases es : K.sortedByKey xs with
  | error er => rw [es] at e; cases e
  | ok ys =>
    have hp := hK.perm _ _ es
    have hys : K.KeyIs key ys := fun v hv => hk v (List.mem_append.2 (.inr (hp.mem_iff.1 hv)))
    simp only [es, Py.lift_ok_bind, Py.get_bind] at e
    by_cases hm0 : s.maxes = []
    · have hl0 := h.whole.maxes_nil.1 hm0
      rw [if_neg (by simp [hm0])] at e
      exact fill_safe h.load_pos hl0 hm0 (by rw [hks, hl0]; rfl) hys e
    · rw [if_pos hm0] at e
      by_cases hbig : ys.length * 4 ≥ s.len
      · rw [if_pos hbig] at e
        simp only [Py.modify_bind, Py.get_bind] at e
        cases es2 : K.sortedByKey (Core.iter { s with lists := s.lists ++ [ys] }) with
        | error er => rw [es2] at e; cases e
        | ok zs =>
          simp only [es2, Py.lift_ok_bind, clear, Py.modify_bind] at e
          refine fill_safe (s := { s with lists := [], len := 0, maxes := [], index := [], keys := [] }) h.load_pos rfl rfl rfl
            (fun v hv => ?_) e
          have := (hK.perm _ _ es2).mem_iff.1 hv
          rw [Core.iter, List.flatten_append, List.mem_append] at this
          rcases this with h' | h'
          · exact hk v (List.mem_append.2 (.inl h'))
          · exact hys v (by simpa using h')
      · rw [if_neg hbig] at e
        exact (Safe.forEach (V := fun _ => True)
          (fun v hv s b s' h e => ⟨⟨add_safe K (hys v hv) h.1 e, fun _ _ => trivial⟩, trivial⟩)
          s b s' ⟨h, fun _ _ => trivial⟩ e).1.1

/-- The same keys, with the order in which nothing is less than anything. -/
def KN (key : α → κ) (ilog2 : Nat → Nat) : KEnv α κ :=
  { key := fun v => .ok (key v), kcmp := fun op a b => .ok (op.ofLt noOrder a b), vcmp := fun op _ _ => .ok (op == .ne),
    sortedByKey := .ok, ilog2 := ilog2 }

theorem KN_lawful {ilog2 : Nat → Nat} (hlog : ∀ n, 1 ≤ n → n < 2 ^ (ilog2 n + 1)) :
    (KN key ilog2).Lawful key noOrder (fun _ _ => false) where
  order := noOrder_swo
  key_ok := fun _ => rfl
  kcmp_ok := fun _ _ _ => rfl
  veq_ok := fun _ _ => rfl
  vne_ok := fun _ _ => rfl
  sorted := fun xs => ⟨xs, rfl, List.Perm.refl _, sorted_noOrder (k0 := key) _, fun _ => rfl⟩
  ilog2 := hlog

theorem methods_safe {K : KEnv α κ} (hK : K.Sane) :
    SafeM (fun v => ∀ k, K.key v = .ok k → k = key v) (methods K) (methods (KN key K.ilog2))
      (Spec.Order.ofKey key noOrder (fun _ _ => false) (KN key K.ilog2).vcmp) key true where
  log := rfl
  ok := methods_ok (KN_lawful hK.ilog2)
  clear := rfl
  delete := rfl
  update := fun xs hx s b s' h e => by
    have hk : K.KeyIs key (Core.iter s ++ xs) := fun v hv => (List.mem_append.1 hv).elim (h.2 v) (hx v)
    refine ⟨⟨update_safe hK xs h.1 hk e, fun v hv => hk v ?_⟩, trivial⟩
    exact (update_whole hK h.1.whole_erase e).2.mem_iff.1 hv

theorem step_keeps {K : KEnv α κ} (hK : K.Sane) (op : Op α) (hv : op.Valid) {s : St α κ} (h : N key s)
    (hk : K.KeyIs key (op.stores (Core.iter s)))
    (hb : op.bulk = true → (∃ r, ((SKL.api K).step op s).1 = .ok r) ∨ ((SKL.api K).step op s).2 = s) :
    N key ((SKL.api K).step op s).2 := by
  have out : ∀ {β : Type} (f : β → Out α) (m : Py (St α κ) β), N key (m s).2 → N key (Spec.out f m s).2 := by
    intro β f m hm; rwa [SKL.out_snd]
  have bulk : ∀ (m : Py (St α κ) Unit), (∀ b s', m s = (.ok b, s') → N key s') →
      ((∃ r, (Spec.out (fun _ => (.none : Out α)) m s).1 = .ok r) ∨ (Spec.out (fun _ => (.none : Out α)) m s).2 = s) →
      N key (Spec.out (fun _ => (.none : Out α)) m s).2 := by
    intro m hm hr
    rcases hr with ⟨r, hr⟩ | hr
    · apply out
      unfold Spec.out at hr
      split at hr
      · rename_i e; rw [e]; exact hm _ _ e
      · cases hr
    · rw [hr]; exact h
  have hM := methods_safe (key := key) hK
  have quiet : ∀ {β : Type} (f : β → Out α) (m : Py (St α κ) β), Keeps (fun _ : α => ()) true s m → N key (Spec.out f m s).2 := by
    intro β f m hm
    obtain ⟨h1, h2⟩ := hm s (Reindexed.refl s) h.whole_erase
    exact out f m (reindexed h h1 h2)
  have copies : ∀ m : St α κ → Except PyErr (St α κ), N key (Spec.out .vals ((SKL.api K).valuesOf m) s).2 := by
    intro m; refine out _ _ ?_; unfold ListAPI.valuesOf; split <;> exact h
  cases op with
  | add v => exact out _ _ (add_keeps K h (hk v (by simp [Op.stores])))
  | update xs => exact bulk _ (fun _ _ => update_safe hK xs h hk) (hb rfl)
  | clear => exact out _ _ (hM.clear_refines s h).2.2
  | contains v => exact quiet _ _ (contains_keeps v)
  | discard v => exact out _ _ (discard_keeps K h v)
  | remove v => exact out _ _ (remove_keeps K h v)
  | getInt i => exact out _ _ ((getInt_refines hK.ilog2 i) s h).2.2
  | getSlice sl => exact out _ _ ((getSlice_refines hK.ilog2 sl) s h).2.2
  | delInt i => exact out _ _ (hM.delInt i s h).2.2
  | delSlice sl => exact bulk _ (fun b s' e => (hM.delSlice sl s b s' ⟨h, hk⟩ e).1.1) (hb rfl)
  | pop i => exact out _ _ (hM.pop i s h).2.2
  | bisectLeft v => exact quiet _ _ (bisect_left_keeps hK v)
  | bisectRight v => exact quiet _ _ (bisect_right_keeps hK v)
  | count v => exact quiet _ _ (count_api_keeps v)
  | index v a b => exact quiet _ _ (index_keeps hK v a b)
  | irange lo hi a b r => exact quiet _ _ (irange_keeps lo hi a b r)
  | islice a b r => exact out _ _ ((islice_refines hK.ilog2 a b r) s h).2.2
  | iter => exact h
  | reversed => exact h
  | len => exact h
  | compare op other => exact out _ (ListAPI.read (Core.compare K.vcmp op other)) h
  | iadd xs => exact bulk _ (fun _ _ => update_safe hK xs h hk) (hb rfl)
  | imul n => exact bulk _ (fun b s' e => (hM.imul n s b s' ⟨h, hk⟩ e).1.1) (hb rfl)
  | reset load => exact bulk _ (fun b s' e => (hM.reset hv s b s' ⟨h, hk⟩ e).1.1) (hb rfl)
  | copy => exact copies _
  | concat xs => exact copies _
  | mul n => exact copies _
  | unsupported u => exact h

theorem query_keeps {K : KEnv α κ} (hK : K.Sane) (op : KOp α κ) (hq : op.isQuery = true) {s : St α κ} (h : N key s) :
    N key (SKL.kstep K op s).2 := by
  have quiet : ∀ {β : Type} (f : β → Out α) (m : Py (St α κ) β), Keeps (fun _ : α => ()) true s m → N key (Spec.out f m s).2 := by
    intro β f m hm
    obtain ⟨h1, h2⟩ := hm s (Reindexed.refl s) h.whole_erase
    rw [SKL.out_snd]; exact reindexed h h1 h2
  cases op with
  | bisectKeyLeft k => exact quiet _ _ (bisect_key_left_keeps hK k)
  | bisectKeyRight k => exact quiet _ _ (bisect_key_right_keeps hK k)
  | irangeKey lo hi a b r => exact quiet _ _ (irange_key_keeps lo hi a b r)
  | op op =>
    have hq' : op.isQuery = true := hq
    refine step_keeps hK op (by cases op <;> first | trivial | cases hq') h ?_ ?_
    · intro v hv; cases op <;> first | (cases hq'; done) | cases hv
    · cases op <;> intro hb <;> first | (cases hq'; done) | (cases hb; done)

theorem new_keeps {K : KEnv α κ} (hK : K.Sane) {xs : Option (List α)} (hk : K.KeyIs key (xs.getD [])) {s : St α κ}
    (e : new K xs = .ok s) : N key s := by
  have h0 : N key (St.empty : St α κ) :=
    Inv.of_empty (k := key) (lt := noOrder) (keyed := true) (show 1 ≤ 1000 by decide) rfl rfl rfl rfl (fun _ => rfl)
  cases xs with
  | none => cases e; exact h0
  | some xs =>
    simp only [new] at e
    split at e
    · rename_i s1 eu
      cases e
      exact update_safe hK xs h0 hk eu
    · cases e

/-- After every history, whatever the comparisons were, only the order can be wrong. -/
theorem keyed_keeps {s : St α κ} (h : Keyed key s) : N key s := by
  induction h with
  | new hK hk e => exact new_keeps hK hk e
  | step op hK hv hk _ hb ih => exact step_keeps hK op hv ih hk hb
  | query op hK hq _ ih => exact query_keeps hK op hq ih

end SKL
end Verif
