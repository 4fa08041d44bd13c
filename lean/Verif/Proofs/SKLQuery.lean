import Verif.Proofs.SKLMut
import Verif.Proofs.SLQuery
/-!
# SortedKeyList: search methods
-/

namespace Verif
variable {α κ : Type} {key : α → κ} {klt : κ → κ → Bool} {veq : α → α → Bool}
  {cmp : CmpOp → α → α → Except PyErr Bool}

/-! ## Walking through the values from a position -/

theorem at_next {lists : List (List α)} {p x n : Nat} {v : α} (hne : ∀ l ∈ lists, l ≠ []) (h : At lists p x n v) :
    ∃ l, getItem lists p = .ok l ∧ getItem l x = .ok v ∧
      ((x + 1 = l.length ∧ p + 1 = lists.length ∧ lists.flatten.length = n + 1) ∨
       (x + 1 = l.length ∧ p + 1 ≠ lists.length ∧ ∃ w, At lists (p + 1) 0 (n + 1) w) ∨
       (x + 1 ≠ l.length ∧ ∃ w, At lists p (x + 1) (n + 1) w)) := by
  obtain ⟨A, B1, B2, C, rfl, rfl, rfl, rfl⟩ := h
  refine ⟨B1 ++ v :: B2, getItem_append_cons _ _ _ rfl, getItem_append_cons _ _ _ rfl, ?_⟩
  cases B2 with
  | cons w B2 =>
    refine .inr (.inr ⟨by simp, w, A, B1 ++ [v], B2, C, by simp, rfl, by simp, by simp; omega⟩)
  | nil =>
    cases C with
    | nil => exact .inl ⟨by simp, by simp, by simp; omega⟩
    | cons l C =>
      cases l with
      | nil => exact absurd rfl (hne [] (by simp))
      | cons w l =>
        refine .inr (.inl ⟨by simp, by simp, w, A ++ [B1 ++ [v]], [], l, C, by simp, by simp, rfl, by simp; omega⟩)

theorem getItem_map {β : Type} {f : α → β} {l : List α} {i : Nat} {v : α} (h : getItem l i = .ok v) :
    getItem (l.map f) i = .ok (f v) := by
  rw [getItem_ok_iff] at h ⊢
  simp [h]

namespace SKL
variable {K : KEnv α κ}

theorem lt_ok (hK : K.Lawful key klt veq) (a b : κ) : K.lt a b = .ok (klt a b) := hK.kcmp_ok .lt a b

theorem searchLeft (hK : K.Lawful key klt veq) {s : St α κ} (h : Inv key klt true s) (v : κ) :
    Search key (klt · v) (bisectLeft K.lt · v) s :=
  h.search (isBis_left (lt_ok hK) v) (mono_left hK.order h.sorted v)

theorem searchRight (hK : K.Lawful key klt veq) {s : St α κ} (h : Inv key klt true s) (v : κ) :
    Search key (fun m => !klt v m) (bisectRight K.lt · v) s :=
  h.search (isBis_right (lt_ok hK) v) (mono_right hK.order h.sorted v)

theorem iter_nil {s : St α κ} (h : Inv key klt true s) (hm : s.maxes = []) : Core.iter s = [] := by
  rw [Core.iter, h.maxes.nil_iff.1 hm]; rfl

/-- The values that `remove(v)` may remove. -/
abbrev same (key : α → κ) (klt : κ → κ → Bool) (veq : α → α → Bool) (x v : α) : Bool :=
  equiv klt (key x) (key v) && veq x v

/-! ### The loop of `__contains__`, `discard`, `remove` -/

theorem findLoop_step (hK : K.Lawful key klt veq) {s : St α κ} (h : Inv key klt true s) {v : α} {p x : Nat} {w : α}
    {l : List α} (hl : getItem s.lists p = .ok l) (hx : getItem l x = .ok w) (len : Nat) :
    findLoop K s.lists s.keys v (key v) p x len =
      if equiv klt (key w) (key v) then
        if veq w v then .ok (some (p, x))
        else if x + 1 = len then
          if p + 1 = s.lists.length then .ok none
          else
            match getItem s.lists (p + 1) with
            | .error e => .error e
            | .ok l' => findLoop K s.lists s.keys v (key v) (p + 1) 0 l'.length
        else findLoop K s.lists s.keys v (key v) p (x + 1) len
      else .ok none := by
  have hk : getItem s.keys p = .ok (l.map key) := by rw [h.keys_eq rfl]; exact getItem_map hl
  have hkx : getItem (l.map key) x = .ok (key w) := getItem_map hx
  rw [findLoop]
  split
  · rename_i e he; rw [hk] at he; cases he
  rename_i ks hks
  rw [hk] at hks; cases hks
  split
  · rename_i e he; rw [hkx] at he; cases he
  rename_i k hk'
  rw [hkx] at hk'; cases hk'
  rw [hK.kcmp_ok]
  cases hq : equiv klt (key w) (key v)
  · simp [CmpOp.ofLt, hq]
  · simp only [CmpOp.ofLt, hq, Bool.not_true, hl, hx, hK.veq_ok, if_true]
    cases hv : veq w v
    · simp only [Bool.false_eq_true, if_false]
      have hlen : s.keys.length = s.lists.length := by rw [h.keys_eq rfl]; simp
      rw [hlen]
      split
      · split
        · rfl
        · rename_i hne
          cases hg : getItem s.lists (p + 1) with
          | error e =>
            rw [h.keys_eq rfl]
            have : s.lists.length ≤ p + 1 := by
              refine Nat.le_of_not_lt fun hcon => ?_
              rw [getItem_ok hcon] at hg; cases hg
            rw [getItem_error (by simpa using this)]
            rw [getItem_error this] at hg; cases hg; rfl
          | ok l' =>
            have : getItem s.keys (p + 1) = .ok (l'.map key) := by rw [h.keys_eq rfl]; exact getItem_map hg
            simp [this]
      · rfl
    · rfl

/-- After a value with a greater key there is none that is `v`. -/
theorem after_greater (hK : K.Lawful key klt veq) {s : St α κ} (h : Inv key klt true s) {v w : α} {n : Nat}
    (hw : (Core.iter s)[n]? = some w) (hge : klt (key w) (key v) = false) (hne : equiv klt (key w) (key v) = false) :
    ∀ i y, n ≤ i → (Core.iter s)[i]? = some y → equiv klt (key y) (key v) = false := by
  intro i y hi hy
  rcases Nat.eq_or_lt_of_le hi with rfl | hi
  · rw [hw] at hy; cases hy; exact hne
  · have hvw : klt (key v) (key w) = true := by
      simp only [equiv, hge] at hne
      simpa using hne
    obtain ⟨h1, rfl⟩ := List.getElem?_eq_some_iff.1 hw
    obtain ⟨h2, rfl⟩ := List.getElem?_eq_some_iff.1 hy
    have := List.pairwise_iff_getElem.1 (show List.Pairwise (fun a b => klt (key b) (key a) = false) (Core.iter s)
      from h.sorted) _ _ h1 h2 hi
    exact SL.not_equiv_of_gt (hK.order.lt_of_lt_of_not_lt hvw this)

theorem findLoop_ok (hK : K.Lawful key klt veq) {s : St α κ} (h : Inv key klt true s) (v : α) (m : Nat) :
    ∀ {p x n : Nat} {w : α} {l : List α}, At s.lists p x n w → (Core.iter s).length - n = m →
    getItem s.lists p = .ok l →
    (∀ i y, n ≤ i → (Core.iter s)[i]? = some y → klt (key y) (key v) = false) →
    (∃ p' x' n' w', findLoop K s.lists s.keys v (key v) p x l.length = .ok (some (p', x')) ∧ At s.lists p' x' n' w' ∧
      n ≤ n' ∧ same key klt veq w' v = true ∧
      ∀ i y, n ≤ i → i < n' → (Core.iter s)[i]? = some y → same key klt veq y v = false) ∨
    (findLoop K s.lists s.keys v (key v) p x l.length = .ok none ∧
      ∀ i y, n ≤ i → (Core.iter s)[i]? = some y → same key klt veq y v = false) := by
  induction m with
  | zero =>
    intro p x n w l hat hm
    have := (List.getElem?_eq_some_iff.1 hat.getElem).1
    have e : Core.iter s = s.lists.flatten := rfl
    rw [e] at hm; omega
  | succ m ih =>
    intro p x n w l hat hm hl hge
    obtain ⟨l', hl', hx, hnext⟩ := at_next h.ne_nil hat
    rw [hl] at hl'; cases hl'
    have hw : (Core.iter s)[n]? = some w := hat.getElem
    rw [findLoop_step hK h hl hx]
    cases hq : equiv klt (key w) (key v)
    · refine .inr ⟨rfl, fun i y hi hy => ?_⟩
      simp [same, after_greater hK h hw (hge n w (Nat.le_refl _) hw) hq i y hi hy]
    cases hv : veq w v
    case true =>
      refine .inl ⟨p, x, n, w, by simp, hat, Nat.le_refl _, by simp [same, hq, hv], ?_⟩
      intro i y h1 h2; omega
    have hskip : ∀ i y, n ≤ i → ¬ n + 1 ≤ i → (Core.iter s)[i]? = some y → same key klt veq y v = false := by
      intro i y h1 h2 hy
      obtain rfl : i = n := by omega
      rw [hw] at hy; cases hy; simp [same, hv]
    simp only [if_true, Bool.false_eq_true, if_false]
    -- the step to the next position
    have go : ∀ {p' x' : Nat} {w' : α} {l' : List α}, At s.lists p' x' (n + 1) w' → getItem s.lists p' = .ok l' →
        (∃ p'' x'' n'' w'', findLoop K s.lists s.keys v (key v) p' x' l'.length = .ok (some (p'', x'')) ∧
          At s.lists p'' x'' n'' w'' ∧ n ≤ n'' ∧ same key klt veq w'' v = true ∧
          ∀ i y, n ≤ i → i < n'' → (Core.iter s)[i]? = some y → same key klt veq y v = false) ∨
        (findLoop K s.lists s.keys v (key v) p' x' l'.length = .ok none ∧
          ∀ i y, n ≤ i → (Core.iter s)[i]? = some y → same key klt veq y v = false) := by
      intro p' x' w' l' hat' hl'
      rcases ih hat' (by omega) hl' (fun i y hi hy => hge i y (by omega) hy) with
        ⟨p'', x'', n'', w'', e, h1, h2, h3, h4⟩ | ⟨e, h1⟩
      · refine .inl ⟨p'', x'', n'', w'', e, h1, by omega, h3, fun i y hi1 hi2 hy => ?_⟩
        by_cases hi : n + 1 ≤ i
        · exact h4 i y hi hi2 hy
        · exact hskip i y hi1 hi hy
      · refine .inr ⟨e, fun i y hi1 hy => ?_⟩
        by_cases hi : n + 1 ≤ i
        · exact h1 i y hi hy
        · exact hskip i y hi1 hi hy
    rcases hnext with ⟨hx1, hp1, hlen⟩ | ⟨hx1, hp1, w', hat'⟩ | ⟨hx1, w', hat'⟩
    · rw [if_pos hx1, if_pos hp1]
      refine .inr ⟨rfl, fun i y hi1 hy => ?_⟩
      have := (List.getElem?_eq_some_iff.1 hy).1
      have e : (Core.iter s).length = n + 1 := hlen
      exact hskip i y hi1 (by omega) hy
    · rw [if_pos hx1, if_neg hp1]
      obtain ⟨l', hl', _⟩ := hat'.getItem
      simp only [hl']
      exact go hat' hl'
    · rw [if_neg hx1]
      exact go hat' hl

theorem find_ok (hK : K.Lawful key klt veq) {s : St α κ} (h : Inv key klt true s) (v : α) :
    (find K v s = (.ok none, s) ∧ ∀ y ∈ Core.iter s, same key klt veq y v = false) ∨
    (∃ p x w P Q, find K v s = (.ok (some (p, x)), s) ∧ At s.lists p x P.length w ∧ Core.iter s = P ++ w :: Q ∧
      same key klt veq w v = true ∧ ∀ y ∈ P, same key klt veq y v = false) := by
  unfold find
  simp only [Py.get_bind]
  by_cases hm : s.maxes = []
  · exact .inl ⟨by simp [hm], by simp [iter_nil h hm]⟩
  rw [if_neg hm]
  simp only [hK.key_ok, Py.lift_ok_bind]
  rcases searchLeft hK h (key v) with ⟨hall, hb⟩ | ⟨A, B1, x, B2, C, hl, hb, hne, hb2, hP, hx, hQ⟩
  · rw [hb, Py.lift_ok_bind, if_pos rfl]
    exact .inl ⟨rfl, fun y hy => by simp [same, SL.not_equiv_of_lt (hall y hy)]⟩
  simp only [hb, Py.lift_ok_bind, if_neg hne, h.getItem_keys hl, hb2, Py.lift_apply, List.length_map]
  have e := iter_split hl
  have hPn : ∀ i y, i < (A.flatten ++ B1).length → (Core.iter s)[i]? = some y → same key klt veq y v = false := by
    intro i y hi hy
    rw [e, List.getElem?_append_left hi] at hy
    simp [same, SL.not_equiv_of_lt (hP y (List.mem_of_getElem? hy))]
  rcases findLoop_ok hK h v _ (at_of_split hl) rfl (getItem_lists hl) (by
      intro i y hi hy
      rw [e, List.getElem?_append_right hi] at hy
      rcases List.mem_cons.1 (List.mem_of_getElem? hy) with rfl | hy
      · exact hx
      · exact hQ y hy) with ⟨p', x', n', w', e', h1, h2, h3, h4⟩ | ⟨e', h1⟩
  · right
    have hw' : (Core.iter s)[n']? = some w' := h1.getElem
    obtain ⟨hn', hgw⟩ := List.getElem?_eq_some_iff.1 hw'
    refine ⟨p', x', w', (Core.iter s).take n', (Core.iter s).drop (n' + 1), by rw [e'], ?_, ?_, h3, ?_⟩
    · rw [List.length_take, Nat.min_eq_left (by omega)]; exact h1
    · rw [← hgw, ← List.drop_eq_getElem_cons hn', List.take_append_drop]
    · intro y hy
      obtain ⟨i, hi, rfl⟩ := List.mem_take_iff_getElem.1 hy
      by_cases hin : i < (A.flatten ++ B1).length
      · exact hPn i _ hin (by simp [show i < (Core.iter s).length by omega])
      · exact h4 i _ (by omega) (by omega) (by simp [show i < (Core.iter s).length by omega])
  · left
    refine ⟨by rw [e'], fun y hy => ?_⟩
    obtain ⟨i, hi, rfl⟩ := List.mem_iff_getElem.1 hy
    by_cases hin : i < (A.flatten ++ B1).length
    · exact hPn i _ hin (by simp [hi])
    · exact h1 i _ (by omega) (by simp [hi])

theorem contains_refines (hK : K.Lawful key klt veq) (v : α) :
    Refines (Inv key klt true) Core.iter (contains K v) (Spec.contains (Spec.Order.ofKey key klt veq cmp) v) := by
  refine Refines.of_query (fun s h => ⟨s, ?_, Reindexed.refl s, h⟩) (fun _ => rfl)
  unfold contains Spec.contains
  rcases find_ok hK h v with ⟨e, hno⟩ | ⟨p, x, w, P, Q, e, hat, hsplit, hw, hP⟩
  · rw [Py.bind_ok e, any_none (q := ((Spec.Order.ofKey key klt veq cmp).same · v)) hno]; rfl
  · rw [Py.bind_ok e, hsplit]
    have : (Spec.Order.ofKey key klt veq cmp).same w v = true := hw
    simp [this]

theorem discard_refines (hK : K.Lawful key klt veq) (v : α) :
    Refines (Inv key klt true) Core.iter (discard K v) (Spec.discard (Spec.Order.ofKey key klt veq cmp) v) := by
  refine Refines.of fun s h => ?_
  unfold discard Spec.discard
  rcases find_ok hK h v with ⟨e, hno⟩ | ⟨p, x, w, P, Q, e, hat, hsplit, hw, hP⟩
  · rw [Py.bind_ok e]
    exact ⟨s, rfl, (eraseP_none hno).symm, h⟩
  · rw [Py.bind_ok e]
    obtain ⟨s', e', h1, h2⟩ := delete_ok h hat
    refine ⟨s', e', ?_, h1⟩
    rw [h2, hsplit]
    exact (eraseP_split hP hw).symm

theorem remove_refines (hK : K.Lawful key klt veq) (v : α) :
    Refines (Inv key klt true) Core.iter (remove K v) (Spec.remove (Spec.Order.ofKey key klt veq cmp) v) := by
  refine Refines.of fun s h => ?_
  unfold remove Spec.remove
  rcases find_ok hK h v with ⟨e, hno⟩ | ⟨p, x, w, P, Q, e, hat, hsplit, hw, hP⟩
  · rw [Py.bind_ok e, any_none (q := ((Spec.Order.ofKey key klt veq cmp).same · v)) hno]
    exact ⟨s, rfl, rfl, h⟩
  · rw [Py.bind_ok e]
    obtain ⟨s', e', h1, h2⟩ := delete_ok h hat
    have hany : (Core.iter s).any ((Spec.Order.ofKey key klt veq cmp).same · v) = true := by
      have : (Spec.Order.ofKey key klt veq cmp).same w v = true := hw
      rw [hsplit]; simp [this]
    rw [if_pos hany]
    refine ⟨s', e', ?_, h1⟩
    rw [h2, hsplit]
    exact (eraseP_split hP hw).symm

/-! ### Bisection -/

theorem bisect_key_left_ok (hK : K.Lawful key klt veq) {s : St α κ} (h : Inv key klt true s) (v : κ) :
    ∃ s', bisect_key_left K v s = (.ok ((Core.iter s).countP fun x => klt (key x) v), s') ∧ Reindexed s s' ∧
      Inv key klt true s' := by
  unfold bisect_key_left
  simp only [Py.get_bind]
  by_cases hm : s.maxes = []
  · exact ⟨s, by simp [hm, iter_nil h hm], Reindexed.refl s, h⟩
  rw [if_neg hm]
  rcases searchLeft hK h v with ⟨hall, hb⟩ | ⟨A, B1, x, B2, C, hl, hb, hne, hb2, hP, hx, hQ⟩
  · rw [hb, Py.lift_ok_bind, if_pos rfl]
    refine ⟨s, ?_, Reindexed.refl s, h⟩
    rw [countP_all hall, h.len_eq]; rfl
  · simp only [hb, Py.lift_ok_bind, if_neg hne, h.getItem_keys hl, hb2]
    obtain ⟨s', e', h1, h2⟩ := h.loc hK.ilog2 hl B1.length
    refine ⟨s', ?_, h1, h2⟩
    rw [e', iter_split hl, countP_split hP hx hQ, List.length_append]

theorem bisect_key_right_ok (hK : K.Lawful key klt veq) {s : St α κ} (h : Inv key klt true s) (v : κ) :
    ∃ s', bisect_key_right K v s = (.ok ((Core.iter s).countP fun x => !klt v (key x)), s') ∧ Reindexed s s' ∧
      Inv key klt true s' := by
  unfold bisect_key_right
  simp only [Py.get_bind]
  by_cases hm : s.maxes = []
  · exact ⟨s, by simp [hm, iter_nil h hm], Reindexed.refl s, h⟩
  rw [if_neg hm]
  rcases searchRight hK h v with ⟨hall, hb⟩ | ⟨A, B1, x, B2, C, hl, hb, hne, hb2, hP, hx, hQ⟩
  · rw [hb, Py.lift_ok_bind, if_pos rfl]
    refine ⟨s, ?_, Reindexed.refl s, h⟩
    rw [countP_all hall, h.len_eq]; rfl
  · simp only [hb, Py.lift_ok_bind, if_neg hne, h.getItem_keys hl, hb2]
    obtain ⟨s', e', h1, h2⟩ := h.loc hK.ilog2 hl B1.length
    refine ⟨s', ?_, h1, h2⟩
    rw [e', iter_split hl, countP_split hP hx hQ, List.length_append]

theorem bisect_key_left_refines (hK : K.Lawful key klt veq) (v : κ) :
    Refines (Inv key klt true) Core.iter (bisect_key_left K v) (Spec.bisectKeyLeft key klt v) :=
  Refines.of_query (fun _ h => bisect_key_left_ok hK h v) (fun _ => rfl)

theorem bisect_key_right_refines (hK : K.Lawful key klt veq) (v : κ) :
    Refines (Inv key klt true) Core.iter (bisect_key_right K v) (Spec.bisectKeyRight key klt v) :=
  Refines.of_query (fun _ h => bisect_key_right_ok hK h v) (fun _ => rfl)

theorem bisect_left_refines (hK : K.Lawful key klt veq) (v : α) :
    Refines (Inv key klt true) Core.iter (bisect_left K v) (Spec.bisectLeft (Spec.Order.ofKey key klt veq cmp) v) := by
  refine Refines.of_query (fun _ h => ?_) (fun _ => rfl)
  unfold bisect_left
  rw [hK.key_ok, Py.lift_ok_bind]
  exact bisect_key_left_ok hK h (key v)

theorem bisect_right_refines (hK : K.Lawful key klt veq) (v : α) :
    Refines (Inv key klt true) Core.iter (bisect_right K v)
      (Spec.bisectRight (Spec.Order.ofKey key klt veq cmp) v) := by
  refine Refines.of_query (fun _ h => ?_) (fun _ => rfl)
  unfold bisect_right
  rw [hK.key_ok, Py.lift_ok_bind]
  exact bisect_key_right_ok hK h (key v)

/-! ### Range iteration -/

theorem bisLow (hK : K.Lawful key klt veq) {s : St α κ} (h : Inv key klt true s) (m : κ) (inc : Bool) :
    Search key (fun x => if inc then klt x m else !klt m x)
      (fun l => if inc then bisectLeft K.lt l m else bisectRight K.lt l m) s := by
  cases inc
  · exact searchRight hK h m
  · exact searchLeft hK h m

theorem monoLow (hK : K.Lawful key klt veq) {s : St α κ} (h : Inv key klt true s) (m : κ) (inc : Bool) :
    Mono (fun x => if inc then klt (key x) m else !klt m (key x)) (Core.iter s) := by
  cases inc
  · exact mono_right hK.order h.sorted m
  · exact mono_left hK.order h.sorted m

theorem irange_key_refines (hK : K.Lawful key klt veq) (lo hi : Option κ) (incMin incMax reverse : Bool) :
    Refines (Inv key klt true) Core.iter (irange_key K lo hi incMin incMax reverse)
      (Spec.irangeKey key klt lo hi incMin incMax reverse) := by
  refine Refines.of_query (fun s h => ⟨s, ?_, Reindexed.refl s, h⟩) (fun _ => rfl)
  unfold irange_key irange_keyWith Spec.irangeKey
  simp only [Py.get_bind]
  by_cases hm : s.maxes = []
  · simp [hm, iter_nil h hm, Spec.reverseIf]
  rw [if_neg hm]
  have hlne : s.lists ≠ [] := fun e => hm (h.maxes.nil_iff.2 e)
  -- the upper end
  have upper : ∀ (p : α → Bool) (minPos minIdx : Nat), Mono p (Core.iter s) →
      (∀ x, Spec.aboveKey klt lo incMin (key x) = !p x) →
      Cut s.lists minPos minIdx ((Core.iter s).countP p) →
      (do
        let (maxPos, maxIdx) ←
          match hi with
          | none => do
            let ks ← Py.lift (getItem s.keys (s.maxes.length - 1))
            pure (s.maxes.length - 1, ks.length)
          | some m => do
            let maxPos ← Py.lift (if incMax then bisectRight K.lt s.maxes m else bisectLeft K.lt s.maxes m)
            if maxPos = s.maxes.length then
              let ks ← Py.lift (getItem s.keys (maxPos - 1))
              pure (maxPos - 1, ks.length)
            else
              let ks ← Py.lift (getItem s.keys maxPos)
              let maxIdx ← Py.lift (if incMax then bisectRight K.lt ks m else bisectLeft K.lt ks m)
              pure (maxPos, maxIdx)
        Py.lift (Core.islicePos s minPos minIdx maxPos maxIdx reverse) : Py (St α κ) (List α)) s =
      (.ok (Spec.reverseIf reverse ((Core.iter s).filter fun x =>
        Spec.aboveKey klt lo incMin (key x) && Spec.belowKey klt hi incMax (key x))), s) := by
    intro p minPos minIdx hp hpa hcut
    obtain ⟨L, last, hL⟩ : ∃ L l, s.lists = L ++ [l] := ⟨_, _, (List.dropLast_concat_getLast hlne).symm⟩
    have hmlen : s.maxes.length - 1 = L.length := by rw [h.maxes.length_eq, hL]; simp
    have hglast : getItem s.keys L.length = .ok (last.map key) := by
      rw [h.keys_eq rfl]; exact getItem_map (by rw [hL]; simp)
    have hcl : Cut s.lists L.length last.length (Core.iter s).length := by
      rw [Core.iter, hL]; exact Cut.last
    -- enough: the end is a cut after the values that respect the upper bound
    have fin : ∀ (q : α → Bool) (maxPos maxIdx : Nat), Mono q (Core.iter s) →
        (∀ x, Spec.belowKey klt hi incMax (key x) = q x) →
        Cut s.lists maxPos maxIdx ((Core.iter s).countP q) →
        Core.islicePos s minPos minIdx maxPos maxIdx reverse =
        .ok (Spec.reverseIf reverse ((Core.iter s).filter fun x =>
          Spec.aboveKey klt lo incMin (key x) && Spec.belowKey klt hi incMax (key x))) := by
      intro q maxPos maxIdx hq hqb hcut'
      rw [islicePos_eq s hcut hcut']
      have e1 : s.lists.flatten = Core.iter s := rfl
      rw [e1, ← filter_segment hp hq]
      simp only [hpa, hqb]
    cases hi with
    | none =>
      simp only [hmlen, hglast, List.length_map, Py.lift_ok_bind, Py.pure_bind', Py.lift_apply]
      rw [fin (fun _ => true) L.length last.length (List.Pairwise.imp (fun _ _ => rfl) h.sorted) (fun _ => rfl)]
      · rw [countP_all (by simp)]; exact hcl
    | some m =>
      have hbelow : ∀ x, Spec.belowKey klt (some m) incMax (key x) =
          (if !incMax then klt (key x) m else !klt m (key x)) := by
        intro x; cases incMax <;> rfl
      have hq := monoLow hK h m (!incMax)
      have hbis : ∀ l : List κ, (if incMax then bisectRight K.lt l m else bisectLeft K.lt l m) =
        (if !incMax then bisectLeft K.lt l m else bisectRight K.lt l m) := by
        intro l; cases incMax <;> rfl
      simp only [hbis]
      rcases bisLow hK h m (!incMax) with ⟨hall, hb⟩ | ⟨A, B1, x, B2, C, hl, hb, hne, hb2, hP, hx, hQ⟩
      · simp only [hb, Py.lift_ok_bind, if_pos trivial, hmlen, hglast, List.length_map, Py.pure_bind', Py.lift_apply]
        rw [fin _ L.length last.length hq hbelow]
        rw [countP_all hall]; exact hcl
      · simp only [hb, Py.lift_ok_bind, if_neg hne, h.getItem_keys hl, hb2, Py.pure_bind', Py.lift_apply]
        rw [fin _ A.length B1.length hq hbelow]
        rw [iter_split hl, countP_split hP hx hQ]
        exact cut_of_split hl
  cases lo with
  | none =>
    simp only [Py.pure_bind']
    refine upper (fun _ => false) 0 0 (List.Pairwise.imp (fun _ h => h) h.sorted) (fun _ => rfl) ?_
    obtain ⟨B, C, hl⟩ : ∃ B C, s.lists = B :: C := by
      cases hl : s.lists with
      | nil => exact absurd hl hlne
      | cons B C => exact ⟨B, C, rfl⟩
    rw [show (Core.iter s).countP (fun _ => false) = 0 by simp]
    exact ⟨[], B, C, hl, rfl, Nat.zero_le _, rfl⟩
  | some m =>
    have habove : ∀ x, Spec.aboveKey klt (some m) incMin (key x) =
        !(if incMin then klt (key x) m else !klt m (key x)) := by
      intro x; cases incMin <;> simp [Spec.aboveKey]
    rcases bisLow hK h m incMin with ⟨hall, hb⟩ | ⟨A, B1, x, B2, C, hl, hb, hne, hb2, hP, hx, hQ⟩
    · simp only [hb, Py.lift_ok_bind, if_pos trivial, Py.pure_bind']
      rw [List.filter_eq_nil_iff.2]
      · simp [Spec.reverseIf]
      · intro x hx
        rw [habove, hall x hx]; simp
    · simp only [hb, Py.lift_ok_bind, if_neg hne, h.getItem_keys hl, hb2, Py.pure_bind']
      refine upper _ _ _ (monoLow hK h m incMin) habove ?_
      rw [iter_split hl, countP_split hP hx hQ]
      exact cut_of_split hl

theorem keyOpt_ok (hK : K.Lawful key klt veq) (x : Option α) : keyOpt K x = .ok (x.map key) := by
  cases x <;> simp [keyOpt, hK.key_ok]

theorem irange_refines (hK : K.Lawful key klt veq) (lo hi : Option α) (incMin incMax reverse : Bool) :
    Refines (Inv key klt true) Core.iter (irange K lo hi incMin incMax reverse)
      (Spec.irange (Spec.Order.ofKey key klt veq cmp) lo hi incMin incMax reverse) := by
  have e1 : irange K lo hi incMin incMax reverse =
      irange_key K (lo.map key) (hi.map key) incMin incMax reverse := by
    unfold irange irangeWith; rw [keyOpt_ok hK, keyOpt_ok hK]; rfl
  have e2 : Spec.irange (Spec.Order.ofKey key klt veq cmp) lo hi incMin incMax reverse =
      Spec.irangeKey key klt (lo.map key) (hi.map key) incMin incMax reverse := by
    cases lo <;> cases hi <;> rfl
  rw [e1, e2]
  exact irange_key_refines hK _ _ _ _ _

/-! ### Counting -/

theorem countLoop_step (hK : K.Lawful key klt veq) {s : St α κ} (h : Inv key klt true s) {v : α} {p x : Nat} {w : α}
    {l : List α} (hl : getItem s.lists p = .ok l) (hx : getItem l x = .ok w) (len total : Nat) :
    countLoop K s.lists s.keys v (key v) p x len total =
      if equiv klt (key w) (key v) then
        let total := if veq w v then total + 1 else total
        if x + 1 = len then
          if p + 1 = s.lists.length then .ok total
          else
            match getItem s.lists (p + 1) with
            | .error e => .error e
            | .ok l' => countLoop K s.lists s.keys v (key v) (p + 1) 0 l'.length total
        else countLoop K s.lists s.keys v (key v) p (x + 1) len total
      else .ok total := by
  have hk : getItem s.keys p = .ok (l.map key) := by rw [h.keys_eq rfl]; exact getItem_map hl
  have hkx : getItem (l.map key) x = .ok (key w) := getItem_map hx
  rw [countLoop]
  split
  · rename_i e he; rw [hk] at he; cases he
  rename_i ks hks
  rw [hk] at hks; cases hks
  split
  · rename_i e he; rw [hkx] at he; cases he
  rename_i k hk'
  rw [hkx] at hk'; cases hk'
  rw [hK.kcmp_ok]
  cases hq : equiv klt (key w) (key v)
  · simp [CmpOp.ofLt, hq]
  · simp only [CmpOp.ofLt, hq, Bool.not_true, hl, hx, hK.veq_ok, if_true]
    generalize (if veq w v = true then total + 1 else total) = total'
    have hlen : s.keys.length = s.lists.length := by rw [h.keys_eq rfl]; simp
    rw [hlen]
    split
    · split
      · rfl
      · rename_i hne
        cases hg : getItem s.lists (p + 1) with
        | error e =>
          rw [h.keys_eq rfl]
          have : s.lists.length ≤ p + 1 := by
            refine Nat.le_of_not_lt fun hcon => ?_
            rw [getItem_ok hcon] at hg; cases hg
          rw [getItem_error (by simpa using this)]
          rw [getItem_error this] at hg; cases hg; rfl
        | ok l' =>
          have : getItem s.keys (p + 1) = .ok (l'.map key) := by rw [h.keys_eq rfl]; exact getItem_map hg
          simp [this]
    · rfl

theorem countLoop_ok (hK : K.Lawful key klt veq) {s : St α κ} (h : Inv key klt true s) (v : α) (m : Nat) :
    ∀ {p x n : Nat} {w : α} {l : List α} (total : Nat), At s.lists p x n w → (Core.iter s).length - n = m →
    getItem s.lists p = .ok l →
    (∀ i y, n ≤ i → (Core.iter s)[i]? = some y → klt (key y) (key v) = false) →
    countLoop K s.lists s.keys v (key v) p x l.length total =
      .ok (total + ((Core.iter s).drop n).countP (same key klt veq · v)) := by
  induction m with
  | zero =>
    intro p x n w l total hat hm
    have := (List.getElem?_eq_some_iff.1 hat.getElem).1
    have e : Core.iter s = s.lists.flatten := rfl
    rw [e] at hm; omega
  | succ m ih =>
    intro p x n w l total hat hm hl hge
    obtain ⟨l', hl', hx, hnext⟩ := at_next h.ne_nil hat
    rw [hl] at hl'; cases hl'
    have hw : (Core.iter s)[n]? = some w := hat.getElem
    obtain ⟨hn, hgw⟩ := List.getElem?_eq_some_iff.1 hw
    rw [countLoop_step hK h hl hx]
    cases hq : equiv klt (key w) (key v)
    · have : ((Core.iter s).drop n).countP (same key klt veq · v) = 0 := by
        rw [List.countP_eq_zero]
        intro y hy
        rw [List.mem_drop_iff_getElem] at hy
        obtain ⟨i, hi, rfl⟩ := hy
        have := after_greater hK h hw (hge n w (Nat.le_refl _) hw) hq (n + i) _ (by omega)
          (List.getElem?_eq_getElem (by omega))
        simp [same, this]
      rw [this]
      simp
    rw [List.drop_eq_getElem_cons hn, hgw, List.countP_cons]
    have ht : total + (((Core.iter s).drop (n + 1)).countP (same key klt veq · v) +
        if same key klt veq w v = true then 1 else 0) =
        (if veq w v = true then total + 1 else total) + ((Core.iter s).drop (n + 1)).countP (same key klt veq · v) := by
      simp only [same, hq, Bool.true_and]
      split <;> omega
    rw [ht]
    simp only [if_true]
    generalize (if veq w v = true then total + 1 else total) = total'
    rcases hnext with ⟨hx1, hp1, hlen⟩ | ⟨hx1, hp1, w', hat'⟩ | ⟨hx1, w', hat'⟩
    · rw [if_pos hx1, if_pos hp1]
      have e : (Core.iter s).length = n + 1 := hlen
      rw [List.drop_eq_nil_of_le (by omega)]
      simp
    · rw [if_pos hx1, if_neg hp1]
      obtain ⟨l', hl', _⟩ := hat'.getItem
      simp only [hl']
      exact ih total' hat' (by omega) hl' (fun i y hi hy => hge i y (by omega) hy)
    · rw [if_neg hx1]
      exact ih total' hat' (by omega) hl (fun i y hi hy => hge i y (by omega) hy)

theorem count_ok (hK : K.Lawful key klt veq) {s : St α κ} (h : Inv key klt true s) (v : α) :
    count K v s = (.ok ((Core.iter s).countP (same key klt veq · v)), s) := by
  unfold count
  simp only [Py.get_bind]
  by_cases hm : s.maxes = []
  · simp [hm, iter_nil h hm]
  rw [if_neg hm]
  simp only [hK.key_ok, Py.lift_ok_bind]
  rcases searchLeft hK h (key v) with ⟨hall, hb⟩ | ⟨A, B1, x, B2, C, hl, hb, hne, hb2, hP, hx, hQ⟩
  · rw [hb, Py.lift_ok_bind, if_pos rfl, List.countP_eq_zero.2]
    · rfl
    · intro y hy; simp [same, SL.not_equiv_of_lt (hall y hy)]
  simp only [hb, Py.lift_ok_bind, if_neg hne, h.getItem_keys hl, hb2, Py.lift_apply, List.length_map]
  have e := iter_split hl
  rw [countLoop_ok hK h v _ 0 (at_of_split hl) rfl (getItem_lists hl)]
  · have h0 : (A.flatten ++ B1).countP (same key klt veq · v) = 0 := by
      rw [List.countP_eq_zero]
      intro y hy; simp [same, SL.not_equiv_of_lt (hP y hy)]
    rw [e, List.drop_left, List.countP_append (l₁ := A.flatten ++ B1), h0]
  · intro i y hi hy
    rw [e, List.getElem?_append_right hi] at hy
    rcases List.mem_cons.1 (List.mem_of_getElem? hy) with rfl | hy
    · exact hx
    · exact hQ y hy

theorem count_refines (hK : K.Lawful key klt veq) (v : α) :
    Refines (Inv key klt true) Core.iter (do let n ← count K v; pure (n : Int))
      (Spec.count (Spec.Order.ofKey key klt veq cmp) v) := by
  refine Refines.of_query (fun s h => ⟨s, ?_, Reindexed.refl s, h⟩) (fun _ => rfl)
  rw [Py.bind_ok (count_ok hK h v)]
  rfl

/-! ### `index` -/

theorem indexLoop_step (hK : K.Lawful key klt veq) {s : St α κ} (h : Inv key klt true s) {v : α} {p x : Nat} {w : α}
    {l : List α} (hl : getItem s.lists p = .ok l) (hx : getItem l x = .ok w) (start stop : Int) (len : Nat) :
    indexLoop K s.lists s.keys v (key v) start stop p x len =
      if equiv klt (key w) (key v) then
        let next : Py (St α κ) Int :=
          if x + 1 = len then
            if p + 1 = s.lists.length then Py.raise .valueError
            else
              match getItem s.lists (p + 1) with
              | .error e => Py.raise e
              | .ok l' => indexLoop K s.lists s.keys v (key v) start stop (p + 1) 0 l'.length
          else indexLoop K s.lists s.keys v (key v) start stop p (x + 1) len
        if veq w v then do
          let loc ← Core.loc K.ilog2 p x
          if start ≤ (loc : Int) ∧ (loc : Int) ≤ stop then pure (loc : Int)
          else if (loc : Int) > stop then Py.raise .valueError
          else next
        else next
      else Py.raise .valueError := by
  have hk : getItem s.keys p = .ok (l.map key) := by rw [h.keys_eq rfl]; exact getItem_map hl
  have hkx : getItem (l.map key) x = .ok (key w) := getItem_map hx
  rw [indexLoop]
  split
  · rename_i e he; rw [hk] at he; cases he
  rename_i ks hks
  rw [hk] at hks; cases hks
  split
  · rename_i e he; rw [hkx] at he; cases he
  rename_i k hk'
  rw [hkx] at hk'; cases hk'
  rw [hK.kcmp_ok]
  cases hq : equiv klt (key w) (key v)
  · simp [CmpOp.ofLt, hq]
  · simp only [CmpOp.ofLt, hq, Bool.not_true, hl, hx, hK.veq_ok, if_true]
    have hlen : s.keys.length = s.lists.length := by rw [h.keys_eq rfl]; simp
    have hnext : (∃ e, getItem s.keys (p + 1) = .error e ∧ getItem s.lists (p + 1) = .error e) ∨
        (∃ l', getItem s.keys (p + 1) = .ok (l'.map key) ∧ getItem s.lists (p + 1) = .ok l') := by
      cases hg : getItem s.lists (p + 1) with
      | error e =>
        have : s.lists.length ≤ p + 1 := by
          refine Nat.le_of_not_lt fun hcon => ?_
          rw [getItem_ok hcon] at hg; cases hg
        rw [getItem_error this] at hg; cases hg
        exact .inl ⟨_, by rw [h.keys_eq rfl, getItem_error (by simpa using this)], rfl⟩
      | ok l' =>
        exact .inr ⟨l', by rw [h.keys_eq rfl]; exact getItem_map hg, rfl⟩
    rw [hlen]
    have fin : ∀ nxt : Py (St α κ) Int, (do
        let r : Option Int ←
          if veq w v = true then do
            let loc ← Core.loc K.ilog2 p x
            if start ≤ (loc : Int) ∧ (loc : Int) ≤ stop then pure (some (loc : Int))
            else if (loc : Int) > stop then Py.raise .valueError
            else pure none
          else pure none
        match r with
        | some r => pure r
        | none => nxt) =
        if veq w v then do
          let loc ← Core.loc K.ilog2 p x
          if start ≤ (loc : Int) ∧ (loc : Int) ≤ stop then pure (loc : Int)
          else if (loc : Int) > stop then Py.raise .valueError
          else nxt
        else nxt := by
      intro nxt
      cases veq w v
      · rfl
      · funext t
        simp only [if_true, Py.bind_apply]
        rcases Core.loc K.ilog2 p x t with ⟨r, t'⟩
        cases r with
        | error e => rfl
        | ok n =>
          simp only
          split
          · rfl
          · split <;> rfl
    rcases hnext with ⟨e, e1, e2⟩ | ⟨l', e1, e2⟩
    · simp only [e1, e2]
      exact fin _
    · simp only [e1, e2, List.length_map]
      exact fin _

theorem indexLoop_ok (hK : K.Lawful key klt veq) {s : St α κ} (h : Inv key klt true s) (v : α) (start stop : Int)
    (m : Nat) :
    ∀ {p x n : Nat} {w : α} {l : List α} {t : St α κ}, Reindexed s t → Inv key klt true t →
    At s.lists p x n w → (Core.iter s).length - n = m →
    getItem s.lists p = .ok l →
    (∀ i y, n ≤ i → (Core.iter s)[i]? = some y → klt (key y) (key v) = false) →
    ∃ t', Reindexed s t' ∧ Inv key klt true t' ∧
    ((∃ (i : Nat) (y : α), indexLoop K s.lists s.keys v (key v) start stop p x l.length t = (.ok (i : Int), t') ∧
        n ≤ i ∧ (Core.iter s)[i]? = some y ∧ same key klt veq y v = true ∧ start ≤ i ∧ (i : Int) ≤ stop ∧
        ∀ j z, n ≤ j → start ≤ j → j < i → (Core.iter s)[j]? = some z → same key klt veq z v = false) ∨
     (indexLoop K s.lists s.keys v (key v) start stop p x l.length t = (.error .valueError, t') ∧
        ∀ (j : Nat) z, n ≤ j → start ≤ j → (j : Int) ≤ stop → (Core.iter s)[j]? = some z →
          same key klt veq z v = false)) := by
  induction m with
  | zero =>
    intro p x n w l t _ _ hat hm
    have := (List.getElem?_eq_some_iff.1 hat.getElem).1
    have e : Core.iter s = s.lists.flatten := rfl
    rw [e] at hm; omega
  | succ m ih =>
    intro p x n w l t hr ht hat hm hl hge
    obtain ⟨l', hl', hx, hnext⟩ := at_next h.ne_nil hat
    rw [hl] at hl'; cases hl'
    have hw : (Core.iter s)[n]? = some w := hat.getElem
    obtain ⟨hn, hgw⟩ := List.getElem?_eq_some_iff.1 hw
    rw [indexLoop_step hK h hl hx]
    cases hq : equiv klt (key w) (key v)
    · refine ⟨t, hr, ht, .inr ⟨rfl, fun j z hj _ _ hz => ?_⟩⟩
      simp [same, after_greater hK h hw (hge n w (Nat.le_refl _) hw) hq j z hj hz]
    simp only [if_true]
    -- going on to the next position
    have go : ∀ {t : St α κ}, Reindexed s t → Inv key klt true t → (veq w v = true → (n : Int) < start) →
        ∃ t', Reindexed s t' ∧ Inv key klt true t' ∧
        ((∃ (i : Nat) (y : α), (if x + 1 = l.length then
            if p + 1 = s.lists.length then Py.raise .valueError
            else
              match getItem s.lists (p + 1) with
              | .error e => Py.raise e
              | .ok l' => indexLoop K s.lists s.keys v (key v) start stop (p + 1) 0 l'.length
          else indexLoop K s.lists s.keys v (key v) start stop p (x + 1) l.length : Py (St α κ) Int) t
            = (.ok (i : Int), t') ∧
            n ≤ i ∧ (Core.iter s)[i]? = some y ∧ same key klt veq y v = true ∧ start ≤ i ∧ (i : Int) ≤ stop ∧
            ∀ j z, n ≤ j → start ≤ j → j < i → (Core.iter s)[j]? = some z → same key klt veq z v = false) ∨
         ((if x + 1 = l.length then
            if p + 1 = s.lists.length then Py.raise .valueError
            else
              match getItem s.lists (p + 1) with
              | .error e => Py.raise e
              | .ok l' => indexLoop K s.lists s.keys v (key v) start stop (p + 1) 0 l'.length
          else indexLoop K s.lists s.keys v (key v) start stop p (x + 1) l.length : Py (St α κ) Int) t
            = (.error .valueError, t') ∧
            ∀ (j : Nat) z, n ≤ j → start ≤ j → (j : Int) ≤ stop → (Core.iter s)[j]? = some z →
              same key klt veq z v = false)) := by
      intro t hr ht hskip'
      have hskip : ∀ (i : Nat) y, n ≤ i → start ≤ i → ¬ n + 1 ≤ i → (Core.iter s)[i]? = some y →
          same key klt veq y v = false := by
        intro i y h1 h3 h2 hy
        obtain rfl : i = n := by omega
        rw [hw] at hy; cases hy
        cases hv : veq w v
        · simp [same, hv]
        · have := hskip' hv; omega
      have rec_ : ∀ {p' x' : Nat} {w' : α} {l' : List α}, At s.lists p' x' (n + 1) w' → getItem s.lists p' = .ok l' →
          ∃ t', Reindexed s t' ∧ Inv key klt true t' ∧
          ((∃ (i : Nat) (y : α), indexLoop K s.lists s.keys v (key v) start stop p' x' l'.length t = (.ok (i : Int), t') ∧
            n ≤ i ∧ (Core.iter s)[i]? = some y ∧ same key klt veq y v = true ∧ start ≤ i ∧ (i : Int) ≤ stop ∧
            ∀ j z, n ≤ j → start ≤ j → j < i → (Core.iter s)[j]? = some z → same key klt veq z v = false) ∨
          (indexLoop K s.lists s.keys v (key v) start stop p' x' l'.length t = (.error .valueError, t') ∧
            ∀ (j : Nat) z, n ≤ j → start ≤ j → (j : Int) ≤ stop → (Core.iter s)[j]? = some z →
              same key klt veq z v = false)) := by
        intro p' x' w' l' hat' hl'
        obtain ⟨t', hr', ht', hres⟩ := ih hr ht hat' (by omega) hl' (fun i y hi hy => hge i y (by omega) hy)
        refine ⟨t', hr', ht', ?_⟩
        rcases hres with ⟨i, y, e, h1, h2, h3, h4, h5, h6⟩ | ⟨e, h1⟩
        · refine .inl ⟨i, y, e, by omega, h2, h3, h4, h5, fun j z hj1 hj2 hj3 hz => ?_⟩
          by_cases hj : n + 1 ≤ j
          · exact h6 j z hj hj2 hj3 hz
          · exact hskip j z hj1 hj2 hj hz
        · refine .inr ⟨e, fun j z hj1 hj2 hj3 hz => ?_⟩
          by_cases hj : n + 1 ≤ j
          · exact h1 j z hj hj2 hj3 hz
          · exact hskip j z hj1 hj2 hj hz
      rcases hnext with ⟨hx1, hp1, hlen⟩ | ⟨hx1, hp1, w', hat'⟩ | ⟨hx1, w', hat'⟩
      · rw [if_pos hx1, if_pos hp1]
        refine ⟨t, hr, ht, .inr ⟨rfl, fun j z hj1 hj2 hj3 hz => ?_⟩⟩
        have := (List.getElem?_eq_some_iff.1 hz).1
        have e : (Core.iter s).length = n + 1 := hlen
        exact hskip j z hj1 hj2 (by omega) hz
      · rw [if_pos hx1, if_neg hp1]
        obtain ⟨l', hl', _⟩ := hat'.getItem
        simp only [hl']
        exact rec_ hat' hl'
      · rw [if_neg hx1]
        exact rec_ hat' hl
    cases hv : veq w v
    · simp only [Bool.false_eq_true, if_false]
      exact go hr ht (by simp [hv])
    · simp only [if_true]
      obtain ⟨A, B1, B2, C, e1, e2, e3, e4⟩ := hat
      obtain ⟨t', e, hr', ht'⟩ := ht.loc hK.ilog2 (hr.lists.trans e1) x
      rw [← e2, show A.flatten.length + x = n by omega] at e
      rw [Py.bind_ok e]
      have hr'' := hr.trans hr'
      by_cases hin : start ≤ (n : Int) ∧ (n : Int) ≤ stop
      · rw [if_pos hin]
        refine ⟨t', hr'', ht', .inl ⟨n, w, rfl, Nat.le_refl _, hw, by simp [same, hq, hv], hin.1, hin.2, ?_⟩⟩
        intro j z h1 h2 h3; omega
      · rw [if_neg hin]
        by_cases hgt : (n : Int) > stop
        · rw [if_pos hgt]
          refine ⟨t', hr'', ht', .inr ⟨rfl, fun j z hj1 hj2 hj3 => ?_⟩⟩
          omega
        · rw [if_neg hgt]
          exact go hr'' ht' (fun _ => by omega)

theorem index_refines (hK : K.Lawful key klt veq) (v : α) (start stop : Option Int) :
    Refines (Inv key klt true) Core.iter (index K v start stop)
      (Spec.index (Spec.Order.ofKey key klt veq cmp) v start stop) := by
  have hpure : ∀ l, (Spec.index (Spec.Order.ofKey key klt veq cmp) v start stop l).2 = l := by
    intro l; unfold Spec.index; simp only; split <;> rfl
  refine Refines.of_query (fun s h => ?_) hpure
  unfold index
  simp only [Py.get_bind]
  have hlen : s.len = (Core.iter s).length := h.len_eq
  by_cases h0 : s.len = 0
  · rw [if_pos h0, spec_index_none]
    · exact ⟨s, rfl, Reindexed.refl s, h⟩
    · intro j y _ _ hj
      rw [List.length_eq_zero_iff.1 (hlen.symm.trans h0)] at hj
      simp at hj
  rw [if_neg h0]
  obtain ⟨b1, b2, b3, b4, b5⟩ := indexBounds_eq s.len start stop
  rcases hbd : SL.indexBounds s.len start stop with ⟨lo, hi⟩
  rw [hbd] at b1 b2 b3 b4 b5
  simp only at b1 b2 b3 b4 b5 ⊢
  rw [hlen] at b1 b3 b4 b5
  have hin : ∀ j : Nat, (j : Int) < Spec.indexBound (Core.iter s).length (Core.iter s).length stop →
      j < (Core.iter s).length → (j : Int) < hi := by intro j hj hj'; omega
  -- an index that is not returned
  have hnone : (∀ (j : Nat) y, lo ≤ j → (j : Int) < hi → (Core.iter s)[j]? = some y → same key klt veq y v = false) →
      ∀ s', Reindexed s s' → Inv key klt true s' →
      ∃ s'', ((.error PyErr.valueError, s') : Except PyErr Int × St α κ) =
        ((Spec.index (Spec.Order.ofKey key klt veq cmp) v start stop (Core.iter s)).fst, s'') ∧ Reindexed s s'' ∧
        Inv key klt true s'' := by
    intro hno s' h1 h2
    refine ⟨s', ?_, h1, h2⟩
    rw [spec_index_none]
    intro j y hj1 hj2 hj3
    exact hno j y (by omega) (hin j hj2 (List.getElem?_eq_some_iff.1 hj3).1) hj3
  by_cases hle : hi ≤ lo
  · rw [if_pos hle]
    exact hnone (fun j y h1 h2 _ => by omega) s (Reindexed.refl s) h
  rw [if_neg hle]
  simp only [hK.key_ok, Py.lift_ok_bind]
  rcases searchLeft hK h (key v) with ⟨hall, hb⟩ | ⟨A, B1, x, B2, C, hl, hb, hne, hb2, hP, hx, hQ⟩
  · rw [hb, Py.lift_ok_bind, if_pos rfl]
    exact hnone (fun j y _ _ hj => by simp [same, SL.not_equiv_of_lt (hall y (List.mem_of_getElem? hj))]) s
      (Reindexed.refl s) h
  simp only [hb, Py.lift_ok_bind, if_neg hne, h.getItem_keys hl, hb2, List.length_map]
  have e := iter_split hl
  have hPn : ∀ (i : Nat) y, i < (A.flatten ++ B1).length → (Core.iter s)[i]? = some y →
      same key klt veq y v = false := by
    intro i y hi hy
    rw [e, List.getElem?_append_left hi] at hy
    simp [same, SL.not_equiv_of_lt (hP y (List.mem_of_getElem? hy))]
  obtain ⟨t', hr', ht', hres⟩ := indexLoop_ok hK h v lo (hi - 1) _ (Reindexed.refl s) h (at_of_split hl) rfl
    (getItem_lists hl) (by
      intro i y hi hy
      rw [e, List.getElem?_append_right hi] at hy
      rcases List.mem_cons.1 (List.mem_of_getElem? hy) with rfl | hy
      · exact hx
      · exact hQ y hy)
  rcases hres with ⟨i, y, e', h1, h2, h3, h4, h5, h6⟩ | ⟨e', h1⟩
  · refine ⟨t', ?_, hr', ht'⟩
    rw [e', spec_index_some (by omega) (by omega) h2 h3]
    intro j z hj1 hj2 hz
    by_cases hj : j < (A.flatten ++ B1).length
    · exact hPn j z hj hz
    · exact h6 j z (by omega) (by omega) hj1 hz
  · rw [e']
    refine hnone (fun j z hj1 hj2 hz => ?_) t' hr' ht'
    by_cases hj : j < (A.flatten ++ B1).length
    · exact hPn j z hj hz
    · exact h1 j z (by omega) hj1 (by omega) hz

end SKL
end Verif
