import Verif.Proofs.API
/-!
# The self-audit `_check` succeeds in every state that satisfies the invariant
-/

namespace Verif
variable {α κ : Type} {k : α → κ} {lt : κ → κ → Bool} {keyed : Bool}
open SL (assert assertE allE checkSorted checkIndex)
open Tree (getD_eq getD_of_le)

theorem allE_ok {β : Type} {f : β → Except PyErr Unit} {bs : List β} (h : ∀ b ∈ bs, f b = .ok ()) :
    allE f bs = .ok () := by
  induction bs with
  | nil => rfl
  | cons b bs ih =>
    simp only [allE]
    rw [h b (by simp), show (Except.ok () >>= fun _ => allE f bs) = allE f bs from rfl]
    exact ih fun c hc => h c (by simp [hc])

theorem assert_ok {b : Bool} (h : b = true) : assert b = .ok () := by simp [assert, h]

theorem mem_natRange {a b x : Nat} : x ∈ Core.natRange a b ↔ a ≤ x ∧ x < b := by
  simp only [Core.natRange, List.mem_range']
  constructor
  · rintro ⟨i, hi, rfl⟩; omega
  · rintro ⟨h1, h2⟩; exact ⟨x - a, by omega, by omega⟩

theorem pairwise_getElem {r : α → α → Prop} {l : List α} (h : l.Pairwise r) {i j : Nat} (hij : i < j)
    (hj : j < l.length) : r (l[i]'(by omega)) l[j] :=
  List.pairwise_iff_getElem.1 h i j (by omega) hj hij

theorem checkSorted_ok {cmp : CmpOp → κ → κ → Except PyErr Bool} (hcmp : ∀ a b, cmp .le a b = .ok (!lt b a))
    {l : List κ} (h : Sorted lt l) : checkSorted cmp l = .ok () := by
  unfold checkSorted
  refine allE_ok fun pos hpos => ?_
  rw [mem_natRange] at hpos
  rw [getItem_ok (show pos - 1 < l.length by omega), getItem_ok hpos.2]
  show assertE (cmp .le _ _) = _
  rw [hcmp]
  have := pairwise_getElem h (show pos - 1 < pos by omega) hpos.2
  exact assert_ok (by rw [this]; rfl)

theorem checkIndex_ok {s : St α κ} (h : Inv k lt keyed s) : checkIndex s = .ok () := by
  unfold checkIndex
  split
  · rfl
  · rename_i hix
    obtain ⟨ht, h2⟩ := h.index_ok hix
    have hlen := ht.length_eq
    rw [List.length_map] at hlen
    have hroot := ht.root_eq
    have h0 : 0 < s.index.length := List.length_pos_iff.2 hix
    rw [getD_eq h0] at hroot
    rw [getItem_ok h0]
    show (assert (s.len == s.index[0]) >>= _) = _
    rw [assert_ok (by rw [hroot, h.len_eq, length_flatten_eq]; simp)]
    show (assert (s.index.length == s.offset + s.lists.length) >>= _) = _
    rw [assert_ok (by rw [hlen]; simp)]
    show (allE _ _ >>= _) = _
    rw [allE_ok]
    · show allE _ _ = _
      refine allE_ok fun pos hpos => ?_
      rw [mem_natRange] at hpos
      have hnode := ht.node pos hpos.2
      have hp : pos < s.index.length := by omega
      rw [getD_eq hp] at hnode
      rw [getItem_ok hp]
      show (if pos * 2 + 1 ≥ s.index.length then _ else _) = _
      have e1 : 2 * pos + 1 = pos * 2 + 1 := by omega
      have e2 : 2 * pos + 2 = pos * 2 + 1 + 1 := by omega
      rw [e1, e2] at hnode
      by_cases c1 : pos * 2 + 1 ≥ s.index.length
      · rw [if_pos c1]
        rw [getD_of_le c1, getD_of_le (by omega)] at hnode
        exact assert_ok (by rw [hnode]; rfl)
      · rw [if_neg c1]
        rw [getD_eq (by omega)] at hnode
        by_cases c2 : pos * 2 + 1 + 1 = s.index.length
        · rw [if_pos c2, getItem_ok (by omega)]
          rw [getD_of_le (by omega)] at hnode
          exact assert_ok (by rw [hnode]; simp)
        · rw [if_neg c2, getItem_ok (by omega), getItem_ok (by omega)]
          rw [getD_eq (by omega)] at hnode
          exact assert_ok (by rw [hnode]; simp)
    · intro pos hpos
      rw [mem_natRange] at hpos
      have hleaf := ht.leaf pos
      rw [getD_eq (by omega)] at hleaf
      rw [getItem_ok (by omega), getItem_ok hpos.2]
      refine assert_ok ?_
      rw [hleaf]
      simp [List.getD_eq_getElem?_getD, hpos.2]

theorem Inv.sublist_sorted {s : St α κ} (h : Inv k lt keyed s) {l : List α} (hl : l ∈ s.lists) :
    Sorted (fun a b => lt (k a) (k b)) l :=
  (List.pairwise_flatten.1 h.sorted).1 l hl

theorem Inv.bounds_ok {s : St α κ} (h : Inv k lt keyed s) :
    (s.lists.all fun l => l.length ≤ s.load * 2) = true ∧
    allE (fun pos => do
      let l ← getItem s.lists pos
      assert (l.length ≥ s.load / 2)) (Core.natRange 0 (s.lists.length - 1)) = .ok () := by
  constructor
  · rw [List.all_eq_true]
    intro l hl
    exact decide_eq_true (h.upper l hl)
  · refine allE_ok fun pos hpos => ?_
    rw [mem_natRange] at hpos
    rw [getItem_ok (by omega)]
    refine assert_ok (decide_eq_true (h.lower _ ?_))
    rw [List.mem_iff_getElem]
    exact ⟨pos, by simpa using hpos.2, by simp⟩

/-- The entry of `_maxes` for a sublist is its last entry. -/
theorem Inv.max_eq {s : St α κ} (h : Inv k lt keyed s) {pos : Nat} (hp : pos < s.lists.length) :
    ∃ x, (s.lists[pos]).getLast? = some x ∧ s.maxes[pos]? = some (k x) := by
  have hm := h.maxes.length_eq
  have e := congrArg (·[pos]?) h.maxes
  simp only [List.getElem?_map, List.getElem?_eq_getElem hp, Option.map_some,
    List.getElem?_eq_getElem (show pos < s.maxes.length by omega), Option.some.injEq] at e
  obtain ⟨x, hx, hx'⟩ := Option.map_eq_some_iff.1 e.symm
  exact ⟨x, hx, by rw [List.getElem?_eq_getElem (by omega), hx']⟩

theorem Inv.ne_nil' {s : St α κ} (h : Inv k lt keyed s) {pos : Nat} (hp : pos < s.lists.length) :
    s.lists[pos] ≠ [] := h.ne_nil _ (List.getElem_mem hp)

theorem Inv.joints {s : St α κ} (h : Inv k lt keyed s) {pos : Nat} (hp : pos < s.lists.length) (h1 : 1 ≤ pos) :
    lt (k (s.lists[pos].head (h.ne_nil' hp)))
      (k ((s.lists[pos - 1]'(by omega)).getLast (h.ne_nil' (by omega)))) = false :=
  pairwise_getElem (List.pairwise_flatten.1 h.sorted).2 (show pos - 1 < pos by omega) hp _
    (List.getLast_mem _) _ (List.head_mem _)

theorem getItem_zero {l : List α} (h : l ≠ []) : getItem l 0 = .ok (l.head h) := by
  cases l with
  | nil => exact absurd rfl h
  | cons a l => rfl

theorem SL.check_ok {E : Env α} {lt : α → α → Bool} (hE : E.Lawful lt) {s : St α α} (h : Inv id lt false s)
    (h4 : 4 ≤ s.load) : SL.check E s = .ok () := by
  unfold SL.check
  have hle : ∀ a b, E.cmp .le a b = .ok (!lt b a) := fun a b => hE.cmp .le a b
  have e1 : assert (s.load ≥ 4) = .ok () := assert_ok (decide_eq_true h4)
  have e2 : assert (s.maxes.length == s.lists.length) = .ok () := assert_ok (by rw [h.maxes.length_eq]; simp)
  have e3 : assert (s.len == (s.lists.map List.length).sum) = .ok () :=
    assert_ok (by rw [h.len_eq, length_flatten_eq]; simp)
  have e4 : allE (checkSorted E.cmp) s.lists = .ok () :=
    allE_ok fun l hl => checkSorted_ok hle (h.sublist_sorted hl)
  have e5 : allE (fun pos => do
    let p ← getItem s.lists (pos - 1)
    let a ← lastItem p
    let q ← getItem s.lists pos
    let b ← getItem q 0
    assertE (E.cmp .le a b)) (Core.natRange 1 s.lists.length) = .ok () := by
    refine allE_ok fun pos hpos => ?_
    rw [mem_natRange] at hpos
    rw [getItem_ok (show pos - 1 < s.lists.length by omega), getItem_ok hpos.2]
    show (lastItem _ >>= _) = _
    rw [lastItem_ok (h.ne_nil' (by omega))]
    show (getItem _ 0 >>= _) = _
    rw [getItem_zero (h.ne_nil' hpos.2)]
    show assertE (E.cmp .le _ _) = _
    rw [hle]
    have hj := h.joints hpos.2 hpos.1
    simp only [id] at hj
    exact assert_ok (by rw [hj]; rfl)
  have e6 : allE (fun pos => do
    let m ← getItem s.maxes pos
    let l ← getItem s.lists pos
    let x ← lastItem l
    assertE (E.cmp .eq m x)) (Core.natRange 0 s.maxes.length) = .ok () := by
    refine allE_ok fun pos hpos => ?_
    rw [mem_natRange, h.maxes.length_eq] at hpos
    obtain ⟨x, hx, hm⟩ := h.max_eq hpos.2
    rw [getItem_ok_iff.2 hm, getItem_ok hpos.2]
    show (lastItem _ >>= _) = _
    rw [lastItem_of_getLast? hx]
    show assertE (E.cmp .eq _ _) = _
    rw [hE.cmp]
    exact assert_ok (hE.order.equiv_refl x)
  have e7 : assert (s.lists.all fun l => l.length ≤ s.load * 2) = .ok () := assert_ok h.bounds_ok.1
  rw [e1, e2, e3, e4, e5, e6, e7, h.bounds_ok.2]
  exact checkIndex_ok h

theorem SKL.check_ok {K : KEnv α κ} {key : α → κ} {klt : κ → κ → Bool} {veq : α → α → Bool}
    (hK : K.Lawful key klt veq) {s : St α κ} (h : Inv key klt true s)
    (h4 : 4 ≤ s.load) : SKL.check K s = .ok () := by
  unfold SKL.check
  have hkeys := h.keys_eq rfl
  have hle : ∀ a b, K.kcmp .le a b = .ok (!klt b a) := fun a b => hK.kcmp_ok .le a b
  have e1 : assert (s.load ≥ 4) = .ok () := assert_ok (decide_eq_true h4)
  have e2 : assert (s.maxes.length == s.lists.length && s.lists.length == s.keys.length) = .ok () :=
    assert_ok (by rw [h.maxes.length_eq, hkeys]; simp)
  have e3 : assert (s.len == (s.lists.map List.length).sum) = .ok () :=
    assert_ok (by rw [h.len_eq, length_flatten_eq]; simp)
  have e4 : allE (checkSorted K.kcmp) s.keys = .ok () := by
    refine allE_ok fun l hl => checkSorted_ok hle ?_
    rw [hkeys] at hl
    obtain ⟨l', hl', rfl⟩ := List.mem_map.1 hl
    exact List.pairwise_map.2 (h.sublist_sorted hl')
  have e5 : allE (fun pos => do
    let p ← getItem s.keys (pos - 1)
    let a ← lastItem p
    let q ← getItem s.keys pos
    let b ← getItem q 0
    assertE (K.kcmp .le a b)) (Core.natRange 1 s.keys.length) = .ok () := by
    refine allE_ok fun pos hpos => ?_
    rw [mem_natRange, hkeys, List.length_map] at hpos
    rw [hkeys, getItem_ok (show pos - 1 < (s.lists.map (List.map key)).length by simp; omega),
      getItem_ok (show pos < (s.lists.map (List.map key)).length by simpa using hpos.2)]
    simp only [List.getElem_map]
    show (lastItem _ >>= _) = _
    rw [lastItem_ok (by simpa using h.ne_nil' (show pos - 1 < s.lists.length by omega))]
    show (getItem _ 0 >>= _) = _
    rw [getItem_zero (by simpa using h.ne_nil' hpos.2)]
    show assertE (K.kcmp .le _ _) = _
    rw [hle, List.getLast_map, List.head_map]
    exact assert_ok (by rw [h.joints hpos.2 hpos.1]; rfl)
  have e5' : allE (fun (p : List α × List κ) => do
    assert (p.1.length == p.2.length)
    allE (fun (q : α × κ) => do
      let k ← K.key q.1
      assertE (K.kcmp .eq k q.2)) (p.1.zip p.2)) (s.lists.zip s.keys) = .ok () := by
    refine allE_ok fun p hp => ?_
    rw [hkeys, List.zip_map_right] at hp
    obtain ⟨⟨l, l'⟩, hl, rfl⟩ := List.mem_map.1 hp
    have : l = l' := by
      obtain ⟨i, hi, e⟩ := List.mem_iff_getElem.1 hl
      simp only [List.getElem_zip, Prod.mk.injEq] at e
      rw [← e.1, ← e.2]
    subst this
    simp only [Prod.map, id]
    rw [assert_ok (by simp)]
    show allE _ _ = _
    refine allE_ok fun q hq => ?_
    rw [List.zip_map_right] at hq
    obtain ⟨⟨a, b⟩, hab, rfl⟩ := List.mem_map.1 hq
    have : a = b := by
      obtain ⟨i, hi, e⟩ := List.mem_iff_getElem.1 hab
      simp only [List.getElem_zip, Prod.mk.injEq] at e
      rw [← e.1, ← e.2]
    subst this
    simp only [Prod.map, id]
    rw [hK.key_ok]
    show assertE (K.kcmp .eq _ _) = _
    rw [hK.kcmp_ok]
    exact assert_ok (hK.order.equiv_refl _)
  have e6 : allE (fun pos => do
    let m ← getItem s.maxes pos
    let l ← getItem s.keys pos
    let x ← lastItem l
    assertE (K.kcmp .eq m x)) (Core.natRange 0 s.maxes.length) = .ok () := by
    refine allE_ok fun pos hpos => ?_
    rw [mem_natRange, h.maxes.length_eq] at hpos
    obtain ⟨x, hx, hm⟩ := h.max_eq hpos.2
    rw [getItem_ok_iff.2 hm, hkeys, getItem_ok (by simpa using hpos.2)]
    show (lastItem _ >>= _) = _
    rw [lastItem_of_getLast? (by simp only [List.getElem_map, List.getLast?_map, hx]; rfl)]
    show assertE (K.kcmp .eq _ _) = _
    rw [hK.kcmp_ok]
    exact assert_ok (hK.order.equiv_refl _)
  have e7 : assert (s.lists.all fun l => l.length ≤ s.load * 2) = .ok () := assert_ok h.bounds_ok.1
  rw [e1, e2, e3, e4, e5, e5', e6, e7, h.bounds_ok.2]
  exact checkIndex_ok h

end Verif
