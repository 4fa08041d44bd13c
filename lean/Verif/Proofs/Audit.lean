import Verif.Proofs.Check
import Verif.Model.API
/-!
# The self-audit is sound: a state that passes `_check` satisfies the invariant (but for the shape of the index)
-/

namespace Verif
variable {α κ : Type} {k : α → κ} {lt : κ → κ → Bool} {keyed : Bool}
open SL (assert assertE allE checkSorted checkIndex)
open Tree (getD_eq getD_of_le)

theorem bind_ok_inv {β γ : Type} {x : Except PyErr β} {f : β → Except PyErr γ} {c : γ} (h : (x >>= f) = .ok c) :
    ∃ b, x = .ok b ∧ f b = .ok c := by
  cases x with
  | error e => cases h
  | ok b => exact ⟨b, rfl, h⟩

theorem allE_inv {β : Type} {f : β → Except PyErr Unit} {bs : List β} (h : allE f bs = .ok ()) :
    ∀ b ∈ bs, f b = .ok () := by
  induction bs with
  | nil => intro b hb; cases hb
  | cons b bs ih =>
    obtain ⟨_, h1, h2⟩ := bind_ok_inv h
    intro c hc
    rcases List.mem_cons.1 hc with rfl | hc
    · exact h1
    · exact ih h2 c hc

theorem assert_inv {b : Bool} (h : assert b = .ok ()) : b = true := by
  cases b with
  | true => rfl
  | false => cases h

theorem assertE_inv {x : Except PyErr Bool} (h : assertE x = .ok ()) : x = .ok true := by
  obtain ⟨b, h1, h2⟩ := bind_ok_inv h
  rw [h1, assert_inv h2]

theorem lastItem_inv {l : List α} {a : α} (h : lastItem l = .ok a) : l.getLast? = some a := by
  unfold lastItem at h
  split at h
  · rename_i b e; cases h; exact e
  · cases h

/-- A list in which neighbours are in order is sorted. -/
theorem sorted_of_steps (ho : StrictWeakOrder lt) {l : List κ}
    (h : ∀ i, (hi : i + 1 < l.length) → lt l[i + 1] (l[i]'(by omega)) = false) : Sorted lt l := by
  refine List.pairwise_iff_getElem.2 fun i j hi hj hij => ?_
  induction j with
  | zero => omega
  | succ j ih =>
    have h1 := h j hj
    by_cases e : i = j
    · subst e; exact h1
    · have h2 := ih (by omega) (by omega)
      exact ho.negtrans _ _ _ h1 h2

theorem checkSorted_inv (ho : StrictWeakOrder lt) {cmp : CmpOp → κ → κ → Except PyErr Bool}
    (hcmp : ∀ a b, cmp .le a b = .ok (!lt b a)) {l : List κ} (h : checkSorted cmp l = .ok ()) : Sorted lt l := by
  refine sorted_of_steps ho fun i hi => ?_
  have := allE_inv h (i + 1) (mem_natRange.2 ⟨by omega, hi⟩)
  rw [getItem_ok (show i + 1 - 1 < l.length by omega), getItem_ok hi] at this
  have := assertE_inv (x := cmp .le _ _) this
  rw [hcmp] at this
  simpa using this

/-- What `_check` says about the sublists, when `keys` is the table it looks at. -/
theorem lists_sorted (ho : StrictWeakOrder lt) {L : List (List κ)} (hne : ∀ l ∈ L, l ≠ [])
    (h1 : ∀ l ∈ L, Sorted lt l)
    (h2 : ∀ i, (hi : i + 1 < L.length) → ∃ a b, (L[i]'(by omega)).getLast? = some a ∧ L[i + 1][0]? = some b ∧ lt b a = false) :
    Sorted lt L.flatten := by
  induction L with
  | nil => exact .nil
  | cons l L ih =>
    rw [List.flatten_cons]
    have ih := ih (fun l hl => hne l (by simp [hl])) (fun l hl => h1 l (by simp [hl]))
      (fun i hi => by
        have := h2 (i + 1) (by simpa using hi)
        simpa using this)
    refine List.pairwise_append.2 ⟨h1 l (by simp), ih, fun a ha b hb => ?_⟩
    cases L with
    | nil => simp at hb
    | cons m L =>
      obtain ⟨x, y, hx, hy, hxy⟩ := h2 0 (by simp)
      simp only [List.getElem_cons_zero, List.getElem_cons_succ] at hx hy
      have hl : lt x a = false := by
        rw [List.getLast?_eq_some_iff] at hx
        obtain ⟨l', rfl⟩ := hx
        rcases List.mem_append.1 ha with ha | ha
        · exact (List.pairwise_append.1 (h1 _ List.mem_cons_self)).2.2 a ha x (by simp)
        · rw [List.mem_singleton.1 ha]; exact ho.irrefl x
      have hm : lt b y = false := by
        cases m with
        | nil => simp at hy
        | cons c m =>
          simp only [List.getElem?_cons_zero, Option.some.injEq] at hy
          subst hy
          rw [List.flatten_cons, List.cons_append] at hb ih
          rcases List.mem_cons.1 hb with rfl | hb
          · exact ho.irrefl _
          · exact List.rel_of_pairwise_cons ih hb
      exact ho.negtrans _ _ _ hm (ho.negtrans _ _ _ hxy hl)

/-- The shape of the positional index: a power of two of leaf places, enough of them for the sublists, of which there
is more than one.  This `_check` does not look at. -/
def IndexShape (s : St α κ) : Prop :=
  s.index = [] ∨ (2 ≤ s.lists.length ∧ s.lists.length ≤ s.offset + 1 ∧ ∃ d, s.offset + 1 = 2 ^ d)

theorem checkIndex_inv {s : St α κ} (hs : IndexShape s) (h : checkIndex s = .ok ()) (hix : s.index ≠ []) :
    TreeOK s.index s.offset (s.lists.map List.length) ∧ 2 ≤ s.lists.length := by
  rcases hs with hs | ⟨h2, hfit, hd⟩
  · exact absurd hs hix
  unfold checkIndex at h
  rw [if_neg hix] at h
  obtain ⟨root, -, h⟩ := bind_ok_inv h
  obtain ⟨_, -, h⟩ := bind_ok_inv h
  obtain ⟨_, hlen, h⟩ := bind_ok_inv h
  obtain ⟨_, hleaf, hnode⟩ := bind_ok_inv h
  have hlen : s.index.length = s.offset + s.lists.length := by simpa using assert_inv hlen
  refine ⟨⟨hd, by simpa using hfit, by simpa using hlen, fun i => ?_, fun i hi => ?_⟩, h2⟩
  · by_cases hi : i < s.lists.length
    · have := allE_inv hleaf i (mem_natRange.2 ⟨by omega, hi⟩)
      rw [getItem_ok (show s.offset + i < s.index.length by omega), getItem_ok hi] at this
      have := assert_inv this
      rw [getD_eq (by omega), getD_eq (by simpa using hi)]
      simpa using this
    · rw [getD_of_le (by omega), getD_of_le (by simp; omega)]
  · have := allE_inv hnode i (mem_natRange.2 ⟨by omega, hi⟩)
    rw [getItem_ok (show i < s.index.length by omega)] at this
    change (if i * 2 + 1 ≥ s.index.length then _ else _) = _ at this
    rw [show 2 * i + 1 = i * 2 + 1 by omega, show 2 * i + 2 = i * 2 + 1 + 1 by omega, getD_eq (by omega)]
    split at this
    · rename_i c
      rw [getD_of_le c, getD_of_le (by omega)]
      simpa using assert_inv this
    · rename_i c
      split at this
      · rename_i c2
        rw [getItem_ok (by omega)] at this
        rw [getD_eq (by omega), getD_of_le (by omega)]
        simpa using assert_inv this
      · rename_i c2
        rw [getItem_ok (by omega), getItem_ok (by omega)] at this
        rw [getD_eq (by omega), getD_eq (by omega)]
        have := assert_inv this
        simp only [beq_iff_eq] at this
        exact this.symm

theorem bounds_inv {s : St α κ} (h : allE (fun pos => do
      let l ← getItem s.lists pos
      assert (l.length ≥ s.load / 2)) (Core.natRange 0 (s.lists.length - 1)) = .ok ()) :
    ∀ l ∈ s.lists.dropLast, s.load / 2 ≤ l.length := by
  intro l hl
  obtain ⟨i, hi, rfl⟩ := List.mem_iff_getElem.1 hl
  simp only [List.length_dropLast] at hi
  have := allE_inv h i (mem_natRange.2 ⟨by omega, hi⟩)
  rw [getItem_ok (show i < s.lists.length by omega)] at this
  simpa using assert_inv this

/-- `_maxes` as `_check` sees it. -/
theorem maxes_inv {cmp : CmpOp → κ → κ → Except PyErr Bool} (hcmp : ∀ a b, cmp .eq a b = .ok true → a = b)
    {L : List (List κ)} {maxes : List κ} (hlen : maxes.length = L.length)
    (h : allE (fun pos => do
      let m ← getItem maxes pos
      let l ← getItem L pos
      let x ← lastItem l
      assertE (cmp .eq m x)) (Core.natRange 0 maxes.length) = .ok ()) :
    MaxesOK id L maxes ∧ ∀ l ∈ L, l ≠ [] := by
  have key : ∀ i, (hi : i < L.length) → ∃ x, L[i].getLast? = some x ∧ maxes[i]? = some x := by
    intro i hi
    have := allE_inv h i (mem_natRange.2 ⟨by omega, by omega⟩)
    rw [getItem_ok (show i < maxes.length by omega), getItem_ok hi] at this
    obtain ⟨x, hx, h'⟩ := bind_ok_inv (x := lastItem L[i]) this
    refine ⟨x, lastItem_inv hx, ?_⟩
    rw [List.getElem?_eq_getElem (by omega), hcmp _ _ (assertE_inv h')]
  refine ⟨?_, fun l hl e => ?_⟩
  · unfold MaxesOK
    apply List.ext_getElem?
    intro i
    by_cases hi : i < L.length
    · obtain ⟨x, hx, hm⟩ := key i hi
      simp [hm, hx, List.getElem?_eq_getElem hi]
    · rw [List.getElem?_eq_none (by simp; omega), List.getElem?_eq_none (by simp; omega)]
  · obtain ⟨i, hi, rfl⟩ := List.mem_iff_getElem.1 hl
    obtain ⟨x, hx, -⟩ := key i hi
    rw [e] at hx; cases hx

theorem joints_inv {cmp : CmpOp → κ → κ → Except PyErr Bool} (hcmp : ∀ a b, cmp .le a b = .ok (!lt b a))
    {L : List (List κ)}
    (h : allE (fun pos => do
      let p ← getItem L (pos - 1)
      let a ← lastItem p
      let q ← getItem L pos
      let b ← getItem q 0
      assertE (cmp .le a b)) (Core.natRange 1 L.length) = .ok ()) (i : Nat) (hi : i + 1 < L.length) :
    ∃ a b, (L[i]'(by omega)).getLast? = some a ∧ L[i + 1][0]? = some b ∧ lt b a = false := by
  have := allE_inv h (i + 1) (mem_natRange.2 ⟨by omega, hi⟩)
  rw [getItem_ok (show i + 1 - 1 < L.length by omega)] at this
  obtain ⟨a, ha, this⟩ := bind_ok_inv (x := lastItem _) this
  rw [getItem_ok hi] at this
  obtain ⟨b, hb, this⟩ := bind_ok_inv (x := getItem _ 0) this
  have := assertE_inv this
  rw [hcmp] at this
  exact ⟨a, b, by simpa using lastItem_inv ha, getItem_ok_iff.1 hb, by simpa using this⟩

/-- A SortedList that passes `_check` satisfies the invariant. -/
theorem SL.check_sound {E : Env α} {lt : α → α → Bool} (hE : E.Lawful lt)
    (heq : ∀ a b, E.cmp .eq a b = .ok true → a = b) {s : St α α} (hs : IndexShape s)
    (h : SL.check E s = .ok ()) : Inv id lt false s := by
  unfold SL.check at h
  obtain ⟨_, h1, h⟩ := bind_ok_inv h
  obtain ⟨_, h2, h⟩ := bind_ok_inv h
  obtain ⟨_, h3, h⟩ := bind_ok_inv h
  obtain ⟨_, h4, h⟩ := bind_ok_inv h
  obtain ⟨_, h5, h⟩ := bind_ok_inv h
  obtain ⟨_, h6, h⟩ := bind_ok_inv h
  obtain ⟨_, h7, h⟩ := bind_ok_inv h
  obtain ⟨_, h8, h9⟩ := bind_ok_inv h
  have hle : ∀ a b, E.cmp .le a b = .ok (!lt b a) := fun a b => hE.cmp .le a b
  have h1 : 4 ≤ s.load := by simpa using assert_inv h1
  obtain ⟨hm, hne⟩ := maxes_inv heq (by simpa using assert_inv h2) h6
  exact {
    load_pos := by omega
    len_eq := by rw [length_flatten_eq]; simpa using assert_inv h3
    ne_nil := hne
    sorted := lists_sorted hE.order hne (fun l hl => checkSorted_inv hE.order hle (allE_inv h4 l hl)) (joints_inv hle h5)
    maxes := hm
    upper := by simpa using assert_inv h7
    lower := bounds_inv h8
    index_ok := checkIndex_inv hs h9
    keys_eq := fun e => by cases e }

/-- A SortedKeyList that passes `_check` satisfies the invariant. -/
theorem SKL.check_sound {K : KEnv α κ} {key : α → κ} {klt : κ → κ → Bool} {veq : α → α → Bool}
    (hK : K.Lawful key klt veq) (heq : ∀ a b, K.kcmp .eq a b = .ok true → a = b) {s : St α κ}
    (hs : IndexShape s) (h : SKL.check K s = .ok ()) : Inv key klt true s := by
  unfold SKL.check at h
  obtain ⟨_, h1, h⟩ := bind_ok_inv h
  obtain ⟨_, h2, h⟩ := bind_ok_inv h
  obtain ⟨_, h3, h⟩ := bind_ok_inv h
  obtain ⟨_, h4, h⟩ := bind_ok_inv h
  obtain ⟨_, h5, h⟩ := bind_ok_inv h
  obtain ⟨_, h5', h⟩ := bind_ok_inv h
  obtain ⟨_, h6, h⟩ := bind_ok_inv h
  obtain ⟨_, h7, h⟩ := bind_ok_inv h
  obtain ⟨_, h8, h9⟩ := bind_ok_inv h
  have hle : ∀ a b, K.kcmp .le a b = .ok (!klt b a) := fun a b => hK.kcmp_ok .le a b
  have h1 : 4 ≤ s.load := by simpa using assert_inv h1
  have h2 := assert_inv h2
  simp only [Bool.and_eq_true, beq_iff_eq] at h2
  have hkeys : s.keys = s.lists.map (List.map key) := by
    apply List.ext_getElem
    · simp [h2.2]
    · intro i hi hi'
      simp only [List.length_map] at hi'
      have := allE_inv h5' (s.lists[i], s.keys[i]) (List.mem_iff_getElem.2 ⟨i, by simp; omega, by simp⟩)
      obtain ⟨_, ha, hb⟩ := bind_ok_inv this
      have ha : s.lists[i].length = s.keys[i].length := by simpa using assert_inv ha
      rw [List.getElem_map]
      apply List.ext_getElem
      · simp [ha]
      · intro j hj hj'
        simp only [List.length_map] at hj'
        have := allE_inv hb (s.lists[i][j], s.keys[i][j]) (List.mem_iff_getElem.2 ⟨j, by simp; omega, by simp⟩)
        rw [hK.key_ok] at this
        have := heq _ _ (assertE_inv (x := K.kcmp .eq _ _) this)
        simpa using this.symm
  obtain ⟨hm, hne⟩ := maxes_inv heq (by omega) h6
  have hne' : ∀ l ∈ s.lists, l ≠ [] := by
    intro l hl e
    exact hne (l.map key) (by rw [hkeys]; exact List.mem_map_of_mem hl) (by simp [e])
  have hsort := lists_sorted hK.order hne (fun l hl => checkSorted_inv hK.order hle (allE_inv h4 l hl)) (joints_inv hle h5)
  exact {
    load_pos := by omega
    len_eq := by rw [length_flatten_eq]; simpa using assert_inv h3
    ne_nil := hne'
    sorted := by
      rw [hkeys, ← List.map_flatten] at hsort
      exact List.pairwise_map.1 hsort
    maxes := by
      unfold MaxesOK at hm ⊢
      rw [hkeys] at hm
      simpa [List.getLast?_map, Function.comp_def] using hm
    upper := by simpa using assert_inv h7
    lower := bounds_inv h8
    index_ok := checkIndex_inv hs h9
    keys_eq := fun _ => hkeys }

/-- `==` on what the lists of the class compare (values, or keys) means identity. -/
def ListClass.Exact {α : Type} : ListClass α → Prop
  | .plain E => ∀ a b, E.cmp .eq a b = .ok true → a = b
  | .keyed K => ∀ a b, K.kcmp .eq a b = .ok true → a = b

/-- `IndexShape` for a list of the class. -/
def ListClass.IndexShape {α : Type} : (c : ListClass α) → c.State → Prop
  | .plain _ => Verif.IndexShape
  | .keyed _ => Verif.IndexShape

theorem ListClass.check_sound {α : Type} {c : ListClass α} {lt eqv : α → α → Bool} (hc : c.Orders lt eqv) (hx : c.Exact) :
    ∃ O I, c.api.Lawful O I ∧ O.lt = lt ∧ (∀ a b, O.same a b = eqv a b) ∧
      ∀ s, c.IndexShape s → c.check s = .ok () → I s := by
  cases hc with
  | plain hE he =>
    exact ⟨_, _, SL.api_lawful hE, rfl, fun a b => (he a b).symm, fun s hi hl => SL.check_sound hE hx hi hl⟩
  | keyed hK heq =>
    exact ⟨_, _, SKL.api_lawful hK, rfl, fun a b => by
      show (equiv _ _ _ && _) = _
      rcases Bool.eq_false_or_eq_true (eqv a b) with h | h
      · rw [h, heq a b h]; rfl
      · rw [h]; simp, fun s hi hl => SKL.check_sound hK hx hi hl⟩

/-- Two lists of the same length without repetitions, one contained in the other, are rearrangements of each other. -/
theorem perm_of_subset {l r : List α} (hl : l.Nodup) (hs : ∀ x ∈ l, x ∈ r) (he : r.length ≤ l.length) : r.Perm l := by
  induction l generalizing r with
  | nil => rw [List.length_nil, Nat.le_zero] at he; rw [List.length_eq_zero_iff.1 he]
  | cons a l ih =>
    obtain ⟨A, B, rfl⟩ := List.append_of_mem (hs a (by simp))
    have : (A ++ B).Perm l := by
      refine ih (List.nodup_cons.1 hl).2 (fun x hx => ?_) (by simp at he ⊢; omega)
      have h1 := hs x (by simp [hx])
      have h2 : x ≠ a := fun e => (List.nodup_cons.1 hl).1 (e ▸ hx)
      simp only [List.mem_append, List.mem_cons] at h1 ⊢
      rcases h1 with h1 | h1 | h1
      · exact .inl h1
      · exact absurd h1 h2
      · exact .inr h1
    exact List.perm_middle.trans (this.cons a)

end Verif
