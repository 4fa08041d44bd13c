import Verif.Props.CountedSets
/-!
# How much more than its values a container holds (C87)

Counted are the references and numbers that the Python lists inside the object hold.  The memory that CPython
over-allocates for lists that grow, and that of the built-in set or dict, is not modelled.
-/

namespace Verif

/-- What the Python lists inside a SortedList hold: `_lists` and its sublists, `_maxes`, `_index`
(sortedlist.py:106-112). -/
def SL.slots {α : Type} (s : St α α) : Nat :=
  s.lists.length + s.lists.flatten.length + s.maxes.length + s.index.length

/-- What the Python lists inside a SortedKeyList hold: besides these, `_keys` and its sublists (sortedlist.py:1617-1626). -/
def SKL.slots {α κ : Type} (s : St α κ) : Nat :=
  s.lists.length + s.lists.flatten.length + s.maxes.length + s.index.length + s.keys.length + s.keys.flatten.length

/-- The same for both classes. -/
def ListClass.slots {α : Type} : (c : ListClass α) → c.State → Nat
  | .plain _ => SL.slots
  | .keyed _ => SKL.slots

section Lists
variable {α κ : Type}

theorem Ready.index_length {k : α → κ} {lt : κ → κ → Bool} {keyed : Bool} {s : St α κ} (h : Ready k lt keyed s) :
    s.index.length ≤ 3 * s.lists.length := by
  by_cases he : s.index = []
  · rw [he]; exact Nat.zero_le _
  · obtain ⟨h1, _⟩ := h.inv.index_ok he
    have h2 := h1.length_eq
    rw [List.length_map] at h2
    rcases h.snug with h3 | h3
    · exact absurd h3 he
    · omega

theorem Ready.sublists {k : α → κ} {lt : κ → κ → Bool} {keyed : Bool} {s : St α κ} (h : Ready k lt keyed s) :
    s.lists.length ≤ (Core.iter s).length / max 1 (s.load / 2) + 1 ∧ (Core.iter s = [] → s.lists = []) := by
  refine ⟨?_, fun e => ?_⟩
  · by_cases hne : s.lists = []
    · rw [hne]; exact Nat.zero_le _
    · have h1 := h.inv.sublists_mul hne
      have h2 := h.inv.sublists_le
      have : s.lists.length - 1 ≤ (Core.iter s).length / max 1 (s.load / 2) := by
        rw [Nat.le_div_iff_mul_le (by omega)]
        by_cases h3 : 1 ≤ s.load / 2
        · rw [Nat.max_eq_right h3]; omega
        · rw [Nat.max_eq_left (by omega)]; omega
      omega
  · have := h.inv.sublists_le
    rw [e] at this
    exact List.eq_nil_of_length_eq_zero (by simpa using this)

/-- C87 (SortedList): besides its `n` values the list holds at most five references or numbers for each sublist, and
there is at most one sublist for each half of a load factor of values, and one more.  So it is at most
`n + 5 * (n / (load / 2) + 1)`; an empty list holds nothing. -/
theorem C87_list {E : Env α} {lt : α → α → Bool} {s : St α α} (hE : E.Lawful lt) (ht : ∀ n, 1 ≤ n → 2 ^ E.ilog2 n ≤ n)
    (hs : (SL.api E).Reachable s) :
    SL.slots s ≤ (Core.iter s).length + 5 * ((Core.iter s).length / max 1 (s.load / 2) + 1) ∧
      (Core.iter s = [] → SL.slots s = 0) := by
  have h := SL.ready hE ht hs
  have h1 := h.index_length
  obtain ⟨h2, h3⟩ := h.sublists
  have h4 := h.inv.maxes.length_eq
  have h5 : (Core.iter s).length = s.lists.flatten.length := rfl
  refine ⟨by unfold SL.slots; omega, fun e => ?_⟩
  have h6 : s.lists.length = 0 := by rw [h3 e]; rfl
  have h7 : (Core.iter s).length = 0 := by rw [e]; rfl
  unfold SL.slots; omega

/-- C87 (SortedKeyList): the same, with the key of every value and one more reference for each sublist. -/
theorem C87_key_list {K : KEnv α κ} {key : α → κ} {klt : κ → κ → Bool} {veq : α → α → Bool} {s : St α κ}
    (hK : K.Lawful key klt veq) (ht : ∀ n, 1 ≤ n → 2 ^ K.ilog2 n ≤ n) (hs : SKL.Reachable K s) :
    SKL.slots s ≤ 2 * (Core.iter s).length + 6 * ((Core.iter s).length / max 1 (s.load / 2) + 1) ∧
      (Core.iter s = [] → SKL.slots s = 0) := by
  have h := SKL.ready hK ht hs
  have h1 := h.index_length
  obtain ⟨h2, h3⟩ := h.sublists
  have h4 := h.inv.maxes.length_eq
  have h5 : (Core.iter s).length = s.lists.flatten.length := rfl
  have h6 := h.inv.keys_eq rfl
  have h7 : s.keys.length = s.lists.length := by rw [h6, List.length_map]
  have h8 : s.keys.flatten.length = s.lists.flatten.length := by rw [h6, ← List.map_flatten, List.length_map]
  refine ⟨by unfold SKL.slots; omega, fun e => ?_⟩
  have h9 : s.lists.length = 0 := by rw [h3 e]; rfl
  have h10 : (Core.iter s).length = 0 := by rw [e]; rfl
  unfold SKL.slots; omega

end Lists

section Sets
variable {α : Type} {c : ListClass α} {lt eqv : α → α → Bool}

theorem ListClass.slots_le (hc : c.Orders lt eqv) (ht : c.Tight) {l : c.State} (h : c.Reached l) :
    c.slots l ≤ c.width * (c.api.iter l).length + (c.width + 4) * ((c.api.iter l).length / max 1 (c.load l / 2) + 1) ∧
      (c.api.iter l = [] → c.slots l = 0) := by
  cases hc with
  | plain hE _ =>
    obtain ⟨h1, h2⟩ := C87_list hE ht h
    exact ⟨by rw [show ListClass.width (.plain _) = 1 from rfl, Nat.one_mul]; exact h1, h2⟩
  | keyed hK _ =>
    obtain ⟨h1, h2⟩ := C87_key_list hK ht h
    exact ⟨h1, h2⟩

/-- C87 (SortedSet): the lists inside a sorted set of `n` values hold at most `n + 5 * (n / (load / 2) + 1)` references
or numbers (`2 * n + 6 * (n / (load / 2) + 1)` with a key function). -/
theorem C87_set {τ : Type} {S : SetOps τ α} {s : SS τ c.State} (hc : c.Orders lt eqv) (ht : c.Tight) (hS : S.Lawful eqv)
    (hs : SS.Reachable S c.api s) :
    c.slots s.list ≤ c.width * SS.length S s + (c.width + 4) * (SS.length S s / max 1 (c.load s.list / 2) + 1) ∧
      (SS.length S s = 0 → c.slots s.list = 0) := by
  have h := ListClass.slots_le hc ht (SS.list_reached hs)
  obtain ⟨O, I, hg, rfl⟩ := SS.good hc hS
  have hl : SS.length S s = (c.api.iter s.list).length := (SS.reachable_inv hg hs).len hg
  rw [hl]
  exact ⟨h.1, fun e => h.2 (List.eq_nil_of_length_eq_zero e)⟩

/-- C87 (SortedDict): the lists inside a sorted dict of `n` items hold at most `n + 5 * (n / (load / 2) + 1)` references
or numbers (`2 * n + 6 * (n / (load / 2) + 1)` with a key function). -/
theorem C87_dict {ν : Type} {s : SD α ν c.State} (hc : c.Orders lt eqv) (ht : c.Tight) (he : IsEquiv eqv)
    (hs : SD.Reachable eqv c.api s) :
    c.slots s.list ≤ c.width * SD.length s + (c.width + 4) * (SD.length s / max 1 (c.load s.list / 2) + 1) ∧
      (SD.length s = 0 → c.slots s.list = 0) := by
  have h := ListClass.slots_le hc ht (SD.list_reached hs)
  obtain ⟨O, I, hg, rfl⟩ := SD.good hc he
  have hi := SD.reachable_inv hg hs
  have hl : SD.length s = (c.api.iter s.list).length := by
    rw [hi.iter, (DictSpec.sortedKeys_sort hg.order s.dict).perm.length_eq]; simp [SD.length, PyDict.keys]
  rw [hl]
  exact ⟨h.1, fun e => h.2 (List.eq_nil_of_length_eq_zero e)⟩

end Sets

/-! ## The hypotheses are met -/

section Examples
open Demo

example := C87_list intEnv_lawful intClass_tight sl_reachable
example := C87_key_list tensEnv_lawful tensClass_tight skl_reachable
example := C87_set tensClass_orders tensClass_tight (iset_lawful true) set2_reachable
example := C87_dict intClass_orders intClass_tight ieqv_equiv dict1_reachable

/-- Eight values in six sublists: 33 of at most 48. -/
example : SL.slots sl = 33 ∧ (Core.iter sl).length = 8 ∧ sl.load = 1 := by decide +kernel

end Examples
end Verif
