import Verif.Proofs.CountedSize
import Verif.Props.Demo
/-!
# How many comparisons and index steps the methods take (C51)

The programs of `Model/Counted.lean` are those of the model, run with a meter that counts the calls of a comparison
operator (`cmp`), the calls of the key function (`key`), the nodes of the positional index visited (`node`) and the
entries of a new positional index (`built`).  `Metered mc m s b` says that from the object `s` the metered program does
exactly what the program does, and that its reading, started at zero, satisfies `b`.

`n` is always the number of values; the bounds hold for every load factor.
-/

namespace Verif

/-- From `s`, the metered program `mc` has the outcome of `m` and leaves the object that `m` leaves, and the reading
satisfies `b`. -/
def Metered {σ β : Type} (mc : CPy σ β) (m : Py σ β) (s : σ) (b : Calls → Prop) : Prop :=
  (mc (s, {})).1 = (m s).1 ∧ (mc (s, {})).2.1 = (m s).2 ∧ b (mc (s, {})).2.2

theorem Counts.metered {σ β : Type} {mc : CPy σ β} {m : Py σ β} {s : σ} {B : Calls} (h : Counts B mc m s) {b : Calls → Prop}
    (hb : ∀ c, c ≤ B → b c) : Metered mc m s b := by
  obtain ⟨d, hd, e⟩ := h {}
  have : ({} : Calls) + d = d := Calls.zero_add d
  rw [this] at e
  refine ⟨by rw [e], by rw [e], ?_⟩
  rw [e]
  exact hb d hd

/-- C51: a binary search of `a` makes at most `floor(log2(len(a))) + 1` comparisons, and none if `a` is empty. -/
theorem C51_binary_search {α : Type} (lt : α → α → Except PyErr Bool) (a : List α) (x : α) :
    Metered (Counted.bisectLeft (fun a b => Counted.comparing (lt a b)) a x) (Py.lift (bisectLeft lt a x)) ()
        (fun c => c.cmp ≤ Nat.log2 a.length + 1 ∧ (a = [] → c.cmp = 0)) ∧
    Metered (Counted.bisectRight (fun a b => Counted.comparing (lt a b)) a x) (Py.lift (bisectRight lt a x)) ()
        (fun c => c.cmp ≤ Nat.log2 a.length + 1 ∧ (a = [] → c.cmp = 0)) := by
  have hb := bits_log2 a.length
  have key : ∀ c : Calls, c ≤ { cmp := bits a.length } → c.cmp ≤ Nat.log2 a.length + 1 ∧ (a = [] → c.cmp = 0) := by
    intro c hc
    rw [Calls.le_iff] at hc
    refine ⟨Nat.le_trans hc.1 hb, fun e => ?_⟩
    subst e
    exact Nat.le_zero.1 hc.1
  exact ⟨(bisectLeft_counts lt a x ()).metered key, (bisectRight_counts lt a x ()).metered key⟩

section SortedList
variable {α : Type} {E : Env α} {lt : α → α → Bool} {s : St α α} (hE : E.Lawful lt) (ht : Log2Tight E.ilog2)
  (hs : (SL.api E).Reachable s)
include hE ht hs

theorem SL.ready : Ready id lt false s := ⟨(SL.api_lawful hE).reachable hs, SL.reachable_snug hE ht hs⟩

/-- C51: `v in sl` makes at most `log2 n + 7` comparisons and does not touch the positional index. -/
theorem C51_contains (v : α) :
    Metered (Counted.SL.contains E.metered v) (SL.contains E v) s fun c =>
      c.cmp ≤ Nat.log2 (Core.iter s).length + 7 ∧ c.node = 0 ∧ c.built = 0 := by
  have h := SL.ready hE ht hs
  have hb := bits_log2 (Core.iter s).length
  have hm := h.inv.bits_sublists
  refine (SL.contains_counts h h.inv.within v).metered fun c hc => ?_
  rw [Calls.le_iff] at hc
  dsimp only at hc
  omega

/-- C51: `sl.add(v)` makes at most `log2 n + 6` comparisons and visits at most `log2 n + 2` nodes of the index. -/
theorem C51_add (v : α) :
    Metered (Counted.SL.add E.metered v) (SL.add E v) s fun c =>
      c.cmp ≤ Nat.log2 (Core.iter s).length + 6 ∧ c.node ≤ Nat.log2 (Core.iter s).length + 2 ∧ c.built = 0 := by
  have h := SL.ready hE ht hs
  have hb := bits_log2 (Core.iter s).length
  have hm := h.inv.bits_sublists
  refine (SL.add_counts h h.inv.within v).metered fun c hc => ?_
  rw [Calls.le_iff] at hc
  simp only [Calls.add_cmp, Calls.add_key, Calls.add_node, Calls.add_built, addCost] at hc
  omega

/-- C51: `sl.discard(v)` and `sl.remove(v)` make at most `log2 n + 7` comparisons and visit at most `log2 n + 2` nodes. -/
theorem C51_discard_remove (v : α) :
    Metered (Counted.SL.discard E.metered v) (SL.discard E v) s (fun c =>
      c.cmp ≤ Nat.log2 (Core.iter s).length + 7 ∧ c.node ≤ Nat.log2 (Core.iter s).length + 2 ∧ c.built = 0) ∧
    Metered (Counted.SL.remove E.metered v) (SL.remove E v) s (fun c =>
      c.cmp ≤ Nat.log2 (Core.iter s).length + 7 ∧ c.node ≤ Nat.log2 (Core.iter s).length + 2 ∧ c.built = 0) := by
  have h := SL.ready hE ht hs
  have hb := bits_log2 (Core.iter s).length
  have hm := h.inv.bits_sublists
  refine ⟨(SL.discard_counts h h.inv.within v).metered fun c hc => ?_, (SL.remove_counts h h.inv.within v).metered fun c hc => ?_⟩ <;>
  · rw [Calls.le_iff] at hc
    simp only [Calls.add_cmp, Calls.add_key, Calls.add_node, Calls.add_built, deleteCost] at hc
    omega

/-- C51: `bisect_left` and `bisect_right` make at most `log2 n + 6` comparisons, visit at most `log2 n + 1` nodes, and
build the index only if there is none, with at most three entries per sublist. -/
theorem C51_bisect (v : α) :
    Metered (Counted.SL.bisect_left E.metered v) (SL.bisect_left E v) s (fun c =>
      c.cmp ≤ Nat.log2 (Core.iter s).length + 6 ∧ c.node ≤ Nat.log2 (Core.iter s).length + 1 ∧
      c.built ≤ 3 * s.lists.length ∧ (s.index ≠ [] → c.built = 0)) ∧
    Metered (Counted.SL.bisect_right E.metered v) (SL.bisect_right E v) s (fun c =>
      c.cmp ≤ Nat.log2 (Core.iter s).length + 6 ∧ c.node ≤ Nat.log2 (Core.iter s).length + 1 ∧
      c.built ≤ 3 * s.lists.length ∧ (s.index ≠ [] → c.built = 0)) := by
  have h := SL.ready hE ht hs
  have hb := bits_log2 (Core.iter s).length
  have hm := h.inv.bits_sublists
  have hd := debt_le s
  have hd' : s.index ≠ [] → debt s = 0 := fun e => if_neg e
  refine ⟨(SL.bisect_left_counts h h.inv.within hE.ilog2 ht v).metered fun c hc => ?_,
    (SL.bisect_right_counts h h.inv.within hE.ilog2 ht v).metered fun c hc => ?_⟩ <;>
  · rw [Calls.le_iff] at hc
    dsimp only at hc
    refine ⟨by omega, by omega, by omega, fun e => ?_⟩
    have := hd' e
    omega

/-- C51: `count` and `index` make at most `2 log2 n + 13` comparisons and visit at most `2 log2 n + 2` nodes. -/
theorem C51_count_index (v : α) (start stop : Option Int) :
    Metered (Counted.SL.count E.metered v) (SL.count E v) s (fun c =>
      c.cmp ≤ 2 * Nat.log2 (Core.iter s).length + 12 ∧ c.node ≤ 2 * Nat.log2 (Core.iter s).length + 2 ∧
      c.built ≤ 3 * s.lists.length ∧ (s.index ≠ [] → c.built = 0)) ∧
    Metered (Counted.SL.index E.metered v start stop) (SL.index E v start stop) s (fun c =>
      c.cmp ≤ 2 * Nat.log2 (Core.iter s).length + 13 ∧ c.node ≤ 2 * Nat.log2 (Core.iter s).length + 2 ∧
      c.built ≤ 3 * s.lists.length ∧ (s.index ≠ [] → c.built = 0)) := by
  have h := SL.ready hE ht hs
  have hb := bits_log2 (Core.iter s).length
  have hm := h.inv.bits_sublists
  have hd := debt_le s
  have hd' : s.index ≠ [] → debt s = 0 := fun e => if_neg e
  refine ⟨(SL.count_counts h h.inv.within hE.ilog2 ht v).metered fun c hc => ?_,
    (SL.index_counts h h.inv.within hE.ilog2 ht v start stop).metered fun c hc => ?_⟩ <;>
  · rw [Calls.le_iff] at hc
    dsimp only at hc
    refine ⟨by omega, by omega, by omega, fun e => ?_⟩
    have := hd' e
    omega

/-- C51: setting up `irange` takes at most `2 log2 n + 12` comparisons; going through its values takes none. -/
theorem C51_irange (lo hi : Option α) (incMin incMax reverse : Bool) :
    Metered (Counted.SL.irange E.metered lo hi incMin incMax reverse) (SL.irange E lo hi incMin incMax reverse) s fun c =>
      c.cmp ≤ 2 * Nat.log2 (Core.iter s).length + 12 ∧ c.node = 0 ∧ c.built = 0 := by
  have h := SL.ready hE ht hs
  have hb := bits_log2 (Core.iter s).length
  have hm := h.inv.bits_sublists
  refine (SL.irange_counts h h.inv.within lo hi incMin incMax reverse).metered fun c hc => ?_
  rw [Calls.le_iff] at hc
  dsimp only at hc
  omega

/-- C51: `sl[i]` makes no comparison and visits at most `log2 n + 1` nodes. -/
theorem C51_getitem (i : Int) :
    Metered (Counted.getInt E.ilog2 i) (Core.getInt E.ilog2 i) s fun c =>
      c.cmp = 0 ∧ c.node ≤ Nat.log2 (Core.iter s).length + 1 ∧ c.built ≤ 3 * s.lists.length ∧ (s.index ≠ [] → c.built = 0) := by
  have h := SL.ready hE ht hs
  have hb := bits_log2 (Core.iter s).length
  have hm := h.inv.bits_sublists
  have hd := debt_le s
  have hd' : s.index ≠ [] → debt s = 0 := fun e => if_neg e
  refine (getInt_counts hE.ilog2 ht h.inv h.snug i).metered fun c hc => ?_
  rw [Calls.le_iff] at hc
  dsimp only at hc
  refine ⟨by omega, by omega, by omega, fun e => ?_⟩
  have := hd' e
  omega

/-- C51: `del sl[i]` and `sl.pop(i)` make no comparison and visit at most `2 log2 n + 3` nodes. -/
theorem C51_delitem_pop (i : Int) :
    Metered (Counted.delInt Counted.SL.delete E.metered.ilog2 i) (Core.delInt (SL.methods E) i) s (fun c =>
      c.cmp = 0 ∧ c.node ≤ 2 * Nat.log2 (Core.iter s).length + 3 ∧ c.built ≤ 3 * s.lists.length ∧ (s.index ≠ [] → c.built = 0)) ∧
    Metered (Counted.pop Counted.SL.delete E.metered.ilog2 i) (Core.pop (SL.methods E) i) s (fun c =>
      c.cmp = 0 ∧ c.node ≤ 2 * Nat.log2 (Core.iter s).length + 3 ∧ c.built ≤ 3 * s.lists.length ∧ (s.index ≠ [] → c.built = 0)) := by
  have h := SL.ready hE ht hs
  have hb := bits_log2 (Core.iter s).length
  have hm := h.inv.bits_sublists
  have hd := debt_le s
  have hd' : s.index ≠ [] → debt s = 0 := fun e => if_neg e
  have hdel : ∀ s', Ready id lt false s' → s'.lists = s.lists → s'.load = s.load → ∀ p i,
      Counts (deleteCost s 1) (Counted.SL.delete p i) ((SL.methods E).delete p i) s' := by
    intro s' h' e e' p i
    unfold deleteCost
    rw [← e, ← e']
    exact SL.delete_counts h' p i
  refine ⟨(delInt_counts (M := SL.methods E) hdel hE.ilog2 ht h i).metered fun c hc => ?_,
    (pop_counts (M := SL.methods E) hdel hE.ilog2 ht h i).metered fun c hc => ?_⟩ <;>
  · rw [Calls.le_iff] at hc
    simp only [Calls.add_cmp, Calls.add_key, Calls.add_node, Calls.add_built, deleteCost] at hc
    refine ⟨by omega, by omega, by omega, fun e => ?_⟩
    have := hd' e
    omega

omit ht in
/-- C51: the number of sublists is at most `n`, and (less one) times half the load it is less than `n`. -/
theorem C51_sublists : s.lists.length ≤ (Core.iter s).length ∧
    (s.lists ≠ [] → (s.lists.length - 1) * (s.load / 2) < (Core.iter s).length) := by
  have h := (SL.api_lawful hE).reachable hs
  exact ⟨h.sublists_le, h.sublists_mul⟩

end SortedList

section SortedKeyList
variable {α κ : Type} {K : KEnv α κ} {key : α → κ} {klt : κ → κ → Bool} {veq : α → α → Bool} {s : St α κ}
  (hK : K.Lawful key klt veq) (ht : Log2Tight K.ilog2) (hs : SKL.Reachable K s)
include hK ht hs

theorem SKL.ready : Ready key klt true s := ⟨SKL.reachable_inv hK hs, SKL.reachable_snug hK ht hs⟩

/-- C51: `skl.add(v)` calls the key function once, makes at most `log2 n + 6` comparisons and visits at most `log2 n + 2`
nodes. -/
theorem C51_key_add (v : α) :
    Metered (Counted.SKL.add K.metered v) (SKL.add K v) s fun c =>
      c.key ≤ 1 ∧ c.cmp ≤ Nat.log2 (Core.iter s).length + 6 ∧ c.node ≤ Nat.log2 (Core.iter s).length + 2 ∧ c.built = 0 := by
  have h := SKL.ready hK ht hs
  have hb := bits_log2 (Core.iter s).length
  have hm := h.inv.bits_sublists
  refine (SKL.add_counts h h.inv.within v).metered fun c hc => ?_
  rw [Calls.le_iff] at hc
  simp only [Calls.add_cmp, Calls.add_key, Calls.add_node, Calls.add_built, addCost] at hc
  omega

/-- C51: `v in skl`, `skl.discard(v)`, `skl.remove(v)` and `skl.count(v)` call the key function at most once and make at most
`log2 n + 7 + 2 r` comparisons, where `r` is the number of values that have the key of `v`. -/
theorem C51_key_lookup (v : α) :
    Metered (Counted.SKL.contains K.metered v) (SKL.contains K v) s (fun c => c.key ≤ 1 ∧
      c.cmp ≤ Nat.log2 (Core.iter s).length + 7 + 2 * (Core.iter s).countP (fun w => equiv klt (key w) (key v)) ∧
      c.node = 0 ∧ c.built = 0) ∧
    Metered (Counted.SKL.discard K.metered v) (SKL.discard K v) s (fun c => c.key ≤ 1 ∧
      c.cmp ≤ Nat.log2 (Core.iter s).length + 7 + 2 * (Core.iter s).countP (fun w => equiv klt (key w) (key v)) ∧
      c.node ≤ Nat.log2 (Core.iter s).length + 2 ∧ c.built = 0) ∧
    Metered (Counted.SKL.remove K.metered v) (SKL.remove K v) s (fun c => c.key ≤ 1 ∧
      c.cmp ≤ Nat.log2 (Core.iter s).length + 7 + 2 * (Core.iter s).countP (fun w => equiv klt (key w) (key v)) ∧
      c.node ≤ Nat.log2 (Core.iter s).length + 2 ∧ c.built = 0) ∧
    Metered (Counted.SKL.count K.metered v) (SKL.count K v) s (fun c => c.key ≤ 1 ∧
      c.cmp ≤ Nat.log2 (Core.iter s).length + 7 + 2 * (Core.iter s).countP (fun w => equiv klt (key w) (key v)) ∧
      c.node = 0 ∧ c.built = 0) := by
  have h := SKL.ready hK ht hs
  have hb := bits_log2 (Core.iter s).length
  have hm := h.inv.bits_sublists
  refine ⟨(SKL.contains_counts h h.inv.within hK v).metered fun c hc => ?_,
    (SKL.discard_counts h h.inv.within hK v).metered fun c hc => ?_,
    (SKL.remove_counts h h.inv.within hK v).metered fun c hc => ?_,
    (SKL.count_counts h h.inv.within hK v).metered fun c hc => ?_⟩ <;>
  · rw [Calls.le_iff] at hc
    simp only [SKL.alike, Calls.add_cmp, Calls.add_key, Calls.add_node, Calls.add_built, deleteCost] at hc
    omega

/-- C51: `skl.index(v)` makes the comparisons of a lookup, and converts to a position once for each value that it
compares equal: at most `r (log2 n + 1)` visits of nodes. -/
theorem C51_key_index (v : α) (start stop : Option Int) :
    Metered (Counted.SKL.index K.metered v start stop) (SKL.index K v start stop) s fun c => c.key ≤ 1 ∧
      c.cmp ≤ Nat.log2 (Core.iter s).length + 7 + 2 * (Core.iter s).countP (fun w => equiv klt (key w) (key v)) ∧
      c.node ≤ (Nat.log2 (Core.iter s).length + 1) * (Core.iter s).countP (fun w => equiv klt (key w) (key v)) ∧
      c.built ≤ 3 * s.lists.length ∧ (s.index ≠ [] → c.built = 0) := by
  have h := SKL.ready hK ht hs
  have hb := bits_log2 (Core.iter s).length
  have hm := h.inv.bits_sublists
  have hd := debt_le s
  have hd' : s.index ≠ [] → debt s = 0 := fun e => if_neg e
  refine (SKL.index_counts h h.inv.within hK ht v start stop).metered fun c hc => ?_
  rw [Calls.le_iff] at hc
  dsimp only [SKL.alike] at hc
  refine ⟨by omega, by omega, Nat.le_trans hc.2.2.1 (Nat.mul_le_mul_right _ (by omega)), by omega, fun e => ?_⟩
  have := hd' e
  omega

/-- C51: the bisections by key make at most `log2 n + 6` comparisons and visit at most `log2 n + 1` nodes; those by value
also call the key function once. -/
theorem C51_key_bisect (v : α) (k : κ) :
    Metered (Counted.SKL.bisect_key_left K.metered k) (SKL.bisect_key_left K k) s (fun c => c.key = 0 ∧
      c.cmp ≤ Nat.log2 (Core.iter s).length + 6 ∧ c.node ≤ Nat.log2 (Core.iter s).length + 1 ∧
      c.built ≤ 3 * s.lists.length ∧ (s.index ≠ [] → c.built = 0)) ∧
    Metered (Counted.SKL.bisect_key_right K.metered k) (SKL.bisect_key_right K k) s (fun c => c.key = 0 ∧
      c.cmp ≤ Nat.log2 (Core.iter s).length + 6 ∧ c.node ≤ Nat.log2 (Core.iter s).length + 1 ∧
      c.built ≤ 3 * s.lists.length ∧ (s.index ≠ [] → c.built = 0)) ∧
    Metered (Counted.SKL.bisect_left K.metered v) (SKL.bisect_left K v) s (fun c => c.key ≤ 1 ∧
      c.cmp ≤ Nat.log2 (Core.iter s).length + 6 ∧ c.node ≤ Nat.log2 (Core.iter s).length + 1 ∧
      c.built ≤ 3 * s.lists.length ∧ (s.index ≠ [] → c.built = 0)) ∧
    Metered (Counted.SKL.bisect_right K.metered v) (SKL.bisect_right K v) s (fun c => c.key ≤ 1 ∧
      c.cmp ≤ Nat.log2 (Core.iter s).length + 6 ∧ c.node ≤ Nat.log2 (Core.iter s).length + 1 ∧
      c.built ≤ 3 * s.lists.length ∧ (s.index ≠ [] → c.built = 0)) := by
  have h := SKL.ready hK ht hs
  have hb := bits_log2 (Core.iter s).length
  have hm := h.inv.bits_sublists
  have hd := debt_le s
  have hd' : s.index ≠ [] → debt s = 0 := fun e => if_neg e
  refine ⟨(SKL.bisect_key_left_counts h h.inv.within hK.ilog2 ht k).metered fun c hc => ?_,
    (SKL.bisect_key_right_counts h h.inv.within hK.ilog2 ht k).metered fun c hc => ?_,
    (SKL.bisect_left_counts h h.inv.within hK.ilog2 ht v).metered fun c hc => ?_,
    (SKL.bisect_right_counts h h.inv.within hK.ilog2 ht v).metered fun c hc => ?_⟩ <;>
  · rw [Calls.le_iff] at hc
    dsimp only at hc
    refine ⟨by omega, by omega, by omega, by omega, fun e => ?_⟩
    have := hd' e
    omega

/-- C51: setting up `irange_key` takes at most `2 log2 n + 12` comparisons, and `irange` at most two calls of the key
function besides. -/
theorem C51_key_irange (lo hi : Option α) (klo khi : Option κ) (incMin incMax reverse : Bool) :
    Metered (Counted.SKL.irange_key K.metered klo khi incMin incMax reverse) (SKL.irange_key K klo khi incMin incMax reverse) s (fun c =>
      c.key = 0 ∧ c.cmp ≤ 2 * Nat.log2 (Core.iter s).length + 12 ∧ c.node = 0 ∧ c.built = 0) ∧
    Metered (Counted.SKL.irange K.metered lo hi incMin incMax reverse) (SKL.irange K lo hi incMin incMax reverse) s (fun c =>
      c.key ≤ 2 ∧ c.cmp ≤ 2 * Nat.log2 (Core.iter s).length + 12 ∧ c.node = 0 ∧ c.built = 0) := by
  have h := SKL.ready hK ht hs
  have hb := bits_log2 (Core.iter s).length
  have hm := h.inv.bits_sublists
  refine ⟨(SKL.irange_key_counts h h.inv.within klo khi incMin incMax reverse).metered fun c hc => ?_,
    (SKL.irange_counts h h.inv.within lo hi incMin incMax reverse).metered fun c hc => ?_⟩ <;>
  · rw [Calls.le_iff] at hc
    dsimp only at hc
    omega

/-- C51: `skl[i]`, `del skl[i]` and `skl.pop(i)` make no comparison, never call the key function, and visit at most
`log2 n + 1` and `2 log2 n + 3` nodes. -/
theorem C51_key_positional (i : Int) :
    Metered (Counted.getInt K.ilog2 i) (Core.getInt K.ilog2 i) s (fun c => c.cmp = 0 ∧ c.key = 0 ∧
      c.node ≤ Nat.log2 (Core.iter s).length + 1 ∧ c.built ≤ 3 * s.lists.length ∧ (s.index ≠ [] → c.built = 0)) ∧
    Metered (Counted.delInt Counted.SKL.delete K.metered.ilog2 i) (Core.delInt (SKL.methods K) i) s (fun c => c.cmp = 0 ∧ c.key = 0 ∧
      c.node ≤ 2 * Nat.log2 (Core.iter s).length + 3 ∧ c.built ≤ 3 * s.lists.length ∧ (s.index ≠ [] → c.built = 0)) ∧
    Metered (Counted.pop Counted.SKL.delete K.metered.ilog2 i) (Core.pop (SKL.methods K) i) s (fun c => c.cmp = 0 ∧ c.key = 0 ∧
      c.node ≤ 2 * Nat.log2 (Core.iter s).length + 3 ∧ c.built ≤ 3 * s.lists.length ∧ (s.index ≠ [] → c.built = 0)) := by
  have h := SKL.ready hK ht hs
  have hb := bits_log2 (Core.iter s).length
  have hm := h.inv.bits_sublists
  have hd := debt_le s
  have hd' : s.index ≠ [] → debt s = 0 := fun e => if_neg e
  have hdel : ∀ s', Ready key klt true s' → s'.lists = s.lists → s'.load = s.load → ∀ p i,
      Counts (deleteCost s 2) (Counted.SKL.delete p i) ((SKL.methods K).delete p i) s' := by
    intro s' h' e e' p i
    unfold deleteCost
    rw [← e, ← e']
    exact SKL.delete_counts h' p i
  refine ⟨(getInt_counts hK.ilog2 ht h.inv h.snug i).metered fun c hc => ?_,
    (delInt_counts (M := SKL.methods K) hdel hK.ilog2 ht h i).metered fun c hc => ?_,
    (pop_counts (M := SKL.methods K) hdel hK.ilog2 ht h i).metered fun c hc => ?_⟩ <;>
  · rw [Calls.le_iff] at hc
    simp only [Calls.add_cmp, Calls.add_key, Calls.add_node, Calls.add_built, deleteCost] at hc
    refine ⟨by omega, by omega, by omega, by omega, fun e => ?_⟩
    have := hd' e
    omega

end SortedKeyList

/-! ## The hypotheses are met -/

section Examples
open Demo

theorem log2_tight : Log2Tight Nat.log2 := fun n h => Nat.log2_self_le (by omega)

example := C51_contains intEnv_lawful log2_tight sl_reachable 4
example := C51_count_index intEnv_lawful log2_tight sl_reachable 3 none none
example := C51_key_lookup tensEnv_lawful log2_tight skl_reachable 33
example := C51_key_index tensEnv_lawful log2_tight skl_reachable 33 none none

/-- Eight values in six sublists: three comparisons among the maxima, two in the sublist, one for equality. -/
example : (Counted.SL.contains intEnv.metered 4 (sl, {})).2.2 = { cmp := 6 } := by decide +kernel
example : (Counted.SL.bisect_left intEnv.metered 8 (sl, {})).2.2 = { cmp := 5, node := 3 } := by decide +kernel
example : (Counted.getInt Nat.log2 6 ({ sl with index := [] }, {})).2.2 = { node := 3, built := 13 } := by decide +kernel

end Examples
end Verif
