import Verif.Proofs.InterruptHist
import Verif.Props.Recover
/-!
# C70: calls that are interrupted

An asynchronous exception (Ctrl-C, a signal handler that raises, MemoryError) may end a call after any of its writes.
`Verif/Model/Interrupt.lean` has the programs with the list of the objects they pass through, `Verif/Cut.lean` the small specification of what an
interrupted call may leave behind (`Op.Aftermath`), and of the objects a client can have after any number of interruptions
(`SL.Cut`, `SKL.Cut`).

The lists are not safe against interruptions (the examples below), but the damage has bounds: no value appears that was not put in;
`add`, `discard`, `remove`, `del sl[i]`, `pop` lose or repeat at most one run of values, of a length bounded by the load factor; queries
touch nothing but the positional index; `clear()` repairs everything.
-/

namespace Verif
variable {α κ : Type}

theorem Op.Aftermath.refl (load : Nat) (before after : List α) (op : Op α) : op.Aftermath load before after before := by
  cases op with
  | add | discard | remove | delInt | pop | clear | imul => exact .inl rfl
  | update | iadd => exact PartOf.of_prefix
  | reset => exact PartOf.refl _
  | delSlice => exact ⟨before, PartOf.refl _, Torn.refl _ _⟩
  | _ => rfl

section List
variable {E : Env α} {s x : St α α}

/-- C70: the programs of `Model/Interrupt.lean`, uninterrupted, do what those of the other models do: the same answer or exception, and the same
object afterwards (after an exception up to the positional index). -/
theorem C70_list_uninterrupted (hE : E.Sane) (hs : SL.Wild s) (op : Op α) (hv : op.Valid) :
    let real := (Interrupt.SL.step E op).run s
    let model := (SL.api E).step op s
    real.1 = model.1 ∧ (∀ a, model.1 = .ok a → real.2 = model.2) ∧
      ∃ index offset, real.2 = { model.2 with index := index, offset := offset } := by
  obtain ⟨d, -, -, -, h1, h2, h3⟩ := Interrupt.SL.step_tr hE (SL.wild_whole hs) op hv (Op.Aftermath.refl _ _ _ op) []
  exact ⟨h1, h3, h2⟩

/-- C70: what a call leaves behind that is interrupted anywhere; see `Op.Aftermath`. -/
theorem C70_list_aftermath (hE : E.Sane) (hs : SL.Wild s) (op : Op α) (hv : op.Valid) (hx : x ∈ (Interrupt.SL.step E op).points s) :
    op.Aftermath s.load (Core.iter s) (Core.iter ((SL.api E).step op s).2) (Core.iter x) :=
  (Interrupt.SL.step_tr hE (SL.wild_whole hs) op hv).points (Op.Aftermath.refl _ _ _ op) x hx

/-- C70: an interrupted `add` leaves the list in order. -/
theorem C70_list_add_sorted {lt : α → α → Bool} (hE : E.Lawful lt) (hs : (SL.api E).Reachable s) (v : α)
    (hx : x ∈ (Interrupt.SL.step E (.add v)).points s) : Sorted lt (Core.iter x) := by
  rcases C70_list_aftermath (SL.lawful_sane hE) (SL.wild_of_reachable hE hs) (.add v) trivial hx with h | ⟨a, b, c, h1, -, h2⟩
  · rw [h]; exact ((SL.api_lawful hE).reachable hs).sorted
  · have h3 := ((SL.api_lawful hE).reachable (hs.step (.add v) trivial)).sorted
    rw [h2]
    exact (show Sorted lt (a ++ b ++ c) from h1 ▸ h3).sublist (List.Sublist.append (List.sublist_append_left a b) (List.Sublist.refl c))

/-- C70: an interrupted query, on any object whatsoever, changes nothing but the positional index. -/
theorem C70_list_query (E : Env α) (s : St α α) {op : Op α} (hq : op.isQuery = true) (hx : x ∈ (Interrupt.SL.step E op).points s) :
    ∃ index offset, x = { s with index := index, offset := offset } :=
  (Interrupt.SL.query_tr (noIndex_reindexed s) (.inl hq)).points (Reindexed.refl s) x hx

theorem SL.Cut.holds {V : α → Prop} (h : SL.Cut V s) : Holds V s := by
  induction h with
  | new hE e hv =>
    obtain ⟨h1, h2⟩ := SL.new_whole hE e
    exact ⟨h1.load_pos, fun l hl v hm => hv v (h2.mem_iff.1 (List.mem_flatten.2 ⟨l, hl, hm⟩))⟩
  | done op hE hv hi _ _ ih => exact (Interrupt.SL.step_thru hE op hv hi).run ih
  | cut op hE hv hi _ hx ih => exact (Interrupt.SL.step_thru hE op hv hi).points ih _ hx
  | rest i o _ ih => exact ih

/-- C70: after any number of interruptions and exceptions, the list has no value that was not put in. -/
theorem C70_list_values {V : α → Prop} (h : SL.Cut V s) : ∀ v ∈ Core.iter s, V v := h.holds.2.flatten

/-- C70: after any number of interruptions and exceptions, `sl.clear()` returns, and the answers of all calls that follow, with values that compare well,
are those of the plain sorted list `[]`. -/
theorem C70_list_clear {lt : α → α → Bool} (hE : E.Lawful lt) {V : α → Prop} (hs : SL.Cut V s) (ops : List (Op α))
    (hops : ∀ op ∈ ops, op.Valid) :
    let spec := runHist (Spec.step (Spec.Order.ofValues lt)) ops []
    let real := runHist (SL.api E).step (.clear :: ops) s
    real.1 = .ok .none :: spec.1 ∧ Core.iter real.2 = spec.2 := by
  obtain ⟨s', e, hi, h0⟩ := SL.clear_inv lt (s := s) hs.holds.1
  obtain ⟨h1, h2, _⟩ := (SL.api_lawful hE).hist ops hops hi
  have e' : (SL.api E).step .clear s = (.ok .none, s') := by cases e; rfl
  rw [show (SL.api E).iter s' = [] from h0] at h1 h2
  simp only [runHist, e', h1, true_and]
  exact h2

/-- C70: `sl._reset(load)` repairs every list, and keeps the values that are left: from then on it is the plain list with those values. -/
theorem C70_list_reset {lt : α → α → Bool} (hE : E.Lawful lt) (s : St α α) {load : Nat} (hl : 1 ≤ load) (ops : List (Op α))
    (hops : ∀ op ∈ ops, op.Valid) :
    ∃ plain, IsStableSort lt (Core.iter s) plain ∧
      let spec := runHist (Spec.step (Spec.Order.ofValues lt)) ops plain
      let real := runHist (SL.api E).step (.reset load :: ops) s
      real.1 = .ok .none :: spec.1 ∧ Core.iter real.2 = spec.2 := by
  let s1 : St α α := { (SL.clear s).2 with load := load }
  have hi1 : Inv id lt false s1 := Inv.of_empty hl rfl rfl rfl rfl (by simp)
  obtain ⟨s2, e2, h0, hi2⟩ := (SL.update_refines hE (Core.iter s)).eq_of (s := s1) hi1 rfl
  have e' : (SL.api E).step (.reset load) s = (.ok .none, s2) := Py.bind_ok e2
  obtain ⟨h1, h2, _⟩ := (SL.api_lawful hE).hist ops hops hi2
  refine ⟨Core.iter s2, ?_, ?_⟩
  · rw [h0]
    exact Spec.insertAll_isStableSort (O := Spec.Order.ofValues lt) hE.order Spec.sorted_nil (Core.iter s)
  · simp only [runHist, e']
    exact ⟨by rw [h1]; rfl, h2⟩

end List

section KeyList
variable {K : KEnv α κ} {s x : St α κ}

/-- C70 for a SortedKeyList. -/
theorem C70_key_list_uninterrupted (hK : K.Sane) (hs : SKL.Wild s) (op : KOp α κ) (hv : op.Valid) :
    let real := (Interrupt.SKL.kstep K op).run s
    let model := SKL.kstep K op s
    real.1 = model.1 ∧ (∀ a, model.1 = .ok a → real.2 = model.2) ∧
      ∃ index offset, real.2 = { model.2 with index := index, offset := offset } := by
  cases op with
  | op o =>
    obtain ⟨d, -, -, -, h1, h2, h3⟩ := Interrupt.SKL.step_tr hK (SKL.wild_whole hs) o hv (Op.Aftermath.refl _ _ _ o) []
    exact ⟨h1, h3, h2⟩
  | bisectKeyLeft k =>
    obtain ⟨d, -, -, -, h1, h2, h3⟩ := Interrupt.SKL.kquery_tr (op := .bisectKeyLeft k) (K := K) (noIndex_reindexed s) (.inl rfl) (Reindexed.refl s) []
    exact ⟨h1, h3, h2⟩
  | bisectKeyRight k =>
    obtain ⟨d, -, -, -, h1, h2, h3⟩ := Interrupt.SKL.kquery_tr (op := .bisectKeyRight k) (K := K) (noIndex_reindexed s) (.inl rfl) (Reindexed.refl s) []
    exact ⟨h1, h3, h2⟩
  | irangeKey lo hi a b r =>
    obtain ⟨d, -, -, -, h1, h2, h3⟩ := Interrupt.SKL.kquery_tr (op := .irangeKey lo hi a b r) (K := K) (noIndex_reindexed s) (.inl rfl) (Reindexed.refl s) []
    exact ⟨h1, h3, h2⟩

/-- C70 for a SortedKeyList: what a call leaves behind that is interrupted anywhere; for the calls only a SortedKeyList has, see
`C70_key_list_query`. -/
theorem C70_key_list_aftermath (hK : K.Sane) (hs : SKL.Wild s) (op : Op α) (hv : op.Valid)
    (hx : x ∈ (Interrupt.SKL.kstep K (.op op)).points s) :
    op.Aftermath s.load (Core.iter s) (Core.iter (SKL.kstep K (.op op) s).2) (Core.iter x) :=
  (Interrupt.SKL.step_tr hK (SKL.wild_whole hs) op hv).points (Op.Aftermath.refl _ _ _ op) x hx

/-- C70 for a SortedKeyList: an interrupted `add` leaves the list in order. -/
theorem C70_key_list_add_sorted {key : α → κ} {klt : κ → κ → Bool} {veq : α → α → Bool} (hK : K.Lawful key klt veq)
    (hs : SKL.Reachable K s) (v : α) (hx : x ∈ (Interrupt.SKL.kstep K (.op (.add v))).points s) :
    Sorted (fun a b => klt (key a) (key b)) (Core.iter x) := by
  rcases C70_key_list_aftermath (SKL.lawful_sane hK) (SKL.wild_of_reachable hK hs) (.add v) trivial hx with h | ⟨a, b, c, h1, -, h2⟩
  · rw [h]; exact (SKL.reachable_inv hK hs).sorted
  · have h3 := (SKL.reachable_inv hK (hs.step (.op (.add v)) trivial)).sorted
    rw [h2]
    exact (show Sorted (fun a b => klt (key a) (key b)) (a ++ b ++ c) from h1 ▸ h3).sublist
      (List.Sublist.append (List.sublist_append_left a b) (List.Sublist.refl c))

/-- C70 for a SortedKeyList: an interrupted query, on any object whatsoever, changes nothing but the positional index. -/
theorem C70_key_list_query (K : KEnv α κ) (s : St α κ) {op : KOp α κ} (hq : op.isQuery = true)
    (hx : x ∈ (Interrupt.SKL.kstep K op).points s) : ∃ index offset, x = { s with index := index, offset := offset } :=
  (Interrupt.SKL.kquery_tr (noIndex_reindexed s) (.inl hq)).points (Reindexed.refl s) x hx

theorem SKL.Cut.holds {V : α → Prop} (h : SKL.Cut V s) : Holds V s := by
  induction h with
  | new hK e hv =>
    obtain ⟨h1, h2⟩ := SKL.new_whole hK e
    exact ⟨h1.load_pos, fun l hl v hm => hv v (h2.mem_iff.1 (List.mem_flatten.2 ⟨l, hl, hm⟩))⟩
  | done op hK hv hi _ _ ih => exact (Interrupt.SKL.kstep_thru hK op hv hi).run ih
  | cut op hK hv hi _ hx ih => exact (Interrupt.SKL.kstep_thru hK op hv hi).points ih _ hx
  | rest i o _ ih => exact ih

/-- C70 for a SortedKeyList: after any number of interruptions and exceptions, the list has no value that was not put in. -/
theorem C70_key_list_values {V : α → Prop} (h : SKL.Cut V s) : ∀ v ∈ Core.iter s, V v := h.holds.2.flatten

/-- C70 for a SortedKeyList: `clear()` repairs the list. -/
theorem C70_key_list_clear {key : α → κ} {klt : κ → κ → Bool} {veq : α → α → Bool} (hK : K.Lawful key klt veq) {V : α → Prop}
    (hs : SKL.Cut V s) (ops : List (KOp α κ)) (hops : ∀ op ∈ ops, op.Valid) :
    let spec := runHist (Spec.kstep key klt (Spec.Order.ofKey key klt veq K.vcmp)) ops []
    let real := runHist (SKL.kstep K) (.op .clear :: ops) s
    real.1 = .ok .none :: spec.1 ∧ Core.iter real.2 = spec.2 := by
  obtain ⟨s', e, hi, h0⟩ := SKL.clear_inv key klt (s := s) hs.holds.1
  obtain ⟨h1, h2, _⟩ := Refines.hist ops (fun op ho => SKL.kstep_refines hK op (hops op ho)) hi
  have e' : SKL.kstep K (.op .clear) s = (.ok .none, s') := by cases e; rfl
  rw [h0] at h1 h2
  simp only [runHist, e', h1, true_and]
  exact h2

/-- C70 for a SortedKeyList: `_reset(load)` repairs every list, and keeps the values that are left. -/
theorem C70_key_list_reset {key : α → κ} {klt : κ → κ → Bool} {veq : α → α → Bool} (hK : K.Lawful key klt veq) (s : St α κ)
    {load : Nat} (hl : 1 ≤ load) (ops : List (KOp α κ)) (hops : ∀ op ∈ ops, op.Valid) :
    ∃ plain, IsStableSort (fun a b => klt (key a) (key b)) (Core.iter s) plain ∧
      let spec := runHist (Spec.kstep key klt (Spec.Order.ofKey key klt veq K.vcmp)) ops plain
      let real := runHist (SKL.kstep K) (.op (.reset load) :: ops) s
      real.1 = .ok .none :: spec.1 ∧ Core.iter real.2 = spec.2 := by
  let s1 : St α κ := { (SKL.clear s).2 with load := load }
  have hi1 : Inv key klt true s1 := Inv.of_empty hl rfl rfl rfl rfl (fun _ => rfl)
  obtain ⟨s2, e2, h0, hi2⟩ := (SKL.update_refines hK (Core.iter s)).eq_of (s := s1) hi1 rfl
  have e' : SKL.kstep K (.op (.reset load)) s = (.ok .none, s2) := Py.bind_ok e2
  obtain ⟨h1, h2, _⟩ := Refines.hist ops (fun op ho => SKL.kstep_refines hK op (hops op ho)) hi2
  refine ⟨Core.iter s2, ?_, ?_⟩
  · rw [h0]
    exact Spec.insertAll_isStableSort (O := Spec.Order.ofKey key klt veq K.vcmp) (hK.order.comap key) Spec.sorted_nil (Core.iter s)
  · simp only [runHist, e']
    exact ⟨by rw [h1], h2⟩

end KeyList

/-! ## Objects that interrupted calls leave behind -/

namespace Demo

deriving instance DecidableEq for St

theorem intEnv_sane : intEnv.Sane := SL.lawful_sane intEnv_lawful
theorem tensEnv_sane : tensEnv.Sane := SKL.lawful_sane tensEnv_lawful

/-- Calls that are not interrupted. -/
def cutRun : List (Op Int) → St Int Int → St Int Int
  | [], s => s
  | op :: ops, s => cutRun ops ((Interrupt.SL.step intEnv op).run s).2

/-- `sl = SortedList([5, 1, 3, 3]); sl._reset(2); sl.add(2); sl.add(2)` -/
def cutFull : St Int Int := cutRun [.reset 2, .add 2, .add 2] (SL.update intEnv [5, 1, 3, 3] St.empty).2

theorem cutFull_reachable : (SL.api intEnv).Reachable cutFull := by
  have h : cutFull = (runHist (SL.api intEnv).step [.reset 2, .add 2, .add 2] (SL.update intEnv [5, 1, 3, 3] St.empty).2).2 := by decide +kernel
  rw [h]
  exact .step (.add 2) trivial (.step (.add 2) trivial (.step (.reset 2) (show 1 ≤ 2 by decide) (.new (xs := some [5, 1, 3, 3]) rfl)))

theorem cutFull_wild : SL.Wild cutFull := SL.wild_of_reachable intEnv_lawful cutFull_reachable

theorem cutFull_cut : SL.Cut (fun v : Int => v ∈ [1, 2, 3, 5]) cutFull :=
  .done (.add 2) intEnv_sane trivial (by decide) (.done (.add 2) intEnv_sane trivial (by decide) (.done (.reset 2) intEnv_sane (show 1 ≤ 2 by decide)
    (by simp [Op.inserted]) (.new (E := intEnv) (xs := some [5, 1, 3, 3]) intEnv_sane rfl (by decide)) (by decide +kernel))
    (by decide +kernel)) (by decide +kernel)

example : cutFull.lists = [[1, 2, 2, 3], [3, 5]] ∧ cutFull.len = 6 := by decide +kernel

/-- The objects that `sl.add(2)` passes through.  In the middle of a split the list has lost `[2, 2, 3]`; it still is in order. -/
example : ((Interrupt.SL.step intEnv (.add 2)).points cutFull).map (fun x => (x.lists, x.maxes, x.len)) =
    [([[1, 2, 2, 3], [3, 5]], [3, 5], 6), ([[1, 2, 2, 2, 3], [3, 5]], [3, 5], 6), ([[1, 2], [3, 5]], [3, 5], 6),
      ([[1, 2], [3, 5]], [2, 5], 6), ([[1, 2], [2, 2, 3], [3, 5]], [2, 5], 6), ([[1, 2], [2, 2, 3], [3, 5]], [2, 3, 5], 6),
      ([[1, 2], [2, 2, 3], [3, 5]], [2, 3, 5], 6), ([[1, 2], [2, 2, 3], [3, 5]], [2, 3, 5], 7)] := by decide +kernel

def cutAdd : St Int Int := ((Interrupt.SL.step intEnv (.add 2)).points cutFull)[2]'(by decide +kernel)

theorem cutAdd_mem : cutAdd ∈ (Interrupt.SL.step intEnv (.add 2)).points cutFull := List.getElem_mem _

theorem cutAdd_cut : SL.Cut (fun v : Int => v ∈ [1, 2, 3, 5]) cutAdd := .cut (.add 2) intEnv_sane trivial (by decide) cutFull_cut cutAdd_mem

example := C70_list_uninterrupted intEnv_sane cutFull_wild (.add 2) trivial
example := C70_list_aftermath intEnv_sane cutFull_wild (.add 2) trivial cutAdd_mem
example := C70_list_add_sorted intEnv_lawful cutFull_reachable 2 cutAdd_mem
example := C70_list_values cutAdd_cut
example := C70_list_clear intEnv_lawful cutAdd_cut ops ops_valid
example := C70_list_reset intEnv_lawful cutAdd (load := 3) (by decide) ops ops_valid

/-- On what is left `len(sl)` is 6, `list(sl)` has four values, and `sl[4]` is an IndexError. -/
example : (runHist (SL.api intEnv).step [.len, .iter, .getInt 4] cutAdd).1 =
    [.ok (.int 6), .ok (.vals [1, 2, 3, 5]), .error .indexError] := by decide +kernel

/-- `sl = SortedList([1, 2, 3, 4, 5, 6, 7]); sl._reset(4)` -/
def cutPair : St Int Int := cutRun [.reset 4] (SL.update intEnv [1, 2, 3, 4, 5, 6, 7] St.empty).2

/-- `sl.discard(5)`, interrupted while two sublists are merged, leaves `[1, 2, 3, 4, 6, 7, 6, 7]`. -/
example : ((Interrupt.SL.step intEnv (.discard 5)).points cutPair).map (fun x => (x.lists, x.maxes, x.len)) =
    [([[1, 2, 3, 4], [5, 6, 7]], [4, 7], 7), ([[1, 2, 3, 4], [6, 7]], [4, 7], 7), ([[1, 2, 3, 4], [6, 7]], [4, 7], 6),
      ([[1, 2, 3, 4, 6, 7], [6, 7]], [4, 7], 6), ([[1, 2, 3, 4, 6, 7], [6, 7]], [7, 7], 6), ([[1, 2, 3, 4, 6, 7]], [7, 7], 6),
      ([[1, 2, 3, 4, 6, 7]], [7], 6), ([[1, 2, 3, 4, 6, 7]], [7], 6)] := by decide +kernel

/-- `sl[4]`, interrupted between the statements `self._index[:] = ...` and `self._offset = 1`, leaves a list on which `sl[4]` is an
IndexError, until the next insertion of a sublist or `clear()`. -/
def cutGet : St Int Int := ((Interrupt.SL.step intEnv (.getInt 4)).points cutPair)[1]'(by decide +kernel)

theorem cutGet_mem : cutGet ∈ (Interrupt.SL.step intEnv (.getInt 4)).points cutPair := List.getElem_mem _

example : cutGet.index = [7, 4, 3] ∧ cutGet.offset = 0 ∧ (runHist (SL.api intEnv).step [.len, .getInt 4] cutGet).1 = [.ok (.int 7), .error .indexError] ∧
    (runHist (SL.api intEnv).step [.len, .getInt 4] cutPair).1 = [.ok (.int 7), .ok (.val 5)] := by decide +kernel

example := C70_list_query intEnv cutPair (op := .getInt 4) rfl cutGet_mem

/-- `sl.update([0, 0])`, interrupted between `_clear()` and the `extend`: nothing is left. -/
example : [] ∈ ((Interrupt.SL.step intEnv (.update [0, 0])).points cutPair).map Core.iter := by decide +kernel

/-- The same with keys: `sl = SortedKeyList([52, 10, 31, 35], key=lambda v: v // 10); sl._reset(2); sl.add(33); sl.add(34)` -/
def cutKRun : List (KOp Int Int) → St Int Int → St Int Int
  | [], s => s
  | op :: ops, s => cutKRun ops ((Interrupt.SKL.kstep tensEnv op).run s).2

def cutKFull : St Int Int := cutKRun [.op (.reset 2), .op (.add 33), .op (.add 34)] (SKL.update tensEnv [52, 10, 31, 35] St.empty).2

theorem cutKFull_reachable : SKL.Reachable tensEnv cutKFull := by
  have h : cutKFull =
      (runHist (SKL.kstep tensEnv) [.op (.reset 2), .op (.add 33), .op (.add 34)] (SKL.update tensEnv [52, 10, 31, 35] St.empty).2).2 := by decide +kernel
  rw [h]
  exact .step (.op (.add 34)) trivial (.step (.op (.add 33)) trivial (.step (.op (.reset 2)) (show 1 ≤ 2 by decide)
    (.new (xs := some [52, 10, 31, 35]) rfl)))

theorem cutKFull_wild : SKL.Wild cutKFull := SKL.wild_of_reachable tensEnv_lawful cutKFull_reachable

theorem cutKFull_cut : SKL.Cut (fun v : Int => v ∈ [10, 31, 32, 33, 34, 35, 52]) cutKFull :=
  .done (.op (.add 34)) tensEnv_sane trivial (by decide) (.done (.op (.add 33)) tensEnv_sane trivial (by decide) (.done (.op (.reset 2)) tensEnv_sane
    (show 1 ≤ 2 by decide) (by simp [KOp.inserted, Op.inserted]) (.new (K := tensEnv) (xs := some [52, 10, 31, 35]) tensEnv_sane rfl (by decide))
    (by decide +kernel)) (by decide +kernel)) (by decide +kernel)

/-- The fourth object that `sl.add(32)` passes through; its lists and its keys do not match. -/
def cutKAdd : St Int Int := ((Interrupt.SKL.kstep tensEnv (.op (.add 32))).points cutKFull)[3]'(by decide +kernel)

theorem cutKAdd_mem : cutKAdd ∈ (Interrupt.SKL.kstep tensEnv (.op (.add 32))).points cutKFull := List.getElem_mem _

example : cutKFull.lists = [[10, 31], [35, 33, 34, 52]] ∧ cutKAdd.lists = [[10, 31], [35, 33]] ∧ cutKAdd.keys = [[1, 3], [3, 3, 3, 3, 5]] ∧
    cutKAdd.maxes = [3, 5] ∧ cutKAdd.len = 6 := by decide +kernel

theorem cutKAdd_cut : SKL.Cut (fun v : Int => v ∈ [10, 31, 32, 33, 34, 35, 52]) cutKAdd :=
  .cut (.op (.add 32)) tensEnv_sane trivial (by decide) cutKFull_cut cutKAdd_mem

example := C70_key_list_uninterrupted tensEnv_sane cutKFull_wild (.op (.add 32)) trivial
example := C70_key_list_aftermath tensEnv_sane cutKFull_wild (.add 32) trivial cutKAdd_mem
example := C70_key_list_add_sorted tensEnv_lawful cutKFull_reachable 32 cutKAdd_mem
example := C70_key_list_values cutKAdd_cut
example := C70_key_list_clear tensEnv_lawful cutKAdd_cut kops kops_valid
example := C70_key_list_reset tensEnv_lawful cutKAdd (load := 3) (by decide) kops kops_valid

/-- `sl.bisect_key_left(5)`, interrupted like `sl[4]` above, leaves a list on which it gives a wrong position. -/
def cutKGet : St Int Int := ((Interrupt.SKL.kstep tensEnv (.bisectKeyLeft 5)).points cutKFull)[1]'(by decide +kernel)

theorem cutKGet_mem : cutKGet ∈ (Interrupt.SKL.kstep tensEnv (.bisectKeyLeft 5)).points cutKFull := List.getElem_mem _

example : (runHist (SKL.kstep tensEnv) [.bisectKeyLeft 5] cutKFull).1 = [.ok (.int 5)] ∧
    (runHist (SKL.kstep tensEnv) [.bisectKeyLeft 5] cutKGet).1 = [.ok (.int 3)] := by decide +kernel

example := C70_key_list_query tensEnv cutKFull (op := .bisectKeyLeft 5) rfl cutKGet_mem

end Demo

end Verif
