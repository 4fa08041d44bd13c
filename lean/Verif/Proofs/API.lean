import Verif.Proofs.SKLQuery
/-!
# Both list classes refine the specification: one call, and all histories of calls
-/

namespace Verif
variable {σ α κ : Type}

/-- The object behaves as a plain sorted list as long as it satisfies `I`. -/
structure ListAPI.Lawful (L : ListAPI σ α) (O : Spec.Order α) (I : σ → Prop) : Prop where
  order : StrictWeakOrder O.lt
  sorted : ∀ s, I s → Sorted O.lt (L.iter s)
  new : ∀ xs, ∃ s, L.new xs = .ok s ∧ I s ∧ L.iter s = Spec.insertAll O [] (xs.getD [])
  add : ∀ v, Refines I L.iter (L.add v) (Spec.add O v)
  update : ∀ xs, Refines I L.iter (L.update xs) (Spec.update O xs)
  clear : Refines I L.iter L.clear Spec.clear
  contains : ∀ v, Refines I L.iter (L.contains v) (Spec.contains O v)
  discard : ∀ v, Refines I L.iter (L.discard v) (Spec.discard O v)
  remove : ∀ v, Refines I L.iter (L.remove v) (Spec.remove O v)
  getInt : ∀ i, Refines I L.iter (L.getInt i) (Spec.getInt i)
  getSlice : ∀ sl, Refines I L.iter (L.getSlice sl) (Spec.getSlice sl)
  delInt : ∀ i, Refines I L.iter (L.delInt i) (Spec.delInt i)
  delSlice : ∀ sl, Refines I L.iter (L.delSlice sl) (Spec.delSlice sl)
  pop : ∀ i, Refines I L.iter (L.pop i) (Spec.pop i)
  bisectLeft : ∀ v, Refines I L.iter (L.bisectLeft v) (Spec.bisectLeft O v)
  bisectRight : ∀ v, Refines I L.iter (L.bisectRight v) (Spec.bisectRight O v)
  count : ∀ v, Refines I L.iter (L.count v) (Spec.count O v)
  index : ∀ v a b, Refines I L.iter (L.index v a b) (Spec.index O v a b)
  irange : ∀ lo hi a b r, Refines I L.iter (L.irange lo hi a b r) (Spec.irange O lo hi a b r)
  islice : ∀ a b r, Refines I L.iter (L.islice a b r) (Spec.islice a b r)
  reversed : Refines I L.iter (ListAPI.read fun s => .ok (L.reversed s)) Spec.reversed
  len : Refines I L.iter (ListAPI.read fun s => .ok (L.len s)) Spec.len
  compare : ∀ op other, Refines I L.iter (ListAPI.read (L.compare op other)) (Spec.compare O op other)
  iadd : ∀ xs, Refines I L.iter (L.iadd xs) (Spec.update O xs)
  imul : ∀ n, Refines I L.iter (L.imul n) (Spec.imul O n)
  reset : ∀ load, 1 ≤ load → Refines I L.iter (L.reset load) (Spec.reset load)
  copy : ∀ s, I s → ∃ s', L.copy s = .ok s' ∧ I s' ∧ L.iter s' = L.iter s
  concat : ∀ xs s, I s → ∃ s', L.concat xs s = .ok s' ∧ I s' ∧ L.iter s' = Spec.insertAll O (L.iter s) xs
  mul : ∀ n s, I s → ∃ s', L.mul n s = .ok s' ∧ I s' ∧ L.iter s' = Spec.insertAll O [] (repeatList (L.iter s) n)
  reduceArgs : ∀ s, I s → L.reduceArgs s = L.iter s
  unsupported : ∀ u, Refines I L.iter (L.unsupported u) (Spec.unsupported u)
  keyCall : ∀ m, L.keyCall m → ∃ f : Py (List α) (Out α), Refines I L.iter m f ∧ ∀ l, (f l).2 = l

theorem Refines.valuesOf {L : ListAPI σ α} {I : σ → Prop} {f : σ → Except PyErr σ} {g : List α → List α}
    (h : ∀ s, I s → ∃ s', f s = .ok s' ∧ I s' ∧ L.iter s' = g (L.iter s)) :
    Refines I L.iter (L.valuesOf f) (fun l => (.ok (g l), l)) := by
  intro s hs
  obtain ⟨s', e, _, h2⟩ := h s hs
  simp only [ListAPI.valuesOf, e, h2]
  exact ⟨trivial, trivial, hs⟩

/-- One call. -/
theorem ListAPI.Lawful.step {L : ListAPI σ α} {O : Spec.Order α} {I : σ → Prop} (h : L.Lawful O I) (op : Op α)
    (hv : op.Valid) : Refines I L.iter (L.step op) (Spec.step O op) := by
  cases op with
  | add v => exact (h.add v).out _
  | update xs => exact (h.update xs).out _
  | clear => exact h.clear.out _
  | contains v => exact (h.contains v).out _
  | discard v => exact (h.discard v).out _
  | remove v => exact (h.remove v).out _
  | getInt i => exact (h.getInt i).out _
  | getSlice sl => exact (h.getSlice sl).out _
  | delInt i => exact (h.delInt i).out _
  | delSlice sl => exact (h.delSlice sl).out _
  | pop i => exact (h.pop i).out _
  | bisectLeft v => exact (h.bisectLeft v).out _
  | bisectRight v => exact (h.bisectRight v).out _
  | count v => exact (h.count v).out _
  | index v a b => exact (h.index v a b).out _
  | irange lo hi a b r => exact (h.irange lo hi a b r).out _
  | islice a b r => exact (h.islice a b r).out _
  | iter => exact Refines.out .vals (m := ListAPI.read fun s => .ok (L.iter s)) (f := Spec.iter) fun _ hs => ⟨rfl, rfl, hs⟩
  | reversed => exact h.reversed.out _
  | len => exact h.len.out _
  | compare op other => exact (h.compare op other).out _
  | iadd xs => exact (h.iadd xs).out _
  | imul n => exact (h.imul n).out _
  | reset load => exact (h.reset load hv).out _
  | copy => exact (Refines.valuesOf (g := fun l => l) h.copy).out _
  | concat xs => exact (Refines.valuesOf (g := fun l => Spec.insertAll O l xs) (h.concat xs)).out _
  | mul n => exact (Refines.valuesOf (g := fun l => Spec.insertAll O [] (repeatList l n)) (h.mul n)).out _
  | unsupported u => exact (h.unsupported u).out _

/-- Every history of calls. -/
theorem ListAPI.Lawful.hist {L : ListAPI σ α} {O : Spec.Order α} {I : σ → Prop} (h : L.Lawful O I) (ops : List (Op α))
    (hv : ∀ op ∈ ops, op.Valid) {s : σ} (hs : I s) :
    (runHist L.step ops s).1 = (runHist (Spec.step O) ops (L.iter s)).1 ∧
    L.iter (runHist L.step ops s).2 = (runHist (Spec.step O) ops (L.iter s)).2 ∧ I (runHist L.step ops s).2 := by
  induction ops generalizing s with
  | nil => exact ⟨rfl, rfl, hs⟩
  | cons op ops ih =>
    obtain ⟨h1, h2, h3⟩ := h.step op (hv op (by simp)) s hs
    obtain ⟨i1, i2, i3⟩ := ih (fun o ho => hv o (by simp [ho])) h3
    simp only [runHist]
    rw [h2] at i1 i2
    exact ⟨by rw [h1, i1], i2, i3⟩

theorem ListAPI.Lawful.reachable {L : ListAPI σ α} {O : Spec.Order α} {I : σ → Prop} (h : L.Lawful O I) {s : σ}
    (hs : L.Reachable s) : I s := by
  induction hs with
  | new e =>
    rename_i xs s
    obtain ⟨s', e', hi, _⟩ := h.new xs
    rw [e] at e'; cases e'; exact hi
  | step op hv _ ih => exact (h.step op hv _ ih).2.2

/-- Reachable states are those after a construction and a history of calls. -/
theorem ListAPI.reachable_iff {L : ListAPI σ α} {s : σ} :
    L.Reachable s ↔ ∃ xs s0 ops, L.new xs = .ok s0 ∧ (∀ op ∈ ops, op.Valid) ∧ s = (runHist L.step ops s0).2 := by
  constructor
  · intro h
    induction h with
    | new e => exact ⟨_, _, [], e, by simp, rfl⟩
    | step op hv _ ih =>
      obtain ⟨xs, s0, ops, e, ho, rfl⟩ := ih
      refine ⟨xs, s0, ops ++ [op], e, ?_, ?_⟩
      · intro o ho'
        rcases List.mem_append.1 ho' with h | h
        · exact ho o h
        · simp at h; subst h; exact hv
      · clear ho e
        rename_i hr
        clear hr
        induction ops generalizing s0 with
        | nil => rfl
        | cons o ops ih => exact ih _
  · rintro ⟨xs, s0, ops, e, ho, rfl⟩
    have : L.Reachable s0 := .new e
    clear e
    induction ops generalizing s0 with
    | nil => exact this
    | cons o ops ih => exact ih _ (fun o' h' => ho o' (by simp [h'])) (.step o (ho o (by simp)) this)

section Instances
variable {lt : α → α → Bool} {key : α → κ} {klt : κ → κ → Bool} {veq : α → α → Bool}

theorem Inv.iter_sorted {k : α → κ} {lt : κ → κ → Bool} {keyed : Bool} {s : St α κ} (h : Inv k lt keyed s) :
    Sorted (fun a b => lt (k a) (k b)) (Core.iter s) := h.sorted

theorem SL.api_lawful {E : Env α} (hE : E.Lawful lt) :
    (SL.api E).Lawful (Spec.Order.ofValues lt) (Inv id lt false) where
  order := hE.order
  sorted := fun _ h => h.sorted
  new := SL.new_ok hE
  add := SL.add_refines hE
  update := SL.update_refines hE
  clear := (SL.methods_ok hE).clear_refines
  contains := SL.contains_refines hE
  discard := SL.discard_refines hE
  remove := SL.remove_refines hE
  getInt := getInt_refines hE.ilog2
  getSlice := getSlice_refines hE.ilog2
  delInt := (SL.methods_ok hE).delInt_refines
  delSlice := (SL.methods_ok hE).delSlice_refines
  pop := (SL.methods_ok hE).pop_refines
  bisectLeft := SL.bisect_left_refines hE
  bisectRight := SL.bisect_right_refines hE
  count := SL.count_refines hE
  index := SL.index_refines hE
  irange := SL.irange_refines hE
  islice := islice_refines hE.ilog2
  reversed := reversed_refines
  len := len_refines
  compare := compare_refines (by funext op a b; exact (hE.cmp op a b).symm)
  iadd := (SL.methods_ok hE).iadd_refines
  imul := (SL.methods_ok hE).imul_refines
  reset := fun _ h => (SL.methods_ok hE).reset_refines h
  copy := fun s hs => by
    obtain ⟨s', e, h1, h2⟩ := SL.new_ok hE (some (Core.iter s))
    refine ⟨s', e, h1, h2.trans ?_⟩
    exact Spec.insertAll_nil_of_sorted (O := Spec.Order.ofValues lt) hE.order hs.sorted
  concat := fun xs s hs => by
    obtain ⟨s', e, h1, h2⟩ := SL.new_ok hE (some (Core.iter s ++ xs))
    refine ⟨s', e, h1, h2.trans ?_⟩
    exact Spec.insertAll_nil_append (O := Spec.Order.ofValues lt) hE.order hs.sorted xs
  mul := fun n s _ => SL.new_ok hE (some (repeatList (Core.iter s) n))
  reduceArgs := fun _ _ => rfl
  unsupported := unsupported_refines
  keyCall := fun _ h => h.elim

theorem SKL.api_lawful {K : KEnv α κ} (hK : K.Lawful key klt veq) :
    (SKL.api K).Lawful (Spec.Order.ofKey key klt veq K.vcmp) (Inv key klt true) where
  order := hK.order.comap key
  sorted := fun _ h => h.sorted
  new := SKL.new_ok hK
  add := SKL.add_refines hK
  update := SKL.update_refines hK
  clear := (SKL.methods_ok (cmp := K.vcmp) hK).clear_refines
  contains := SKL.contains_refines hK
  discard := SKL.discard_refines hK
  remove := SKL.remove_refines hK
  getInt := getInt_refines hK.ilog2
  getSlice := getSlice_refines hK.ilog2
  delInt := (SKL.methods_ok (cmp := K.vcmp) hK).delInt_refines
  delSlice := (SKL.methods_ok (cmp := K.vcmp) hK).delSlice_refines
  pop := (SKL.methods_ok (cmp := K.vcmp) hK).pop_refines
  bisectLeft := SKL.bisect_left_refines hK
  bisectRight := SKL.bisect_right_refines hK
  count := SKL.count_refines hK
  index := SKL.index_refines hK
  irange := SKL.irange_refines hK
  islice := islice_refines hK.ilog2
  reversed := reversed_refines
  len := len_refines
  compare := compare_refines rfl
  iadd := (SKL.methods_ok hK).iadd_refines
  imul := (SKL.methods_ok hK).imul_refines
  reset := fun _ h => (SKL.methods_ok (cmp := K.vcmp) hK).reset_refines h
  copy := fun s hs => by
    obtain ⟨s', e, h1, h2⟩ := SKL.new_ok (cmp := K.vcmp) hK (some (Core.iter s))
    refine ⟨s', e, h1, h2.trans ?_⟩
    exact Spec.insertAll_nil_of_sorted (O := Spec.Order.ofKey key klt veq K.vcmp) (hK.order.comap key) hs.sorted
  concat := fun xs s hs => by
    obtain ⟨s', e, h1, h2⟩ := SKL.new_ok (cmp := K.vcmp) hK (some (Core.iter s ++ xs))
    refine ⟨s', e, h1, h2.trans ?_⟩
    exact Spec.insertAll_nil_append (O := Spec.Order.ofKey key klt veq K.vcmp) (hK.order.comap key) hs.sorted xs
  mul := fun n s _ => SKL.new_ok hK (some (repeatList (Core.iter s) n))
  reduceArgs := fun _ _ => rfl
  unsupported := unsupported_refines
  keyCall := fun m h => by
    rcases h with ⟨k, rfl⟩ | ⟨k, rfl⟩ | ⟨lo, hi, a, b, r, rfl⟩
    · exact ⟨_, (SKL.bisect_key_left_refines hK k).out _, fun _ => rfl⟩
    · exact ⟨_, (SKL.bisect_key_right_refines hK k).out _, fun _ => rfl⟩
    · exact ⟨_, (SKL.irange_key_refines hK lo hi a b r).out _, fun _ => rfl⟩

/-- One call on a SortedKeyList. -/
theorem SKL.kstep_refines {K : KEnv α κ} (hK : K.Lawful key klt veq) (op : KOp α κ) (hv : op.Valid) :
    Refines (Inv key klt true) Core.iter (SKL.kstep K op)
      (Spec.kstep key klt (Spec.Order.ofKey key klt veq K.vcmp) op) := by
  cases op with
  | op o => exact (SKL.api_lawful hK).step o hv
  | bisectKeyLeft k => exact (SKL.bisect_key_left_refines hK k).out _
  | bisectKeyRight k => exact (SKL.bisect_key_right_refines hK k).out _
  | irangeKey lo hi a b r => exact (SKL.irange_key_refines hK lo hi a b r).out _

/-- A call-by-call refinement lifts to all histories. -/
theorem Refines.hist {δ ω : Type} {I : σ → Prop} {abs : σ → List α} {step : δ → Py σ ω} {spec : δ → Py (List α) ω}
    (ops : List δ) (h : ∀ op ∈ ops, Refines I abs (step op) (spec op)) {s : σ} (hs : I s) :
    (runHist step ops s).1 = (runHist spec ops (abs s)).1 ∧
    abs (runHist step ops s).2 = (runHist spec ops (abs s)).2 ∧ I (runHist step ops s).2 := by
  induction ops generalizing s with
  | nil => exact ⟨rfl, rfl, hs⟩
  | cons op ops ih =>
    obtain ⟨h1, h2, h3⟩ := h op (by simp) s hs
    obtain ⟨i1, i2, i3⟩ := ih (fun o ho => h o (by simp [ho])) h3
    simp only [runHist]
    rw [h2] at i1 i2
    exact ⟨by rw [h1, i1], i2, i3⟩

theorem SKL.reachable_inv {K : KEnv α κ} (hK : K.Lawful key klt veq) {s : St α κ} (hs : SKL.Reachable K s) :
    Inv key klt true s := by
  induction hs with
  | new e =>
    rename_i xs s
    obtain ⟨s', e', hi, _⟩ := (SKL.api_lawful hK).new xs
    rw [show (SKL.api K).new xs = _ from e] at e'; cases e'; exact hi
  | step op hv _ ih => exact (SKL.kstep_refines hK op hv _ ih).2.2

theorem SKL.reachable_hist {K : KEnv α κ} {xs : Option (List α)} {s0 : St α κ} (e : SKL.new K xs = .ok s0)
    (ops : List (KOp α κ)) (ho : ∀ op ∈ ops, op.Valid) : SKL.Reachable K (runHist (SKL.kstep K) ops s0).2 := by
  have : SKL.Reachable K s0 := .new e
  clear e
  induction ops generalizing s0 with
  | nil => exact this
  | cons o ops ih => exact ih (fun o' h' => ho o' (by simp [h'])) (.step o (ho o (by simp)) this)

theorem ListClass.Orders.lawful {c : ListClass α} {lt eqv : α → α → Bool} (h : c.Orders lt eqv) :
    ∃ (O : Spec.Order α) (I : c.State → Prop), c.api.Lawful O I ∧ O.lt = lt ∧ ∀ a b, O.same a b = eqv a b := by
  cases h with
  | plain hE he => exact ⟨_, _, SL.api_lawful hE, rfl, fun a b => (he a b).symm⟩
  | keyed hK he =>
    refine ⟨_, _, SKL.api_lawful hK, rfl, fun a b => ?_⟩
    simp only [Spec.Order.ofKey]
    cases hv : eqv a b
    · simp
    · rw [he a b hv]; rfl

end Instances
end Verif
