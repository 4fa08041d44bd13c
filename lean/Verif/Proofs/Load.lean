import Verif.Proofs.API
/-!
# Only `_reset` changes the load factor
-/

namespace Verif
variable {α κ β γ : Type}

/-- The call does not change the load factor, whether it raises or not. -/
def KeepsLoad (m : Py (St α κ) β) : Prop := ∀ s, (m s).2.load = s.load

namespace KeepsLoad

theorem pure (b : β) : KeepsLoad (Pure.pure b : Py (St α κ) β) := fun _ => rfl
theorem raise (e : PyErr) : KeepsLoad (Py.raise e : Py (St α κ) β) := fun _ => rfl
theorem lift (x : Except PyErr β) : KeepsLoad (Py.lift x : Py (St α κ) β) := fun _ => rfl
theorem get : KeepsLoad (Py.get : Py (St α κ) (St α κ)) := fun _ => rfl
theorem modify {f : St α κ → St α κ} (h : ∀ s, (f s).load = s.load) : KeepsLoad (Py.modify f) := h
theorem read (f : St α κ → Except PyErr β) : KeepsLoad (ListAPI.read f) := fun _ => rfl

theorem bind {m : Py (St α κ) β} {f : β → Py (St α κ) γ} (h1 : KeepsLoad m) (h2 : ∀ b, KeepsLoad (f b)) :
    KeepsLoad (m >>= f) := by
  intro s
  have := h1 s
  rw [Py.bind_apply]
  rcases hm : m s with ⟨_ | b, s'⟩
  · rw [hm] at this; exact this
  · rw [hm] at this; exact (h2 b s').trans this

theorem ite {c : Prop} [Decidable c] {m m' : Py (St α κ) β} (h1 : KeepsLoad m) (h2 : KeepsLoad m') :
    KeepsLoad (if c then m else m') := by split <;> assumption

theorem forEach {f : β → Py (St α κ) Unit} (h : ∀ b, KeepsLoad (f b)) (xs : List β) : KeepsLoad (Py.forEach f xs) := by
  induction xs with
  | nil => exact pure ()
  | cons x xs ih => exact bind (h x) fun _ => ih

theorem mapEach {f : β → Py (St α κ) γ} (h : ∀ b, KeepsLoad (f b)) (xs : List β) : KeepsLoad (Py.mapEach f xs) := by
  induction xs with
  | nil => exact pure []
  | cons x xs ih => exact bind (h x) fun _ => bind ih fun _ => pure _

theorem out {m : Py (St α κ) β} (f : β → Out α) (h : KeepsLoad m) : KeepsLoad (Spec.out f m) := by
  intro s
  have := h s
  unfold Spec.out
  split <;> rename_i e <;> rw [e] at this <;> exact this

end KeepsLoad

/-- Decompose a do-block. -/
macro "keeps_load" : tactic => `(tactic| repeat' (with_reducible first
  | refine KeepsLoad.bind ?_ fun _ => ?_
  | refine KeepsLoad.ite ?_ ?_
  | exact KeepsLoad.pure _
  | exact KeepsLoad.raise _
  | exact KeepsLoad.lift _
  | exact KeepsLoad.get
  | exact KeepsLoad.modify fun _ => rfl
  | refine KeepsLoad.forEach (fun _ => ?_) _
  | refine KeepsLoad.mapEach (fun _ => ?_) _
  | solve_by_elim only [*]
  | split
  | dsimp only))

namespace Core
variable (ilog2 : Nat → Nat) (M : Methods α κ)

theorem buildIndex_load : KeepsLoad (buildIndex ilog2 : Py (St α κ) Unit) := by unfold buildIndex; keeps_load
theorem ensureIndex_load : KeepsLoad (ensureIndex ilog2 : Py (St α κ) Unit) := by
  have := buildIndex_load (α := α) (κ := κ) ilog2
  unfold ensureIndex; keeps_load
theorem loc_load (p i : Nat) : KeepsLoad (loc ilog2 p i : Py (St α κ) Nat) := by
  have := ensureIndex_load (α := α) (κ := κ) ilog2
  unfold loc; keeps_load
theorem posNonneg_load (i : Nat) : KeepsLoad (posNonneg ilog2 i : Py (St α κ) (Nat × Nat)) := by
  have := ensureIndex_load (α := α) (κ := κ) ilog2
  unfold posNonneg; keeps_load
theorem pos_load (i : Int) : KeepsLoad (pos ilog2 i : Py (St α κ) (Nat × Nat)) := by
  have := posNonneg_load (α := α) (κ := κ) ilog2
  unfold pos; keeps_load
theorem touchIndex_load (f : Nat → Except PyErr Nat) (p : Nat) : KeepsLoad (touchIndex f p : Py (St α κ) Unit) := by
  unfold touchIndex; keeps_load
theorem getInt_load (i : Int) : KeepsLoad (getInt ilog2 i : Py (St α κ) α) := by
  have := pos_load (α := α) (κ := κ) ilog2
  unfold getInt; keeps_load
theorem getSliceFwd_load (a b : Int) : KeepsLoad (getSliceFwd ilog2 a b : Py (St α κ) (List α)) := by
  have := pos_load (α := α) (κ := κ) ilog2
  unfold getSliceFwd; keeps_load
theorem getSliceStep1_load (a b : Option Int) : KeepsLoad (getSliceStep1 ilog2 a b : Py (St α κ) (List α)) := by
  have h1 := getSliceFwd_load (α := α) (κ := κ) ilog2
  have h2 := getInt_load (α := α) (κ := κ) ilog2
  unfold getSliceStep1; keeps_load
theorem getSlice_load (sl : PySlice) : KeepsLoad (getSlice ilog2 sl : Py (St α κ) (List α)) := by
  have h1 := getSliceFwd_load (α := α) (κ := κ) ilog2
  have h2 := getInt_load (α := α) (κ := κ) ilog2
  have h3 := getSliceStep1_load (α := α) (κ := κ) ilog2
  unfold getSlice; keeps_load
theorem islice_load (a b : Option Int) (r : Bool) : KeepsLoad (islice ilog2 a b r : Py (St α κ) (List α)) := by
  have := pos_load (α := α) (κ := κ) ilog2
  unfold islice isliceWith; keeps_load

/-- The virtual methods keep the load factor. -/
structure MethodsLoad (M : Methods α κ) : Prop where
  clear : KeepsLoad M.clear
  update : ∀ xs, KeepsLoad (M.update xs)
  delete : ∀ p i, KeepsLoad (M.delete p i)

variable {M} (hM : MethodsLoad M)
include hM

theorem delInt_load (i : Int) : KeepsLoad (delInt M i) := by
  have h1 := pos_load (α := α) (κ := κ) M.ilog2
  have h2 := hM.delete
  unfold delInt; keeps_load
theorem delSlice_load (sl : PySlice) : KeepsLoad (delSlice M sl) := by
  have h1 := getSliceStep1_load (α := α) (κ := κ) M.ilog2
  have h2 := hM.clear
  have h3 := hM.update
  have h4 := delInt_load hM
  unfold delSlice; keeps_load
theorem pop_load (i : Int) : KeepsLoad (pop M i) := by
  have h1 := pos_load (α := α) (κ := κ) M.ilog2
  have h2 := hM.delete
  unfold pop; keeps_load
theorem iadd_load (xs : List α) : KeepsLoad (iadd M xs) := hM.update xs
theorem imul_load (n : Int) : KeepsLoad (imul M n) := by
  have h2 := hM.clear
  have h3 := hM.update
  unfold imul; keeps_load
theorem reset_load (load : Nat) (s : St α κ) : (reset M load s).2.load = s.load ∨ (reset M load s).2.load = load := by
  unfold reset
  simp only [Py.get_bind]
  have h1 := hM.clear s
  rw [Py.bind_apply]
  rcases hm : M.clear s with ⟨_ | b, s'⟩
  · rw [hm] at h1; exact .inl h1
  · exact .inr (hM.update _ _)

end Core

namespace SL
variable (E : Env α)

theorem expand_load (p : Nat) : KeepsLoad (expand p : Py (St α α) Unit) := by
  have := Core.touchIndex_load (α := α) (κ := α) Core.incr p
  unfold expand; keeps_load
theorem add_load (v : α) : KeepsLoad (add E v) := by
  have := expand_load (α := α)
  unfold add; keeps_load
theorem clear_load : KeepsLoad (clear : Py (St α α) Unit) := fun _ => rfl
theorem fill_load (vs : List α) : KeepsLoad (fill vs) := by unfold fill; keeps_load
theorem update_load (xs : List α) : KeepsLoad (update E xs) := by
  have h1 := add_load E
  have h2 := fill_load (α := α)
  have h3 := clear_load (α := α)
  unfold update; keeps_load
theorem delete_load (p i : Nat) : KeepsLoad (delete p i : Py (St α α) Unit) := by
  have h1 := expand_load (α := α)
  have h2 := Core.touchIndex_load (α := α) (κ := α) Core.decr
  unfold delete; keeps_load
theorem methods_load : Core.MethodsLoad (methods E) := ⟨clear_load, update_load E, delete_load⟩
theorem contains_load (v : α) : KeepsLoad (contains E v) := by unfold contains; keeps_load
theorem discard_load (v : α) : KeepsLoad (discard E v) := by
  have := delete_load (α := α)
  unfold discard; keeps_load
theorem remove_load (v : α) : KeepsLoad (remove E v) := by
  have := delete_load (α := α)
  unfold remove; keeps_load
theorem irange_load (lo hi : Option α) (a b r : Bool) : KeepsLoad (irange E lo hi a b r) := by
  unfold irange irangeWith; keeps_load
theorem bisect_left_load (v : α) : KeepsLoad (bisect_left E v) := by
  have := Core.loc_load (α := α) (κ := α) E.ilog2
  unfold bisect_left; keeps_load
theorem bisect_right_load (v : α) : KeepsLoad (bisect_right E v) := by
  have := Core.loc_load (α := α) (κ := α) E.ilog2
  unfold bisect_right; keeps_load
theorem count_load (v : α) : KeepsLoad (count E v) := by
  have := Core.loc_load (α := α) (κ := α) E.ilog2
  unfold count; keeps_load
theorem index_load (v : α) (a b : Option Int) : KeepsLoad (index E v a b) := by
  have h1 := Core.loc_load (α := α) (κ := α) E.ilog2
  have h2 := bisect_right_load E
  unfold index; keeps_load

end SL

namespace SKL
variable (K : KEnv α κ)

theorem expand_load (p : Nat) : KeepsLoad (expand p : Py (St α κ) Unit) := by
  have := Core.touchIndex_load (α := α) (κ := κ) Core.incr p
  unfold expand; keeps_load
theorem add_load (v : α) : KeepsLoad (add K v) := by
  have := expand_load (α := α) (κ := κ)
  unfold add; keeps_load
theorem clear_load : KeepsLoad (clear : Py (St α κ) Unit) := fun _ => rfl
theorem fill_load (vs : List α) : KeepsLoad (fill K vs) := by unfold fill; keeps_load
theorem update_load (xs : List α) : KeepsLoad (update K xs) := by
  have h1 := add_load K
  have h2 := fill_load K
  have h3 := clear_load (α := α) (κ := κ)
  unfold update; keeps_load
theorem delete_load (p i : Nat) : KeepsLoad (delete p i : Py (St α κ) Unit) := by
  have h1 := expand_load (α := α) (κ := κ)
  have h2 := Core.touchIndex_load (α := α) (κ := κ) Core.decr
  unfold delete; keeps_load
theorem methods_load : Core.MethodsLoad (methods K) := ⟨clear_load, update_load K, delete_load⟩
theorem find_load (v : α) : KeepsLoad (find K v) := by unfold find; keeps_load
theorem contains_load (v : α) : KeepsLoad (contains K v) := by
  have := find_load K
  unfold contains; keeps_load
theorem discard_load (v : α) : KeepsLoad (discard K v) := by
  have h1 := delete_load (α := α) (κ := κ)
  have h2 := find_load K
  unfold discard; keeps_load
theorem remove_load (v : α) : KeepsLoad (remove K v) := by
  have h1 := delete_load (α := α) (κ := κ)
  have h2 := find_load K
  unfold remove; keeps_load
theorem irange_key_load (lo hi : Option κ) (a b r : Bool) : KeepsLoad (irange_key K lo hi a b r) := by
  unfold irange_key irange_keyWith; keeps_load
theorem irange_load (lo hi : Option α) (a b r : Bool) : KeepsLoad (irange K lo hi a b r) := by
  have := irange_key_load K
  unfold irange irangeWith; keeps_load
theorem bisect_key_left_load (k : κ) : KeepsLoad (bisect_key_left K k) := by
  have := Core.loc_load (α := α) (κ := κ) K.ilog2
  unfold bisect_key_left; keeps_load
theorem bisect_key_right_load (k : κ) : KeepsLoad (bisect_key_right K k) := by
  have := Core.loc_load (α := α) (κ := κ) K.ilog2
  unfold bisect_key_right; keeps_load
theorem bisect_left_load (v : α) : KeepsLoad (bisect_left K v) := by
  have := bisect_key_left_load K
  unfold bisect_left; keeps_load
theorem bisect_right_load (v : α) : KeepsLoad (bisect_right K v) := by
  have := bisect_key_right_load K
  unfold bisect_right; keeps_load
theorem count_load (v : α) : KeepsLoad (count K v) := by
  unfold count; keeps_load
theorem indexLoop_load (lists : List (List α)) (keys : List (List κ)) (v : α) (k : κ) (a b : Int) (p i n : Nat) :
    KeepsLoad (indexLoop K lists keys v k a b p i n) := by
  have h1 := Core.loc_load (α := α) (κ := κ) K.ilog2
  fun_induction indexLoop K lists keys v k a b p i n <;> keeps_load
  all_goals dsimp +zetaDelta only
  all_goals keeps_load
theorem index_load (v : α) (a b : Option Int) : KeepsLoad (index K v a b) := by
  have h1 := indexLoop_load K
  unfold index; keeps_load

end SKL

/-- The load factor after a history of calls: that of the last `_reset`, if any. -/
def histLoad (load : Nat) : List (Op α) → Nat
  | [] => load
  | .reset l :: ops => histLoad l ops
  | _ :: ops => histLoad load ops

theorem keepsLoad_valuesOf {L : ListAPI (St α κ) α} (f : St α κ → Except PyErr (St α κ)) :
    KeepsLoad (L.valuesOf f) := by
  intro s; unfold ListAPI.valuesOf; split <;> rfl

theorem reset_load_eq {M : Methods α κ} (hM : Core.MethodsLoad M) (hc : ∀ s, (M.clear s).1 = .ok ()) (load : Nat)
    (s : St α κ) : (Core.reset M load s).2.load = load := by
  unfold Core.reset
  simp only [Py.get_bind]
  rw [Py.bind_apply]
  rcases hm : M.clear s with ⟨_ | b, s'⟩
  · have := hc s; rw [hm] at this; cases this
  · exact hM.update _ _

theorem SL.step_load (E : Env α) (op : Op α) (s : St α α) :
    ((SL.api E).step op s).2.load = histLoad s.load [op] := by
  have hM := SL.methods_load E
  cases op with
  | reset load =>
    simp only [ListAPI.step, histLoad]
    rw [show (Spec.out (fun _ => Out.none) ((SL.api E).reset load) s : Except PyErr (Out α) × _).2
      = (Core.reset (SL.methods E) load s).2 by unfold Spec.out; split <;> rename_i e <;> exact (congrArg Prod.snd e).symm]
    exact reset_load_eq hM (fun _ => rfl) load s
  | add v => exact (add_load E v).out _ s
  | update xs => exact (update_load E xs).out _ s
  | clear => exact (KeepsLoad.out _ clear_load) s
  | contains v => exact (contains_load E v).out _ s
  | discard v => exact (discard_load E v).out _ s
  | remove v => exact (remove_load E v).out _ s
  | getInt i => exact (Core.getInt_load E.ilog2 i).out _ s
  | getSlice sl => exact (Core.getSlice_load E.ilog2 sl).out _ s
  | delInt i => exact (Core.delInt_load hM i).out _ s
  | delSlice sl => exact (Core.delSlice_load hM sl).out _ s
  | pop i => exact (Core.pop_load hM i).out _ s
  | bisectLeft v => exact (bisect_left_load E v).out _ s
  | bisectRight v => exact (bisect_right_load E v).out _ s
  | count v => exact (count_load E v).out _ s
  | index v a b => exact (index_load E v a b).out _ s
  | irange lo hi a b r => exact (irange_load E lo hi a b r).out _ s
  | islice a b r => exact (Core.islice_load E.ilog2 a b r).out _ s
  | iter => rfl
  | reversed => rfl
  | len => rfl
  | compare op other => exact (KeepsLoad.read _).out _ s
  | iadd xs => exact (Core.iadd_load hM xs).out _ s
  | imul n => exact (Core.imul_load hM n).out _ s
  | copy => exact (keepsLoad_valuesOf (L := SL.api E) _).out _ s
  | concat xs => exact (keepsLoad_valuesOf (L := SL.api E) _).out _ s
  | mul n => exact (keepsLoad_valuesOf (L := SL.api E) _).out _ s
  | unsupported u => rfl

theorem SKL.step_load (K : KEnv α κ) (op : Op α) (s : St α κ) :
    ((SKL.api K).step op s).2.load = histLoad s.load [op] := by
  have hM := SKL.methods_load K
  cases op with
  | reset load =>
    simp only [ListAPI.step, histLoad]
    rw [show (Spec.out (fun _ => Out.none) ((SKL.api K).reset load) s : Except PyErr (Out α) × _).2
      = (Core.reset (SKL.methods K) load s).2 by unfold Spec.out; split <;> rename_i e <;> exact (congrArg Prod.snd e).symm]
    exact reset_load_eq hM (fun _ => rfl) load s
  | add v => exact (add_load K v).out _ s
  | update xs => exact (update_load K xs).out _ s
  | clear => exact (KeepsLoad.out _ clear_load) s
  | contains v => exact (contains_load K v).out _ s
  | discard v => exact (discard_load K v).out _ s
  | remove v => exact (remove_load K v).out _ s
  | getInt i => exact (Core.getInt_load K.ilog2 i).out _ s
  | getSlice sl => exact (Core.getSlice_load K.ilog2 sl).out _ s
  | delInt i => exact (Core.delInt_load hM i).out _ s
  | delSlice sl => exact (Core.delSlice_load hM sl).out _ s
  | pop i => exact (Core.pop_load hM i).out _ s
  | bisectLeft v => exact (bisect_left_load K v).out _ s
  | bisectRight v => exact (bisect_right_load K v).out _ s
  | count v => exact ((count_load K v).bind fun _ => KeepsLoad.pure _).out _ s
  | index v a b => exact (index_load K v a b).out _ s
  | irange lo hi a b r => exact (irange_load K lo hi a b r).out _ s
  | islice a b r => exact (Core.islice_load K.ilog2 a b r).out _ s
  | iter => rfl
  | reversed => rfl
  | len => rfl
  | compare op other => exact (KeepsLoad.read _).out _ s
  | iadd xs => exact (Core.iadd_load hM xs).out _ s
  | imul n => exact (Core.imul_load hM n).out _ s
  | copy => exact (keepsLoad_valuesOf (L := SKL.api K) _).out _ s
  | concat xs => exact (keepsLoad_valuesOf (L := SKL.api K) _).out _ s
  | mul n => exact (keepsLoad_valuesOf (L := SKL.api K) _).out _ s
  | unsupported u => rfl

theorem histLoad_cons (load : Nat) (op : Op α) (ops : List (Op α)) :
    histLoad load (op :: ops) = histLoad (histLoad load [op]) ops := by cases op <;> rfl

theorem hist_load {step : Op α → Py (St α κ) (Out α)} (h : ∀ op s, (step op s).2.load = histLoad s.load [op])
    (ops : List (Op α)) (s : St α κ) : (runHist step ops s).2.load = histLoad s.load ops := by
  induction ops generalizing s with
  | nil => rfl
  | cons op ops ih => rw [histLoad_cons, runHist, ih, h]

theorem SL.new_load {E : Env α} {xs : Option (List α)} {s : St α α} (h : SL.new E xs = .ok s) : s.load = 1000 := by
  unfold SL.new at h
  split at h
  · cases h; rfl
  · rename_i xs
    have := update_load E xs St.empty
    split at h
    · rename_i e; cases h; rw [e] at this; exact this
    · cases h

theorem SKL.new_load {K : KEnv α κ} {xs : Option (List α)} {s : St α κ} (h : SKL.new K xs = .ok s) :
    s.load = 1000 := by
  unfold SKL.new at h
  split at h
  · cases h; rfl
  · rename_i xs
    have := update_load K xs St.empty
    split at h
    · rename_i e; cases h; rw [e] at this; exact this
    · cases h

theorem histLoad_one {load lo : Nat} (op : Op α) (h : ∀ l, op = .reset l → lo ≤ l) (h0 : lo ≤ load) :
    lo ≤ histLoad load [op] := by
  cases op <;> first | exact h0 | exact h _ rfl

theorem SL.hist_load_ge {E : Env α} (ops : List (Op α)) (h : ∀ op ∈ ops, ∀ l, op = .reset l → 4 ≤ l) {s : St α α}
    (hs : 4 ≤ s.load) : 4 ≤ (runHist (SL.api E).step ops s).2.load := by
  induction ops generalizing s with
  | nil => exact hs
  | cons op ops ih =>
    refine ih (fun o ho => h o (by simp [ho])) ?_
    rw [SL.step_load]
    exact histLoad_one op (h op (by simp)) hs

theorem SKL.hist_load_ge {K : KEnv α κ} (ops : List (KOp α κ)) (h : ∀ op ∈ ops, ∀ l, op = .op (.reset l) → 4 ≤ l)
    {s : St α κ} (hs : 4 ≤ s.load) : 4 ≤ (runHist (SKL.kstep K) ops s).2.load := by
  induction ops generalizing s with
  | nil => exact hs
  | cons op ops ih =>
    refine ih (fun o ho => h o (by simp [ho])) ?_
    cases op with
    | op o =>
      rw [SKL.kstep, SKL.step_load]
      exact histLoad_one o (fun l hl => h (.op o) (by simp) l (by rw [hl])) hs
    | bisectKeyLeft k => rw [SKL.kstep, (bisect_key_left_load K k).out]; exact hs
    | bisectKeyRight k => rw [SKL.kstep, (bisect_key_right_load K k).out]; exact hs
    | irangeKey lo hi a b r => rw [SKL.kstep, (irange_key_load K lo hi a b r).out]; exact hs

end Verif
