import Verif.GenSpec
import Verif.IterSpec
import Verif.Proofs.API
import Verif.Proofs.Keeps
import Verif.Proofs.Laws
import Verif.Proofs.SetHistory
import Verif.Proofs.SortedDict
/-!
# Arguments that use the container they are passed to: refinement
-/

namespace Verif

theorem Spec.out_bind {σ β γ α : Type} (f : γ → Out α) (m : Py σ β) (g : β → Py σ γ) :
    Spec.out f (m >>= g) = m >>= fun b => Spec.out f (g b) := by
  funext s
  simp only [Spec.out, Py.bind_apply]
  rcases m s with ⟨_ | b, s'⟩ <;> rfl

namespace Gen
variable {σ α C R β : Type} {I : σ → Prop} {abs : σ → List α} {step : C → Py σ R} {spec : C → Py (List α) R}
  {P : C → Prop}

theorem drain_refines (h : ∀ op, P op → Refines I abs (step op) (spec op)) (g : Gen C R β) (hg : g.Calls P) :
    Refines I abs (g.drain step) (g.drain spec) := by
  induction g with
  | done => exact Refines.pure _
  | fail e => exact Refines.raise e
  | yield v rest ih => exact Refines.bind (ih hg) fun _ => Refines.pure _
  | call op k ih =>
    intro s hs
    obtain ⟨h1, h2, h3⟩ := h op hg.1 s hs
    have := ih (step op s).1 (hg.2 _) _ h3
    rw [h2] at this
    simp only [drain]
    rw [← h1]
    exact this

theorem drainAll_refines (h : ∀ op, P op → Refines I abs (step op) (spec op)) (gs : List (Gen C R β))
    (hg : ∀ g ∈ gs, g.Calls P) : Refines I abs (drainAll step gs) (drainAll spec gs) :=
  Refines.mapEach gs fun g hm => drain_refines h g (hg g hm)

/-- A generator that changes nothing. -/
theorem drain_query {f : C → Py σ R} (hf : ∀ op, P op → ∀ s, (f op s).2 = s) (g : Gen C R β) (hg : g.Calls P) (s : σ) :
    g.drain f s = (g.listed (fun op => (f op s).1), s) := by
  induction g with
  | done => rfl
  | fail e => rfl
  | yield v rest ih =>
    simp only [drain, listed, Py.bind_apply, ih hg]
    cases rest.listed fun op => (f op s).1 <;> rfl
  | call op k ih =>
    simp only [drain, listed]
    rw [hf op hg.1 s]
    exact ih _ (hg.2 _)

theorem each_preserves {Q : σ → Prop} (h : ∀ op, P op → Preserves Q (step op)) {f : β → Py σ Unit}
    (hf : ∀ v, Preserves Q (f v)) (g : Gen C R β) (hg : g.Calls P) : Preserves Q (g.each step f) := by
  induction g with
  | done => exact Preserves.pure _
  | fail e => exact Preserves.raise e
  | yield v rest ih => exact Preserves.bind (hf v) fun _ => ih hg
  | call op k ih => exact fun s hs => ih _ (hg.2 _) _ (h op hg.1 s hs)

theorem Calls.mono {P Q : C → Prop} (h : ∀ op, P op → Q op) {g : Gen C R β} (hg : g.Calls P) : g.Calls Q := by
  induction g with
  | done => trivial
  | fail e => trivial
  | yield v rest ih => exact ih hg
  | call op k ih => exact ⟨h op hg.1, fun r => ih r (hg.2 r)⟩

theorem ofList_calls (vs : List β) : (ofList vs : Gen C R β).Calls P := by
  induction vs with
  | nil => trivial
  | cons v vs ih => exact ih

theorem drain_ofList (f : C → Py σ R) (vs : List β) (s : σ) : (ofList vs).drain f s = (.ok vs, s) := by
  induction vs with
  | nil => rfl
  | cons v vs ih => simp only [ofList, drain, Py.bind_apply, ih]; rfl

end Gen

/-! ## Sorted lists -/

theorem ListAPI.Lawful.genStep {σ α C : Type} {L : ListAPI σ α} {O : Spec.Order α} {I : σ → Prop} (h : L.Lawful O I)
    {step : C → Py σ (Out α)} {spec : C → Py (List α) (Out α)} {P : C → Prop}
    (hstep : ∀ op, P op → Refines I L.iter (step op) (spec op)) (op : GenOp C α) (ho : op.Calls P) :
    Refines I L.iter (L.genStep step op) (Spec.genStep O spec op) := by
  cases op with
  | plain op => exact hstep op ho
  | update g =>
    simp only [ListAPI.genStep, ListAPI.updateFrom, Spec.out_bind]
    exact Refines.bind (Gen.drain_refines hstep g ho) fun xs => Refines.out (fun _ => .none) (h.update xs)
  | concat g =>
    intro s hs
    simp only [ListAPI.genStep, ListAPI.concatFrom, Spec.genStep, Spec.out_bind]
    rw [Py.get_bind, Py.get_bind]
    refine Refines.bind (Gen.drain_refines hstep g ho) (fun xs s' hs' => ?_) s hs
    obtain ⟨s2, e2, _, h2⟩ := h.new (some (L.iter s ++ xs))
    have e : Spec.insertAll O [] (L.iter s ++ xs) = Spec.insertAll O (L.iter s) xs := by
      rw [show Spec.insertAll O [] (L.iter s ++ xs) = Spec.insertAll O (Spec.insertAll O [] (L.iter s)) xs from
        List.foldl_append ..]
      rw [Spec.insertAll_nil_of_sorted h.order (h.sorted s hs)]
    rw [Option.getD_some, e] at h2
    simp only [e2]
    refine ⟨?_, rfl, hs'⟩
    show Except.ok (Out.vals (L.iter s2)) = Except.ok (Out.vals _)
    rw [h2]

/-! ## Sorted sets -/

namespace SS
variable {τ σ α : Type} [DecidableEq α] {S : SetOps τ α} {L : ListAPI σ α} {O : Spec.Order α} {eqv : α → α → Bool}
  {I : σ → Prop}

theorem hits_refines (h : Good S L O eqv I) (ht : Total O eqv) (g : Arg α) (hg : g.Calls SSOp.Valid) :
    Refines (Inv S L I) (iter L) (hits S L g) (SetSpec.hits O g) := by
  induction g with
  | done => exact Refines.pure _
  | fail e => exact Refines.raise e
  | yield v rest ih =>
    intro s hs
    simp only [hits, SetSpec.hits, Py.get_bind]
    have : S.mem v s.set = decide (v ∈ iter L s) := by rw [Inv.mem h hs, ht.any]; rfl
    have := Refines.bind (g := fun vs => Pure.pure (if S.mem v s.set then v :: vs else vs))
      (g' := fun vs => Pure.pure (if v ∈ iter L s then v :: vs else vs)) (ih hg) (fun vs => by
        rw [this]; simp only [decide_eq_true_eq]; exact Refines.pure _) s hs
    exact this
  | call op k ih =>
    intro s hs
    obtain ⟨h1, h2, h3⟩ := step_refines h ht op hg.1 s hs
    have := ih (step S L op s).1 (hg.2 _) _ h3
    rw [h2] at this
    simp only [hits, SetSpec.hits]
    rw [← h1]
    exact this

theorem replace_refines (h : Good S L O eqv I) (ht : Total O eqv) (vs : List α) :
    Refines (Inv S L I) (iter L) (do onSet fun _ => S.ofList vs; rebuild S L)
      (fun _ => (.ok (), SetSpec.insertAll O [] vs)) := Refines.of fun s hs => by
  simp only [onSet, Py.modify_bind]
  obtain ⟨s', e, h1, h2⟩ := rebuild_ok h (s := { s with set := S.ofList vs }) hs.list
  refine ⟨s', e, ?_, h1⟩
  obtain ⟨f1, f2, f3⟩ := insertAll_facts (O := O) h.list.order Spec.sorted_nil List.nodup_nil vs
  refine Inv.unique h ht h1 f1 f2 fun x => ?_
  rw [iter, ← any_perm h1.perm, h2, any_ofList h, ht.any, Bool.eq_iff_iff, decide_eq_true_iff, decide_eq_true_iff, f3]
  simp

theorem genStep_refines (h : Good S L O eqv I) (ht : Total O eqv) (op : SSGenOp α) (ho : op.Calls SSOp.Valid) :
    Refines (Inv S L I) (iter L) (genStep S L op) (SetSpec.genStep O op) := by
  have hstep := fun op hv => step_refines (I := I) h ht op hv
  cases op with
  | plain op => exact hstep op ho
  | update gs =>
    simp only [genStep, updateFrom, Spec.out_bind]
    exact Refines.bind (Gen.drainAll_refines hstep gs ho) fun xss => hstep (.update xss) trivial
  | differenceUpdate gs =>
    simp only [genStep, differenceUpdateFrom, Spec.out_bind]
    exact Refines.bind (Gen.drainAll_refines hstep gs ho) fun xss => hstep (.differenceUpdate xss) trivial
  | symmetricDifferenceUpdate g =>
    simp only [genStep, symmetricDifferenceUpdateFrom, Spec.out_bind]
    exact Refines.bind (Gen.drain_refines hstep g ho) fun xs => hstep (.symmetricDifferenceUpdate xs) trivial
  | intersectionUpdate g =>
    simp only [genStep, intersectionUpdateFrom, Spec.out_bind]
    refine Refines.bind (hits_refines h ht g ho) fun vs => ?_
    have := Refines.out (fun _ => Out.none) (replace_refines (I := I) h ht vs)
    simp only [Spec.out_bind] at this
    exact this

end SS

/-! ## Sorted dicts -/

namespace SD
variable {κ ν σ : Type} {L : ListAPI σ κ} {O : Spec.Order κ} {eqv : κ → κ → Bool} {I : σ → Prop}

theorem out_bind {τ β γ : Type} (f : γ → DOut κ ν) (m : Py τ β) (g : β → Py τ γ) :
    SD.out f (m >>= g) = m >>= fun b => SD.out f (g b) := by
  funext s
  simp only [SD.out, Py.bind_apply]
  rcases m s with ⟨_ | b, s'⟩ <;> rfl

theorem storePairs_refines (h : Good L O eqv I) (pairs : List (κ × ν)) :
    Refines (Inv L O eqv I) SD.dict (storePairs eqv L pairs) (DictSpec.assign fun d => PyDict.update eqv d pairs) :=
  Refines.of fun s hs => by
    obtain ⟨d, l⟩ := s
    unfold storePairs
    simp only [Py.get_bind]
    split
    · simp only [dictUpdate, DictArg.fail, DictArg.items, onDict, Py.bind_assoc', Py.modify_bind, Py.pure_bind']
      obtain ⟨l', e, h1, h2⟩ := onList_run (s := ({ dict := PyDict.update eqv d pairs, list := l } : SD κ ν σ))
        h.list.clear hs.list rfl
      rw [Py.bind_ok e]
      simp only [Py.get_bind]
      obtain ⟨l2, e2, h3, h4⟩ := onList_run (s := ({ dict := PyDict.update eqv d pairs, list := l' } : SD κ ν σ))
        (h.list.update (PyDict.keys (PyDict.update eqv d pairs))) h2 rfl
      refine ⟨_, e2, rfl, h4, PyDict.Keyed.update hs.keyed _, ?_⟩
      show L.iter l2 = _
      rw [h3]
      show Spec.insertAll O (L.iter l') _ = _
      rw [h1]; rfl
    · obtain ⟨s', e, h1, h2⟩ := (forEach_setitem h pairs).eq_of hs rfl
      exact ⟨s', e, h1, h2⟩

theorem updateFrom_refines (h : Good L O eqv I) (g : Arg κ ν) (hg : g.Calls SDOp.Valid) {s : SD κ ν σ}
    (hs : Inv L O eqv I s) (hne : s.dict ≠ []) :
    let real := SD.out (fun _ => .none) (updateFrom eqv L g) s
    let spec := DictSpec.updateFrom eqv O g s.dict
    real.1 = spec.1 ∧ real.2.dict = spec.2 ∧ Inv L O eqv I real.2 := by
  have hl : s.dict.length ≠ 0 := fun e => hne (List.length_eq_zero_iff.1 e)
  have e : SD.out (fun _ => (DOut.none : DOut κ ν)) (updateFrom eqv L g) s =
      (g.drain (step eqv L) >>= fun items => SD.out (fun _ => .none) (storePairs eqv L (PyDict.ofPairs eqv items))) s := by
    rw [← out_bind]
    simp only [SD.out, Py.bind_apply, updateFrom, Py.get, hl, if_false]
  intro real spec
  simp only [real, e]
  refine Refines.bind (Gen.drain_refines (fun op hv => step_refines h op hv) g hg) (fun items => ?_) s hs
  have := out_refines (fun _ => (DOut.none : DOut κ ν)) (storePairs_refines (I := I) h (PyDict.ofPairs eqv items))
  have e2 : (fun d => PyDict.update eqv d (PyDict.ofPairs eqv items)) = fun d => PyDict.update eqv d items := by
    funext d; exact PyDict.update_ofPairs h.equiv d items
  rw [e2] at this
  exact this

/-- Nothing but the index of the list of keys is changed. -/
abbrev Untouched (L : ListAPI σ κ) (I : σ → Prop) (l : List κ) (d : List (κ × ν)) (s : SD κ ν σ) : Prop :=
  I s.list ∧ L.iter s.list = l ∧ s.dict = d

section Half
variable {l : List κ} {d : List (κ × ν)}

theorem onList_untouched {β : Type} {m : Py σ β} {f : Py (List κ) β} (hm : Refines I L.iter m f) (hf : ∀ l, (f l).2 = l) :
    Preserves (Untouched (ν := ν) L I l d) (onList m) := fun s hs => by
  obtain ⟨_, h2, h3⟩ := hm s.list hs.1
  refine ⟨h3, ?_, hs.2.2⟩
  show L.iter (m s.list).2 = l
  rw [h2, hf]; exact hs.2.1

theorem getitem_untouched (k : κ) : Preserves (Untouched L I l d) (getitem eqv k : Py (SD κ ν σ) ν) :=
  Preserves.bind Preserves.get fun _ => Preserves.lift _

theorem out_untouched {β : Type} {m : Py (SD κ ν σ) β} (h : Preserves (Untouched L I l d) m) (f : β → DOut κ ν) :
    Preserves (Untouched L I l d) (SD.out f m) := Preserves.bind h fun _ => Preserves.pure _

theorem itemsOf_untouched (f : SD κ ν σ → Except PyErr (SD κ ν σ)) :
    Preserves (Untouched L I l d) (itemsOf eqv L f) := fun s hs => by unfold itemsOf; split <;> exact hs

/-- A query changes nothing, whether or not the list of keys goes with the dict. -/
theorem query_untouched (h : L.Lawful O I) (op : SDOp κ ν) (hq : op.isQuery = true) :
    Preserves (Untouched L I l d) (step eqv L op) := by
  have gi : ∀ i, Preserves (Untouched (ν := ν) L I l d) (onList (L.getInt i)) := fun i =>
    onList_untouched (h.getInt i) (fun l => by unfold Spec.getInt; split <;> rfl)
  have gs : ∀ sl, Preserves (Untouched (ν := ν) L I l d) (onList (L.getSlice sl)) := fun sl =>
    onList_untouched (h.getSlice sl) (spec_getSlice_snd sl)
  have rd : ∀ {β : Type} (f : SD κ ν σ → Except PyErr β), Preserves (Untouched L I l d) (read f) := fun _ _ hs => hs
  have pk : ∀ i, Preserves (Untouched L I l d) (peekitem eqv L i : Py (SD κ ν σ) _) := fun i =>
    Preserves.bind (gi i) fun _ => Preserves.bind (getitem_untouched _) fun _ => Preserves.pure _
  cases op with
  | peekitem i => exact out_untouched (pk i) _
  | itemsAt i => exact out_untouched (pk i) _
  | getitem k => exact out_untouched (getitem_untouched k) _
  | get k => exact out_untouched (rd _) _
  | contains k => exact out_untouched (rd _) _
  | len => exact out_untouched (rd _) _
  | iter => exact out_untouched (rd _) _
  | reversed => exact out_untouched (rd _) _
  | items => exact out_untouched (rd _) _
  | values => exact out_untouched (rd _) _
  | keysAt i => exact out_untouched (gi i) _
  | keysSlice sl => exact out_untouched (gs sl) _
  | itemsSlice sl =>
    exact out_untouched (Preserves.bind (gs sl) fun _ => Preserves.mapEach (fun _ =>
      Preserves.bind (getitem_untouched _) fun _ => Preserves.pure _) _) _
  | valuesAt i => exact out_untouched (Preserves.bind (gi i) fun _ => getitem_untouched _) _
  | valuesSlice sl =>
    exact out_untouched (Preserves.bind (gs sl) fun _ => Preserves.mapEach (fun _ => getitem_untouched _) _) _
  | bisectLeft k => exact out_untouched (onList_untouched (h.bisectLeft k) fun _ => rfl) _
  | bisectRight k => exact out_untouched (onList_untouched (h.bisectRight k) fun _ => rfl) _
  | index k a b => exact out_untouched (onList_untouched (h.index k a b) (fun l => by unfold Spec.index; dsimp only; split <;> rfl)) _
  | irange lo hi a b r => exact out_untouched (onList_untouched (h.irange lo hi a b r) fun _ => rfl) _
  | islice a b r => exact out_untouched (onList_untouched (h.islice a b r) fun _ => rfl) _
  | copy => exact out_untouched (itemsOf_untouched _) _
  | or other => exact out_untouched (itemsOf_untouched _) _
  | ror other => exact out_untouched (itemsOf_untouched _) _
  | _ => cases hq

end Half

/-- The list of keys is empty while the pairs arrive; the dict has no two equal keys. -/
abbrev Filling (L : ListAPI σ κ) (eqv : κ → κ → Bool) (I : σ → Prop) (s : SD κ ν σ) : Prop :=
  I s.list ∧ L.iter s.list = [] ∧ PyDict.Keyed eqv s.dict

theorem fill_preserves (h : Good L O eqv I) (g : Arg κ ν) (hg : g.Calls fun op => op.isQuery = true) :
    Preserves (Filling L eqv I) (g.each (step eqv L) fun p => onDict fun d => PyDict.set eqv d p.1 p.2) := by
  refine Gen.each_preserves (fun op hq s hs => ?_) (fun p s hs => ⟨hs.1, hs.2.1, ?_⟩) g hg
  · obtain ⟨h1, h2, h3⟩ := query_untouched (eqv := eqv) h.list op hq s ⟨hs.1, hs.2.1, rfl⟩
    exact ⟨h1, h2, by rw [h3]; exact hs.2.2⟩
  · exact PyDict.Keyed.update hs.2.2 [p]

/-- The answers and the dict while the pairs arrive, if only the dict is asked. -/
theorem fill_spec (O : Spec.Order κ) (L : ListAPI σ κ) (g : Arg κ ν) (hg : g.Calls fun op => op.isLookup = true) (s : SD κ ν σ) :
    let real := g.each (step eqv L) (fun p => onDict fun d => PyDict.set eqv d p.1 p.2) s
    let spec := DictSpec.assignFrom eqv O g s.dict
    real.1 = spec.1 ∧ real.2.dict = spec.2 := by
  unfold DictSpec.assignFrom
  induction g generalizing s with
  | done => exact ⟨rfl, rfl⟩
  | fail e => exact ⟨rfl, rfl⟩
  | yield p rest ih => exact ih hg { s with dict := PyDict.set eqv s.dict p.1 p.2 }
  | call op k ih =>
    have e : (step eqv L op s).1 = (DictSpec.step eqv O op s.dict).1 ∧ (step eqv L op s).2 = s ∧
        (DictSpec.step eqv O op s.dict).2 = s.dict := by
      have hq := hg.1
      cases op with
      | getitem k =>
        simp only [step, SD.out, DictSpec.step, DictSpec.out, getitem, Py.bind_apply, Py.get, DictSpec.query]
        cases PyDict.getitem eqv s.dict k <;> exact ⟨rfl, rfl, rfl⟩
      | get k => exact ⟨rfl, rfl, rfl⟩
      | contains k => exact ⟨rfl, rfl, rfl⟩
      | len => exact ⟨rfl, rfl, rfl⟩
      | _ => cases hq
    simp only [Gen.each]
    rw [e.2.1, e.2.2, ← e.1]
    exact ih _ (hg.2 _) s

theorem updateFrom_empty (h : Good L O eqv I) (g : Arg κ ν) (hg : g.Calls fun op => op.isQuery = true) {s : SD κ ν σ}
    (hs : Inv L O eqv I s) (h0 : s.dict = []) :
    let fill := g.each (step eqv L) (fun p => onDict fun d => PyDict.set eqv d p.1 p.2) s
    (updateFrom eqv L g s).1 = fill.1 ∧ (updateFrom eqv L g s).2.dict = fill.2.dict ∧
      (fill.1 = .ok () → Inv L O eqv I (updateFrom eqv L g s).2) := by
  intro fill
  have hf := fill_preserves h g hg s ⟨hs.list, by rw [hs.iter, h0]; rfl, hs.keyed⟩
  have hl : s.dict.length = 0 := by rw [h0]; rfl
  have e : updateFrom eqv L g s = (do
      g.each (step eqv L) fun (p : κ × ν) => onDict fun d => PyDict.set eqv d p.1 p.2
      let s ← Py.get
      onList (L.update (PyDict.keys s.dict))) s := by
    simp only [updateFrom, Py.bind_apply, Py.get, hl, if_true]
  rw [e]
  rcases hr : g.each (step eqv L) (fun p => onDict fun d => PyDict.set eqv d p.1 p.2) s with ⟨r, s'⟩
  have hfill : fill = (r, s') := hr
  rw [hr] at hf
  cases r with
  | error e =>
    rw [Py.bind_apply, hr, hfill]
    exact ⟨rfl, rfl, fun hh => by cases hh⟩
  | ok u =>
    rw [Py.bind_ok hr, Py.get_bind, hfill]
    obtain ⟨l', e1, h1, h2⟩ := onList_run (s := s') (h.list.update (PyDict.keys s'.dict)) hf.1 rfl
    rw [e1]
    refine ⟨rfl, rfl, fun _ => ⟨h2, hf.2.2, ?_⟩⟩
    show L.iter l' = _
    rw [h1]
    show Spec.insertAll O (L.iter s'.list) _ = _
    rw [hf.2.1]; rfl

end SD
end Verif
