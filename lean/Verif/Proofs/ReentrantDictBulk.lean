import Verif.Proofs.ReentrantDictCalls
import Verif.Proofs.ReentrantSetBulk
/-!
# Sorted dicts whose comparisons and key function query them, and are right whatever they are told
-/

namespace Verif
namespace Reent
namespace SD
variable {σ W κ ν β γ : Type}

section
variable {eqv : κ → κ → Bool} {L : ListAPI σ κ} {Re : σ → σ → Prop} {L' : RListAPI (List (κ × ν) × W) σ κ} {d0 : List (κ × ν)} {s0 : σ}

/-- A query, whatever the state of the dict, changes the positional index at most. -/
theorem query_idle (hs : L.Settled Re) (hL : L'.Idle Re (fun w => w.1 = d0 ∧ True) s0) (op : SDOp κ ν) (hq : op.isQuery = true)
    (p : SD κ ν σ × W) (hp : Same Re (fun _ => True) d0 s0 p.1) : Same Re (fun _ => True) d0 s0 (step eqv L L' op p).2.1 := by
  let P : SD κ ν σ × W → Prop := fun p => Same Re (fun _ => True) d0 s0 p.1
  let P' : SD κ ν σ → Prop := Same Re (fun _ => True) d0 s0
  have out : ∀ {β : Type} (f : β → DOut κ ν) {m : RPy W (SD κ ν σ) β}, Preserves P m →
      Same Re (fun _ => True) d0 s0 (Verif.SD.out f m p).2.1 := by
    intro β f m hm
    rw [out_snd]
    exact hm p hp
  have list : ∀ {β : Type} {m : RPy (List (κ × ν) × W) σ β},
      Preserves (fun p : σ × (List (κ × ν) × W) => Re s0 p.1 ∧ p.2.1 = d0 ∧ True) m → Preserves P (onList m) := by
    intro β m hm p hp
    obtain ⟨h1, h2, -⟩ := hm (p.1.list, p.1.dict, p.2) ⟨hp.re, hp.dict, trivial⟩
    exact ⟨h2, h1, trivial⟩
  have quiet : ∀ {β : Type} (f' : β → DOut κ ν) {f : Py (SD κ ν σ) β}, Preserves P' f →
      Same Re (fun _ => True) d0 s0 (free (W := W) (Verif.SD.out f' f) p).2.1 := by
    intro β f' f hf
    show Same Re _ d0 s0 (Verif.SD.out f' f p.1).2
    rw [out_snd]
    exact hf _ hp
  have ol : ∀ {β : Type} {f : Py σ β}, (∀ s, Re s (f s).2) → Preserves P' (Verif.SD.onList f) :=
    fun hf s hp => ⟨hp.dict, hs.trans hp.re (hf _), trivial⟩
  have gi : ∀ k, Preserves P' (Verif.SD.getitem eqv k : Py (SD κ ν σ) ν) := fun k s hp => hp
  have it : ∀ k, Preserves P' (do let v ← Verif.SD.getitem eqv k; pure (k, v) : Py (SD κ ν σ) (κ × ν)) := fun k =>
    Preserves.bind (gi k) fun _ => Preserves.pure _
  have made : ∀ pairs, Preserves P (newItems eqv L L' pairs) := fun pairs =>
    Preserves.bind (fun _ hp => hp) fun _ => Preserves.bind (fun _ hp => hp) fun _ =>
      Preserves.bind (list (hL.newValues _)) fun _ _ hp => hp
  cases op with
  | bisectLeft v => exact out _ (list (hL.bisectLeft v))
  | bisectRight v => exact out _ (list (hL.bisectRight v))
  | index v a b => exact out _ (list (hL.index v a b))
  | irange lo hi a b r => exact out _ (list (hL.irange lo hi a b r))
  | copy => exact out _ (made _)
  | or => exact out _ (made _)
  | ror => exact out _ (made _)
  | peekitem i => exact quiet _ (Preserves.bind (ol (hs.getInt i)) it)
  | itemsAt i => exact quiet _ (Preserves.bind (ol (hs.getInt i)) it)
  | valuesAt i => exact quiet _ (Preserves.bind (ol (hs.getInt i)) gi)
  | itemsSlice sl => exact quiet _ (Preserves.bind (ol (hs.getSlice sl)) fun _ => Preserves.mapEach it _)
  | valuesSlice sl => exact quiet _ (Preserves.bind (ol (hs.getSlice sl)) fun _ => Preserves.mapEach gi _)
  | keysAt i => exact quiet _ (ol (hs.getInt i))
  | keysSlice sl => exact quiet _ (ol (hs.getSlice sl))
  | islice a b r => exact quiet _ (ol (hs.islice a b r))
  | getitem k => exact quiet _ (gi k)
  | get k => exact quiet _ fun _ hp => hp
  | contains k => exact quiet _ fun _ hp => hp
  | len => exact quiet _ fun _ hp => hp
  | iter => exact quiet _ fun _ hp => hp
  | reversed => exact quiet _ fun _ hp => hp
  | items => exact quiet _ fun _ hp => hp
  | values => exact quiet _ fun _ hp => hp
  | _ => cases hq

end

/-! ## Calls -/

section
variable {eqv : κ → κ → Bool} {L : ListAPI σ κ} {O : Spec.Order κ} {I : σ → Prop} {Re : σ → σ → Prop}

/-- The same built-in dict, and lists with the same keys. -/
structure Twin (L : ListAPI σ κ) (I : σ → Prop) (s s' : SD κ ν σ) : Prop where
  dict : s.dict = s'.dict
  iter : L.iter s.list = L.iter s'.list
  inv : I s.list
  inv' : I s'.list

/-- `m` does what `f` does, but for the inner structure of the list. -/
def Tracks (L : ListAPI σ κ) (I : σ → Prop) (m : RPy W (SD κ ν σ) β) (f : Py (SD κ ν σ) β) : Prop :=
  ∀ p s, Twin L I p.1 s → (m p).1 = (f s).1 ∧ Twin L I (m p).2.1 (f s).2

namespace Tracks

theorem pure (b : β) : Tracks L I (Pure.pure b : RPy W (SD κ ν σ) β) (Pure.pure b) := fun _ _ h => ⟨rfl, h⟩

theorem bind {m : RPy W (SD κ ν σ) β} {f : Py (SD κ ν σ) β} {k : β → RPy W (SD κ ν σ) γ} {g : β → Py (SD κ ν σ) γ}
    (h : Tracks L I m f) (hk : ∀ b, Tracks L I (k b) (g b)) : Tracks L I (m >>= k) (f >>= g) := by
  intro p t hp
  obtain ⟨e, h1⟩ := h p t hp
  rw [Py.bind_apply, Py.bind_apply]
  rcases hm : m p with ⟨r, p'⟩
  rcases hf : f t with ⟨r', t'⟩
  rw [hm, hf] at e h1
  simp only at e h1
  subst e
  cases r with
  | error e => exact ⟨rfl, h1⟩
  | ok b => exact hk b p' t' h1

theorem get_bind {k : SD κ ν σ → RPy W (SD κ ν σ) β} {g : SD κ ν σ → Py (SD κ ν σ) β}
    (h : ∀ r s, Twin L I r s → Tracks L I (k r) (g s)) : Tracks L I (free Py.get >>= k) (Py.get >>= g) :=
  fun p s hp => h p.1 s hp p s hp

theorem out {m : RPy W (SD κ ν σ) β} {f : Py (SD κ ν σ) β} (g : β → DOut κ ν) (h : Tracks L I m f) :
    Tracks L I (Verif.SD.out g m) (Verif.SD.out g f) := .bind h fun _ => .pure _

theorem forEach {δ : Type} {m : δ → RPy W (SD κ ν σ) Unit} {f : δ → Py (SD κ ν σ) Unit} (h : ∀ x, Tracks L I (m x) (f x)) (xs : List δ) :
    Tracks L I (Py.forEach m xs) (Py.forEach f xs) := by
  induction xs with
  | nil => exact pure ()
  | cons x xs ih => exact bind (h x) fun _ => ih

theorem ite {c : Prop} [Decidable c] {m m' : RPy W (SD κ ν σ) β} {f f' : Py (SD κ ν σ) β} (h1 : Tracks L I m f) (h2 : Tracks L I m' f') :
    Tracks L I (if c then m else m') (if c then f else f') := by
  split
  · exact h1
  · exact h2

theorem lift (x : Except PyErr β) : Tracks L I (free (W := W) (Py.lift x : Py (SD κ ν σ) β)) (Py.lift x) := fun _ _ hp => ⟨rfl, hp⟩

theorem onDict (f : List (κ × ν) → List (κ × ν)) : Tracks L I (free (W := W) (Verif.SD.onDict f)) (Verif.SD.onDict (σ := σ) f) := fun p s hp =>
  ⟨rfl, congrArg f hp.dict, hp.iter, hp.inv, hp.inv'⟩

/-- A method of the list that calls no client's code. -/
theorem list {f : Py σ β} {g : Py (List κ) β} (hf : Refines I L.iter f g) :
    Tracks L I (free (W := W) (Verif.SD.onList f)) (Verif.SD.onList (ν := ν) f) := fun p s hp => by
  obtain ⟨a1, a2, a3⟩ := hf p.1.list hp.inv
  obtain ⟨b1, b2, b3⟩ := hf s.list hp.inv'
  rw [hp.iter] at a1 a2
  exact ⟨a1.trans b1.symm, hp.dict, a2.trans b2.symm, a3, b3⟩

/-- A method of the list that calls the client's code. -/
theorem called {m : RPy (List (κ × ν) × W) σ β} {f : Py σ β} {g : Py (List κ) β}
    (hm : ∀ t : List (κ × ν), Refines (fun p : σ × (List (κ × ν) × W) => I p.1 ∧ p.2.1 = t ∧ True) (fun p => L.iter p.1) m g)
    (hf : Refines I L.iter f g) : Tracks L I (Reent.SD.onList m) (Verif.SD.onList f) := fun p s hp => by
  obtain ⟨a1, a2, a3, a4, -⟩ := hm p.1.dict (p.1.list, p.1.dict, p.2) ⟨hp.inv, rfl, trivial⟩
  obtain ⟨b1, b2, b3⟩ := hf s.list hp.inv'
  simp only [hp.iter] at a1 a2
  exact ⟨a1.trans b1.symm, a4.trans hp.dict, a2.trans b2.symm, a3, b3⟩

theorem read (f : SD κ ν σ → Except PyErr β) (hf : ∀ s s', Twin L I s s' → f s = f s') :
    Tracks L I (free (W := W) (Verif.SD.read f)) (Verif.SD.read f) := fun _ _ hp => ⟨hf _ _ hp, hp⟩

theorem free_get_bind {g : SD κ ν σ → Py (SD κ ν σ) β}
    (h : ∀ r s, Twin L I r s → Tracks L I (free (W := W) (g r)) (g s)) : Tracks L I (free (W := W) (Py.get >>= g)) (Py.get >>= g) :=
  fun p s hp => h p.1 s hp p s hp

theorem free_bind {f : Py (SD κ ν σ) β} {g : β → Py (SD κ ν σ) γ} (h : Tracks L I (free (W := W) f) f)
    (hg : ∀ b, Tracks L I (free (W := W) (g b)) (g b)) : Tracks L I (free (W := W) (f >>= g)) (f >>= g) := by
  intro p s hp
  have := h.bind hg p s hp
  rw [show (free f >>= fun b => free (g b)) p = free (W := W) (f >>= g) p by
    rw [Py.bind_apply]
    unfold free
    rw [Py.bind_apply]
    rcases f p.1 with ⟨_ | _, _⟩ <;> rfl] at this
  exact this

theorem free_out {f : Py (SD κ ν σ) β} (g : β → DOut κ ν) (h : Tracks L I (free (W := W) f) f) :
    Tracks L I (free (W := W) (Verif.SD.out g f)) (Verif.SD.out g f) := .free_bind h fun _ => .pure _

theorem free_forEach {δ : Type} {f : δ → Py (SD κ ν σ) Unit} (h : ∀ x, Tracks L I (free (W := W) (f x)) (f x)) (xs : List δ) :
    Tracks L I (free (W := W) (Py.forEach f xs)) (Py.forEach f xs) := by
  induction xs with
  | nil => exact pure ()
  | cons x xs ih => exact free_bind (h x) fun _ => ih

theorem free_mapEach {δ : Type} {f : δ → Py (SD κ ν σ) β} (h : ∀ x, Tracks L I (free (W := W) (f x)) (f x)) (xs : List δ) :
    Tracks L I (free (W := W) (Py.mapEach f xs)) (Py.mapEach f xs) := by
  induction xs with
  | nil => exact pure []
  | cons x xs ih => exact free_bind (h x) fun _ => free_bind ih fun _ => .pure _

theorem getitem (k : κ) : Tracks L I (free (W := W) (Verif.SD.getitem eqv k)) (Verif.SD.getitem (ν := ν) eqv k) := fun p s hp =>
  ⟨congrArg (fun d => PyDict.getitem eqv d k) hp.dict, hp⟩

theorem dictDelitem (k : κ) : Tracks L I (free (W := W) (Verif.SD.dictDelitem eqv k)) (Verif.SD.dictDelitem (ν := ν) eqv k) := by
  refine free_get_bind fun r s hp => ?_
  rw [hp.dict]
  split
  · exact .onDict _
  · exact .lift (.error _)

theorem dictPop (k : κ) : Tracks L I (free (W := W) (Verif.SD.dictPop eqv k)) (Verif.SD.dictPop (ν := ν) eqv k) := by
  refine free_get_bind fun r s hp => ?_
  rw [hp.dict]
  exact free_bind (.lift _) fun _ => free_bind (.onDict _) fun _ => .pure _

theorem dictUpdate (arg : DictArg κ ν) : Tracks L I (free (W := W) (Verif.SD.dictUpdate eqv arg)) (Verif.SD.dictUpdate eqv arg) := by
  refine free_bind (.onDict _) fun _ => ?_
  cases arg.fail with
  | none => exact .pure _
  | some e => exact .lift (.error _)

end Tracks

variable {L' : RListAPI (List (κ × ν) × W) σ κ} (h : Verif.SD.Good L O eqv I) (hs : L.Settled Re)
  (hF : ∀ t : List (κ × ν), L'.Firm L Re O I (fun w : List (κ × ν) × W => w.1 = t ∧ True))
include h hs hF

theorem list_add_tracks (k : κ) : Tracks L I (Reent.SD.onList (L'.add k)) (Verif.SD.onList (L.add k)) :=
  .called (fun t => Writes.refines hs (fun s0 h0 => ((hF t).mimics s0 h0).add k) (h.list.add k)) (h.list.add k)

theorem list_remove_tracks (k : κ) : Tracks L I (Reent.SD.onList (L'.remove k)) (Verif.SD.onList (L.remove k)) :=
  .called (fun t => Writes.refines hs (fun s0 h0 => ((hF t).mimics s0 h0).remove k) (h.list.remove k)) (h.list.remove k)

omit hs in
theorem list_update_tracks (ks : List κ) : Tracks L I (Reent.SD.onList (L'.update ks)) (Verif.SD.onList (L.update ks)) :=
  .called (fun t => (hF t).update ks) (h.list.update ks)

theorem setitem_tracks (k : κ) (v : ν) : Tracks L I (setitem eqv L' k v) (Verif.SD.setitem eqv L k v) := by
  refine .get_bind fun r s hp => ?_
  have e : Verif.SD.contains eqv k r = Verif.SD.contains eqv k s := congrArg (fun d => PyDict.has eqv d k) hp.dict
  rw [e]
  split
  · first | exact .onDict _ | exact .bind (.pure ()) fun _ => .onDict _
  · exact .bind (list_add_tracks h hs hF k) fun _ => .onDict _

theorem update_tracks (arg : DictArg κ ν) : Tracks L I (update eqv L L' arg) (Verif.SD.update eqv L arg) := by
  refine .get_bind fun r s hp => ?_
  have fill : Tracks L I (free Py.get >>= fun s => Reent.SD.onList (L'.update (PyDict.keys s.dict)))
      (Py.get >>= fun s => Verif.SD.onList (L.update (PyDict.keys s.dict))) := .get_bind fun r s hp => by
    rw [hp.dict]
    exact list_update_tracks h hF _
  rw [hp.dict]
  refine .ite (.bind (.dictUpdate _) fun _ => fill) (.bind (.lift _) fun pairs => ?_)
  refine .ite (.bind (.dictUpdate _) fun _ => .bind (.list h.list.clear) fun _ => fill) (.forEach (fun x => setitem_tracks h hs hF _ _) _)

theorem pop_tracks (k : κ) (default : Option ν) : Tracks L I (pop eqv L' k default) (Verif.SD.pop eqv L k default) := by
  refine .get_bind fun r s hp => ?_
  have e : Verif.SD.contains eqv k r = Verif.SD.contains eqv k s := congrArg (fun d => PyDict.has eqv d k) hp.dict
  rw [e]
  refine .ite (.bind (list_remove_tracks h hs hF k) fun _ => .dictPop k) ?_
  cases default with
  | none => exact .lift (.error _)
  | some v => exact .pure v

theorem setdefault_tracks (k : κ) (v : ν) : Tracks L I (setdefault eqv L' k v) (Verif.SD.setdefault eqv L k v) := by
  refine .get_bind fun r s hp => ?_
  have e : Verif.SD.contains eqv k r = Verif.SD.contains eqv k s := congrArg (fun d => PyDict.has eqv d k) hp.dict
  rw [e]
  exact .ite (.getitem k) (.bind (.onDict _) fun _ => .bind (list_add_tracks h hs hF k) fun _ => .pure v)

theorem newItems_tracks (pairs : List (κ × ν) → List (κ × ν)) (f : SD κ ν σ → Except PyErr (SD κ ν σ))
    (hf : ∀ s, f s = (Verif.SD.items eqv L s).bind fun own => Verif.SD.new eqv L (.pairs (pairs own) none)) :
    Tracks L I (Verif.SD.out .items (newItems eqv L L' pairs)) (Verif.SD.out .items (Verif.SD.itemsOf eqv L f)) := by
  intro p s hp
  obtain ⟨e, h1, -⟩ := newItems_same (J := fun _ => True) h hs ((hF p.1.dict).mimics p.1.list hp.inv) pairs (p := p) ⟨rfl, hs.refl _, hp.inv⟩ trivial
  refine ⟨e.trans ?_, ?_⟩
  · rw [made_run h pairs f hf, hp.dict, hp.iter]
  · rw [out_snd (κ := κ) (ν := ν) _ (Verif.SD.itemsOf eqv L f), show (Verif.SD.itemsOf eqv L f s).2 = s by unfold Verif.SD.itemsOf; split <;> rfl]
    exact ⟨h1.dict.trans hp.dict, (hs.iter h1.re).trans hp.iter, h1.inv, hp.inv'⟩

theorem step_tracks (op : SDOp κ ν) (hv : op.Valid) : Tracks L I (step eqv L L' op) (Verif.SD.step eqv L op) := by
  have reads : ∀ {β : Type} {m : RPy (List (κ × ν) × W) σ β} {f : Py σ β} {g : Py (List κ) β},
      (∀ (t : List (κ × ν)) s0, I s0 → Reads Re I (fun w : List (κ × ν) × W => w.1 = t ∧ True) s0 m f) → Refines I L.iter f g → (∀ l, (g l).2 = l) →
      Tracks L I (Reent.SD.onList m) (Verif.SD.onList f) := fun hm hf hg => .called (fun t => Reads.refines hs (hm t) hf hg) hf
  have rd : ∀ {β : Type} (f : β → DOut κ ν) (g : SD κ ν σ → Except PyErr β), (∀ s s', Twin L I s s' → g s = g s') →
      Tracks L I (free (W := W) (Verif.SD.out f (Verif.SD.read g))) (Verif.SD.out f (Verif.SD.read g)) := fun f g hg => (Tracks.read g hg).free_out f
  have it : ∀ k, Tracks L I (free (W := W) (do let v ← Verif.SD.getitem eqv k; pure (k, v) : Py (SD κ ν σ) (κ × ν)))
      (do let v ← Verif.SD.getitem eqv k; pure (k, v)) := fun k => .free_bind (.getitem k) fun _ => .pure _
  cases op with
  | setitem k v => exact (setitem_tracks h hs hF k v).out _
  | delitem k => exact (Tracks.bind (.dictDelitem k) fun _ => list_remove_tracks h hs hF k).out _
  | pop k default => exact (pop_tracks h hs hF k default).out _
  | setdefault k v => exact (setdefault_tracks h hs hF k v).out _
  | update arg => exact (update_tracks h hs hF arg).out _
  | viewDelSlice sl =>
    exact (Tracks.bind (.list (h.list.getSlice sl)) fun ks => .bind (.called (fun t => (hF t).delSlice sl) (h.list.delSlice sl)) fun _ =>
      .free_forEach (fun k => .dictDelitem k) ks).out _
  | bisectLeft v => exact (reads (fun t s0 h0 => ((hF t).mimics s0 h0).bisectLeft v) (h.list.bisectLeft v) fun _ => rfl).out _
  | bisectRight v => exact (reads (fun t s0 h0 => ((hF t).mimics s0 h0).bisectRight v) (h.list.bisectRight v) fun _ => rfl).out _
  | index v a b =>
    exact (reads (fun t s0 h0 => ((hF t).mimics s0 h0).index v a b) (h.list.index v a b) fun _ => by simp only [Spec.index]; split <;> rfl).out _
  | irange lo hi a b r => exact (reads (fun t s0 h0 => ((hF t).mimics s0 h0).irange lo hi a b r) (h.list.irange lo hi a b r) fun _ => rfl).out _
  | reset load => exact (Tracks.called (fun t => (hF t).reset load hv) (h.list.reset load hv)).out _
  | copy => exact newItems_tracks h hs hF id _ fun _ => rfl
  | or other => exact newItems_tracks h hs hF (· ++ other) _ fun _ => rfl
  | ror other => exact newItems_tracks h hs hF (other ++ ·) _ fun _ => rfl
  | clear => exact ((Tracks.onDict _).free_bind fun _ => .list h.list.clear).free_out _
  | popitem i =>
    refine (Tracks.free_get_bind fun r s hp => ?_).free_out _
    rw [hp.dict]
    split
    · exact .lift (.error _)
    · exact .free_bind (.list (h.list.pop i)) fun k => .free_bind (.dictPop k) fun _ => .pure _
  | viewDelInt i => exact ((Tracks.list (h.list.pop i)).free_bind fun k => .dictDelitem k).free_out _
  | peekitem i => exact ((Tracks.list (h.list.getInt i)).free_bind it).free_out _
  | itemsAt i => exact ((Tracks.list (h.list.getInt i)).free_bind it).free_out _
  | valuesAt i => exact ((Tracks.list (h.list.getInt i)).free_bind fun k => .getitem k).free_out _
  | itemsSlice sl => exact ((Tracks.list (h.list.getSlice sl)).free_bind fun ks => .free_mapEach it ks).free_out _
  | valuesSlice sl => exact ((Tracks.list (h.list.getSlice sl)).free_bind fun ks => .free_mapEach (fun k => .getitem k) ks).free_out _
  | keysAt i => exact (Tracks.list (h.list.getInt i)).free_out _
  | keysSlice sl => exact (Tracks.list (h.list.getSlice sl)).free_out _
  | islice a b r => exact (Tracks.list (h.list.islice a b r)).free_out _
  | getitem k => exact (Tracks.getitem k).free_out _
  | get k => exact rd _ _ fun s s' hp => by simp only [Verif.SD.get, hp.dict]
  | contains k => exact rd _ _ fun s s' hp => by simp only [Verif.SD.contains, hp.dict]
  | len => exact rd _ _ fun s s' hp => by simp only [Verif.SD.length, hp.dict]
  | iter => exact rd _ _ fun s s' hp => congrArg Except.ok hp.iter
  | reversed =>
      refine rd _ _ fun s s' hp => ?_
      have e1 := (h.list.reversed s.list hp.inv).1
      have e2 := (h.list.reversed s'.list hp.inv').1
      rw [hp.iter] at e1
      exact e1.trans e2.symm
  | items => exact rd _ _ fun s s' hp => by simp only [Verif.SD.items, Verif.SD.iter, hp.dict, hp.iter]
  | values => exact rd _ _ fun s s' hp => by simp only [Verif.SD.values, Verif.SD.iter, hp.dict, hp.iter]

end

/-! ## The list of a dict -/

section
variable {eqv : κ → κ → Bool} {c : ListClass κ} {C : c.Code (SDQuery κ ν) (DOut κ ν)} {O : Spec.Order κ} {I : c.State → Prop} {D : Nat}

theorem list_firm (h : Verif.SD.Good c.api O eqv I) (hs : c.api.Settled c.Reindexed) (hw : SS.Withstands c O I) (hC : c.Steadfast C)
    (hD : c.Quiet C D) (t : List (κ × ν)) :
    ∀ n d, n + d = D → (list eqv c C n d).Firm c.api c.Reindexed O I (fun w => w.1 = t ∧ True) := by
  intro n
  induction n with
  | zero =>
    intro d hd
    refine hw C D _ d _ hC hD fun code x hx hdone =>
      ⟨fun s0 => inner_yields (J := fun _ => True) fun p hp _ => ?_, fun s0 h0 => inner_yields (J := fun _ => True) fun p hp _ => ?_⟩
    · have := calling_mute (P := Same c.Reindexed (fun _ => True) t s0) (query := fun _ => Py.raise .modelGap) hx (hdone (by omega)) p hp
      exact ⟨this.1, this.2, trivial⟩
    · have := calling_mute (P := Same c.Reindexed I t s0) (query := fun _ => Py.raise .modelGap) hx (hdone (by omega)) p hp
      exact ⟨this.1, this.2, trivial⟩
  | succ n ih =>
    intro d hd
    have hn := ih (d + 1) (by omega)
    refine hw C D _ d _ hC hD fun code x hx hdone =>
      ⟨fun s0 => inner_yields (J := fun _ => True) fun p hp _ => ?_, fun s0 h0 => inner_yields (J := fun _ => True) fun p hp _ => ?_⟩
    · have := calling_keeps (P := Same c.Reindexed (fun _ => True) t s0)
        (fun q p hp => query_idle (eqv := eqv) hs (hn.idle s0) q.1 q.2 p hp) hx p hp
      exact ⟨this.1, this.2, trivial⟩
    · have := calling_keeps (P := Same c.Reindexed I t s0) (fun q p hp =>
        (query_same (J := fun _ => True) h hs (hn.mimics s0 h0) q.1 q.2 hp trivial).2.1) hx p hp
      exact ⟨this.1, this.2, trivial⟩

/-- One call. -/
theorem firm_refines (h : Verif.SD.Good c.api O eqv I) (hs : c.api.Settled c.Reindexed) (hw : SS.Withstands c O I)
    (hC : c.Steadfast C) (hD : c.Quiet C D) (op : SDOp κ ν) (hv : op.Valid) :
    Refines (fun p : SD κ ν c.State × Seen (SDQuery κ ν) (DOut κ ν) => Verif.SD.Inv c.api O eqv I p.1) (fun p => p.1.dict)
      (step eqv c.api (list eqv c C D 0) op) (DictSpec.step eqv O op) := by
  intro p hp
  obtain ⟨e, ht'⟩ := step_tracks h hs (fun t => list_firm h hs hw hC hD t D 0 rfl) op hv p p.1 ⟨rfl, rfl, hp.list, hp.list⟩
  obtain ⟨r1, r2, r3⟩ := Verif.SD.step_refines h op hv p.1 hp
  refine ⟨e.trans r1, ht'.dict.trans r2, ht'.inv, ?_, ?_⟩
  · rw [ht'.dict]; exact r3.keyed
  · rw [ht'.dict, ht'.iter]; exact r3.iter

end

end SD
end Reent
end Verif
