import Verif.Proofs.LockedSets
import Verif.Proofs.SortedDict
/-!
# Calls on a SortedDict under a lock
-/

namespace Verif
variable {κ ν β γ σ σ' : Type}

namespace Race
namespace SD

open PyDict

/-- The same built-in dict, and the same list. -/
def Pair (R : σ → σ' → Prop) (s : Verif.SD κ ν σ) (t : Verif.SD κ ν σ') : Prop := s.dict = t.dict ∧ R s.list t.list

theorem alone_onList (m : Task σ β) (s : Verif.SD κ ν σ) : (onList m).alone s = (m.alone s.list).map fun r => (r.1, { s with list := r.2 }) := by
  induction m generalizing s with
  | ret x => rfl
  | act f k ih => exact ih s.list { s with list := f s.list }
  | spin => rfl

variable {R : σ → σ' → Prop} {s : Verif.SD κ ν σ} {t : Verif.SD κ ν σ'} {eqv : κ → κ → Bool}

theorem same_onList {f : γ → β} {m : Task σ β} {p : Py σ' γ} (hP : Pair R s t) (h : Same R f m s.list p t.list) : Same (Pair R) f (onList m) s (Verif.SD.onList p) t := by
  obtain ⟨l, e, h⟩ := h
  exact ⟨{ s with list := l }, by rw [alone_onList, e]; rfl, hP.1, h⟩

theorem same_onDict {f : List (κ × ν) → List (κ × ν)} (hP : Pair R s t) : Same (Pair R) id (onDict f) s (Verif.SD.onDict f) t :=
  ⟨{ s with dict := f s.dict }, rfl, by show f s.dict = f t.dict; rw [hP.1], hP.2⟩

theorem same_see {f : List (κ × ν) → Except PyErr β} (hP : Pair R s t) : Same (Pair R) id (seeDict f) s (Verif.SD.read fun s => f s.dict) t := by
  refine ⟨s, ?_, hP⟩
  simp only [seeDict, Verif.SD.read, Task.see, Task.alone, hP.1]
  cases f t.dict <;> rfl

theorem same_getitem (k : κ) (hP : Pair R s t) : Same (Pair R) id (getitem eqv k) s (Verif.SD.getitem eqv k) t := same_see hP

theorem has_of_getitem {d : List (κ × ν)} {k : κ} : (∃ v, PyDict.getitem eqv d k = .ok v ∧ has eqv d k = true) ∨ PyDict.getitem eqv d k = .error .keyError ∧ has eqv d k = false := by
  unfold PyDict.getitem lookup has
  cases hf : d.find? fun p => eqv p.1 k with
  | none =>
    refine .inr ⟨rfl, ?_⟩
    rw [List.any_eq_false]
    exact fun p hp => List.find?_eq_none.1 hf p hp
  | some p => exact .inl ⟨p.2, rfl, List.any_eq_true.2 ⟨p, List.mem_of_find?_eq_some hf, List.find?_some (p := fun p : κ × ν => eqv p.1 k) hf⟩⟩

theorem same_dictPop (k : κ) (hP : Pair R s t) : Same (Pair R) id (dictPop eqv k) s (Verif.SD.dictPop eqv k) t := by
  have e0 : (dictPop eqv k).alone s = some (PyDict.getitem eqv t.dict k, { s with dict := erase eqv t.dict k }) := by
    rw [← hP.1]; rfl
  refine ⟨{ s with dict := erase eqv t.dict k }, ?_, ?_⟩
  · rw [e0]
    rcases has_of_getitem (eqv := eqv) (d := t.dict) (k := k) with ⟨v, e, -⟩ | ⟨e, -⟩
    · simp only [Verif.SD.dictPop, Py.get_bind, e, Py.lift_ok_bind]; rfl
    · simp only [Verif.SD.dictPop, Py.get_bind, e]; rfl
  · rcases has_of_getitem (eqv := eqv) (d := t.dict) (k := k) with ⟨v, e, -⟩ | ⟨e, e'⟩
    · simp only [Verif.SD.dictPop, Py.get_bind, e, Py.lift_ok_bind]
      exact ⟨rfl, hP.2⟩
    · simp only [Verif.SD.dictPop, Py.get_bind, e]
      exact ⟨erase_absent e', hP.2⟩

/-- `dict.__delitem__` is `dict.pop` whose answer is thrown away. -/
theorem dictDelitem_eq (k : κ) : (Verif.SD.dictDelitem eqv k : Py (Verif.SD κ ν σ') Unit) = (do let _ ← Verif.SD.dictPop eqv k; pure ()) := by
  funext t
  rcases has_of_getitem (eqv := eqv) (d := t.dict) (k := k) with ⟨v, e, e'⟩ | ⟨e, e'⟩
  · simp only [Verif.SD.dictDelitem, Py.get_bind, e', if_true]
    rw [Py.bind_ok (m := Verif.SD.dictPop eqv k) (a := v) (s' := { t with dict := erase eqv t.dict k }) (by simp only [Verif.SD.dictPop, Py.get_bind, e, Py.lift_ok_bind]; rfl)]
    rfl
  · simp only [Verif.SD.dictDelitem, Py.get_bind, e', Bool.false_eq_true, if_false]
    rw [Py.bind_error (m := Verif.SD.dictPop eqv k) (e := .keyError) (s' := t) (by simp only [Verif.SD.dictPop, Py.get_bind, e]; rfl)]
    rfl

theorem same_dictDelitem (k : κ) (hP : Pair R s t) : Same (Pair R) id (do let _ ← dictPop eqv k; pure ()) s (Verif.SD.dictDelitem eqv k) t := by
  rw [dictDelitem_eq]
  exact Same.bind (same_dictPop k hP) fun _ _ _ hP' => Same.pure hP' rfl

theorem alone_mapEach {f : κ → Task (Verif.SD κ ν σ) β} {g : κ → Except PyErr β} (h : ∀ k, (f k).alone s = some (g k, s)) : ∀ ks, (mapEach f ks).alone s = some (mapE g ks, s)
  | [] => rfl
  | k :: ks => by
    rw [mapEach, Task.alone_bind', h k, mapE]
    cases g k with
    | error e => rfl
    | ok b =>
      simp only
      rw [Task.alone_bind', alone_mapEach h ks]
      cases mapE g ks <;> rfl

variable {W : RaceAPI σ κ} {L : ListAPI σ' κ} {O : Spec.Order κ} {I : σ' → Prop} {room : Nat}

theorem set_le (d : List (κ × ν)) (k : κ) (v : ν) : (PyDict.set eqv d k v).length ≤ d.length + 1 := by
  unfold PyDict.set; split <;> simp

theorem update_le (ps : List (κ × ν)) : ∀ d : List (κ × ν), (PyDict.update eqv d ps).length ≤ d.length + ps.length := by
  unfold PyDict.update
  induction ps with
  | nil => intro d; simp
  | cons p ps ih =>
    intro d
    have h1 := ih (PyDict.set eqv d p.1 p.2)
    have h2 := set_le (eqv := eqv) d p.1 p.2
    rw [List.foldl_cons, List.length_cons]; omega

theorem iter_length (h : Verif.SD.Good L O eqv I) (hi : Verif.SD.Inv L O eqv I t) : (L.iter t.list).length = t.dict.length := by
  rw [hi.iter, (DictSpec.sortedKeys_sort h.order t.dict).perm.length_eq, PyDict.keys, List.length_map]

section
variable (hT : W.Tracks L R room) (h : Verif.SD.Good L O eqv I) (hP : Pair R s t)
include hT hP

theorem same_clear : Same (Pair R) id (clear W) s (Verif.SD.clear L) t :=
  Same.bind (same_onDict hP) fun _ _ _ hP' => same_onList hP' (hT.clear hP'.2)

theorem same_delitem (k : κ) (hr : (L.iter t.list).length < room) : Same (Pair R) id (delitem eqv W k) s (Verif.SD.delitem eqv L k) t := by
  unfold delitem Verif.SD.delitem
  have e : (do let _ ← dictPop eqv k; onList (W.remove k) : Task (Verif.SD κ ν σ) Unit).alone s = (do (do let _ ← dictPop eqv k; pure ()); onList (W.remove k)).alone s := by
    simp only [Task.alone_bind', Task.alone_pure]
    rcases (dictPop eqv k).alone s with _ | ⟨_ | _, _⟩ <;> rfl
  unfold Same
  rw [e]
  refine Same.bind (same_dictDelitem k hP) fun _ _ e' hP' => same_onList hP' (hT.remove k hP'.2 ?_)
  have : (Verif.SD.dictDelitem eqv k t).2.list = t.list := by
    unfold Verif.SD.dictDelitem; simp only [Py.get_bind]; split <;> rfl
  rw [this]; exact hr

theorem same_setitem (k : κ) (v : ν) (hr : (L.iter t.list).length + 1 < room) : Same (Pair R) id (setitem eqv W k v) s (Verif.SD.setitem eqv L k v) t := by
  unfold setitem Verif.SD.setitem
  refine Same.see (Same.get ?_)
  show Same (Pair R) id (if has eqv s.dict k = true then _ else _) s (if has eqv t.dict k = true then _ else _) t
  refine Same.ite (by rw [hP.1]) (fun _ => ?_) fun _ => ?_
  · exact same_onDict hP
  · exact Same.bind (same_onList hP (hT.add k hP.2 hr)) fun _ _ _ hP' => same_onDict hP'

theorem same_pop (k : κ) (default : Option ν) (hr : (L.iter t.list).length < room) : Same (Pair R) id (pop eqv W k default) s (Verif.SD.pop eqv L k default) t := by
  refine Same.see (Same.get ?_)
  show Same (Pair R) id (if has eqv s.dict k = true then _ else _) s (if has eqv t.dict k = true then _ else _) t
  refine Same.ite (by rw [hP.1]) (fun _ => ?_) fun _ => ?_
  · exact Same.bind (same_onList hP (hT.remove k hP.2 hr)) fun _ _ _ hP' => same_dictPop k hP'
  · cases default with
    | none => exact Same.raise hP
    | some v => exact Same.pure hP rfl

theorem same_popitem (i : Int) : Same (Pair R) id (popitem eqv W i) s (Verif.SD.popitem eqv L i) t := by
  refine Same.see (Same.get (Same.ite (by rw [hP.1]) (fun _ => Same.raise hP) fun _ => ?_))
  exact Same.bind (same_onList hP (hT.pop i hP.2)) fun c _ _ hP' => Same.bind (same_dictPop c hP') fun _ _ _ hP'' => Same.pure hP'' rfl

theorem same_peekitem (i : Int) : Same (Pair R) id (peekitem eqv W i) s (Verif.SD.peekitem eqv L i) t :=
  Same.bind (same_onList hP (hT.getInt i hP.2)) fun c _ _ hP' => Same.bind (same_getitem c hP') fun _ _ _ hP'' => Same.pure hP'' rfl

theorem same_valuesAt (i : Int) : Same (Pair R) id (valuesAt eqv W i) s (Verif.SD.valuesAt eqv L i) t :=
  Same.bind (same_onList hP (hT.getInt i hP.2)) fun c _ _ hP' => same_getitem c hP'

theorem same_viewDelInt (i : Int) : Same (Pair R) id (viewDelInt eqv W i) s (Verif.SD.viewDelInt eqv L i) t :=
  Same.bind (same_onList hP (hT.pop i hP.2)) fun c _ _ hP' => same_dictDelitem c hP'

omit hT in
theorem same_mapEach {f : κ → Task (Verif.SD κ ν σ) β} {g : κ → Py (Verif.SD κ ν σ') β} (hf : ∀ k s t, Pair R s t → Same (Pair R) id (f k) s (g k) t) :
    ∀ (ks : List κ), Same (Pair R) id (mapEach f ks) s (Py.mapEach g ks) t := by
  intro ks
  induction ks generalizing s t with
  | nil => exact Same.pure hP rfl
  | cons k ks ih => exact Same.bind (hf k s t hP) fun _ _ _ hP' => Same.bind (ih hP') fun _ _ _ hP'' => Same.pure hP'' rfl

theorem same_itemsSlice (sl : PySlice) : Same (Pair R) id (itemsSlice eqv W sl) s (Verif.SD.itemsSlice eqv L sl) t :=
  Same.bind (same_onList hP (hT.getSlice sl hP.2)) fun _ _ _ hP' => same_mapEach (f := fun k => do let v ← getitem eqv k; pure (k, v)) (g := fun k => do let v ← Verif.SD.getitem eqv k; pure (k, v)) hP'
    (fun k _ _ hP => Same.bind (same_getitem k hP) fun _ _ _ hP' => Same.pure hP' rfl) _

theorem same_valuesSlice (sl : PySlice) : Same (Pair R) id (valuesSlice eqv W sl) s (Verif.SD.valuesSlice eqv L sl) t :=
  Same.bind (same_onList hP (hT.getSlice sl hP.2)) fun _ _ _ hP' => same_mapEach hP' (fun k _ _ hP => same_getitem k hP) _

include h in
theorem same_viewDelSlice (sl : PySlice) (hi : I t.list) (hr : (L.iter t.list).length < room) : Same (Pair R) id (viewDelSlice eqv W sl) s (Verif.SD.viewDelSlice eqv L sl) t := by
  refine Same.bind (same_onList hP (hT.getSlice sl hP.2)) fun _ _ _ hP' => Same.bind (same_onList hP' (hT.delSlice sl hP'.2 ?_)) fun _ s' _ hP'' => ?_
  · obtain ⟨-, h2, -⟩ := h.list.getSlice sl t.list hi
    show (L.iter (L.getSlice sl t.list).2).length < room
    rw [h2]
    unfold Spec.getSlice
    split <;> exact hr
  · exact Same.forEach (I := fun _ => True) (size := fun _ => 0) (room := 1) (w := 0) (fun k s t hP _ _ => ⟨same_dictDelitem k hP, trivial, Nat.le_refl _⟩) _ _ _ hP'' trivial (by simp)

theorem same_setdefault (k : κ) (v : ν) (hr : (L.iter t.list).length + 1 < room) : Same (Pair R) id (setdefault eqv W k v) s (Verif.SD.setdefault eqv L k v) t := by
  refine Same.see (Same.get ?_)
  show Same (Pair R) id (if has eqv s.dict k = true then _ else _) s (if has eqv t.dict k = true then _ else _) t
  refine Same.ite (by rw [hP.1]) (fun _ => same_getitem k hP) fun _ => ?_
  exact Same.bind (same_onDict hP) fun _ _ _ hP' => Same.bind (same_onList hP' (hT.add k hP'.2 hr)) fun _ _ _ hP'' => Same.pure hP'' rfl

omit hT in
theorem same_dictUpdate (arg : DictArg κ ν) (ha : arg.fail = none) : Same (Pair R) id (dictUpdate eqv arg) s (Verif.SD.dictUpdate eqv arg) t := by
  unfold dictUpdate Verif.SD.dictUpdate
  rw [ha]
  exact Same.bind (same_onDict hP) fun _ _ _ hP' => Same.pure hP' rfl

include h in
theorem same_update (arg : DictArg κ ν) (ha : arg.fail = none) (hi : Verif.SD.Inv L O eqv I t) (hr : t.dict.length + arg.items.length < room) :
    Same (Pair R) id (update eqv W arg) s (Verif.SD.update eqv L arg) t := by
  have hl := iter_length h hi
  refine Same.see (Same.get (Same.ite (by rw [hP.1]) (fun _ => ?_) fun _ => ?_))
  · refine Same.bind (same_dictUpdate hP arg ha) fun _ s' e hP' => Same.see (Same.get ?_)
    have e2 : (Verif.SD.dictUpdate eqv arg t).2 = { t with dict := PyDict.update eqv t.dict arg.items } := by
      unfold Verif.SD.dictUpdate; rw [ha]; rfl
    rw [hP'.1]
    refine same_onList hP' (hT.update _ hP'.2 ?_)
    rw [e2]
    have := update_le (eqv := eqv) arg.items t.dict
    simp only [keys, List.length_map]
    omega
  · have hp : ∃ pairs, Verif.SD.pairsOf eqv arg = .ok pairs ∧ pairs.length ≤ arg.items.length := by
      rcases arg with items | ⟨items, _ | e⟩
      · exact ⟨items, rfl, Nat.le_refl _⟩
      · refine ⟨_, rfl, ?_⟩
        have := update_le (eqv := eqv) items []
        simpa [PyDict.ofPairs, DictArg.items] using this
      · cases ha
    obtain ⟨pairs, ep, hp⟩ := hp
    rw [ep]
    refine Same.bind (Same.lift (x := .ok pairs) hP) fun c s' e hP' => ?_
    obtain rfl : c = pairs := by cases e; rfl
    refine Same.see (Same.ite (by rw [hP'.1]; rfl) (fun _ => ?_) fun _ => ?_)
    · refine Same.bind (same_dictUpdate hP' (.dict c) rfl) fun _ s2 _ hP2 => Same.bind (same_onList hP2 (hT.clear hP2.2)) fun _ s3 _ hP3 => Same.see (Same.get ?_)
      obtain ⟨-, h2, -⟩ := h.list.clear t.list hi.list
      rw [hP3.1]
      refine same_onList hP3 (hT.update _ hP3.2 ?_)
      show (L.iter (L.clear t.list).2).length + (keys (PyDict.update eqv t.dict c)).length < room
      rw [h2]
      have := update_le (eqv := eqv) c t.dict
      simp only [Spec.clear, keys, List.length_map, List.length_nil]
      omega
    · refine Same.forEach (I := Verif.SD.Inv L O eqv I) (size := fun t => t.dict.length) (room := room) (w := 1) (fun p s t hP hi hr => ?_) _ s' t hP' hi (by simp only [id]; omega)
      obtain ⟨-, h2, h3⟩ := Verif.SD.setitem_refines h p.1 p.2 t hi
      refine ⟨same_setitem hT hP p.1 p.2 (by rw [iter_length h hi]; exact hr), h3, ?_⟩
      rw [h2]; exact set_le _ _ _

theorem alone_items : (items eqv W).alone s = some (Verif.SD.items eqv L t, s) := by
  unfold items
  rw [Task.alone_bind', alone_onList, hT.toList hP.2]
  simp only [Option.map_some]
  refine alone_mapEach (s := s) (fun k => ?_) _
  rw [Task.alone_bind', ← hP.1]
  have e : (getitem eqv k).alone s = some (PyDict.getitem eqv s.dict k, s) := rfl
  rw [e]
  cases PyDict.getitem eqv s.dict k <;> rfl

theorem alone_values : (values eqv W).alone s = some (Verif.SD.values eqv L t, s) := by
  unfold values
  rw [Task.alone_bind', alone_onList, hT.toList hP.2]
  simp only [Option.map_some]
  refine alone_mapEach (s := s) (fun k => ?_) _
  rw [← hP.1]
  rfl

include h in
theorem same_step (op : SDOp κ ν) (hv : op.Valid) (hi : Verif.SD.Inv L O eqv I t) (hr : t.dict.length + op.given.length < room) :
    Same (Pair R) id (step eqv W L op) s (Verif.SD.step eqv L op) t := by
  have hl := iter_length h hi
  have out : ∀ {β γ : Type} {f : γ → β} {m : Task (Verif.SD κ ν σ) β} {p : Py (Verif.SD κ ν σ') γ} (_ : Same (Pair R) f m s p t) {g : β → DOut κ ν} {g' : γ → DOut κ ν} (_ : ∀ c, g (f c) = g' c),
      Same (Pair R) id (g <$> m) s (Verif.SD.out g' p) t := by
    intro β γ f m p h g g' e
    unfold Same Verif.SD.out at *
    obtain ⟨s1, e1, h1⟩ := h
    rcases hp : p t with ⟨x | x, t'⟩
    · rw [Py.bind_error hp]; rw [hp] at e1 h1
      exact ⟨s1, by rw [Task.alone_map, e1]; rfl, h1⟩
    · rw [Py.bind_ok hp]; rw [hp] at e1 h1
      exact ⟨s1, by rw [Task.alone_map, e1, ← e]; rfl, h1⟩
  have sees : ∀ {β : Type} (f : List (κ × ν) → Except PyErr β) (g : β → DOut κ ν), Same (Pair R) id (g <$> seeDict f) s (Verif.SD.out g (Verif.SD.read fun s => f s.dict)) t :=
    fun f g => out (same_see hP) fun _ => rfl
  have hread : ∀ {β : Type} {m : Task (Verif.SD κ ν σ) β} {f : Verif.SD κ ν σ' → Except PyErr β}, m.alone s = some (f t, s) → Same (Pair R) id m s (Verif.SD.read f) t :=
    fun {β m f} e => ⟨s, by rw [e]; simp only [Verif.SD.read]; cases f t <;> rfl, hP⟩
  have mk : ∀ (f : List (κ × ν) → List (κ × ν)) (g : Verif.SD κ ν σ' → Except PyErr (Verif.SD κ ν σ')), g t = (Verif.SD.items eqv L t >>= fun own => Verif.SD.new eqv L (.pairs (f own) none)) →
      Same (Pair R) id (do let own ← items eqv W; DOut.items <$> made eqv L (f own)) s (Verif.SD.out DOut.items (Verif.SD.itemsOf eqv L g)) t := by
    intro f g e
    have e' : (Verif.SD.out DOut.items (Verif.SD.itemsOf eqv L g)) t = ((g t >>= Verif.SD.items eqv L).map DOut.items, t) := by
      cases hg : g t with
      | error x => simp [Verif.SD.out, Verif.SD.itemsOf, Bind.bind, Py.bind, hg, Except.bind, Except.map]
      | ok s' =>
        cases hs : Verif.SD.items eqv L s' <;> simp [Verif.SD.out, Verif.SD.itemsOf, Bind.bind, Py.bind, hg, hs, Except.bind, Except.map, pure, Py.pure]
    refine ⟨s, ?_, by rw [e']; exact hP⟩
    rw [e', e, Task.alone_bind', alone_items hT hP]
    cases Verif.SD.items eqv L t with
    | error x => rfl
    | ok own =>
      simp only [Task.alone_map, made, Task.alone_lift, Bind.bind, Except.bind]
      cases Verif.SD.new eqv L (.pairs (f own) none) with
      | error x => rfl
      | ok s' =>
        simp only
        cases Verif.SD.items eqv L s' <;> rfl
  cases op with
  | setitem k v => exact out (same_setitem hT hP k v (by rw [hl]; exact hr)) fun _ => rfl
  | delitem k => exact out (same_delitem hT hP k (by rw [hl]; exact hr)) fun _ => rfl
  | clear => exact out (same_clear hT hP) fun _ => rfl
  | pop k d => exact out (same_pop hT hP k d (by rw [hl]; exact hr)) fun _ => rfl
  | popitem i => exact out (same_popitem hT hP i) fun _ => rfl
  | peekitem i => exact out (same_peekitem hT hP i) fun _ => rfl
  | setdefault k v => exact out (same_setdefault hT hP k v (by rw [hl]; exact hr)) fun _ => rfl
  | update arg => exact out (same_update hT h hP arg hv hi hr) fun _ => rfl
  | getitem k => exact out (same_getitem k hP) fun _ => rfl
  | get k => exact sees _ _
  | contains k => exact sees _ _
  | len => exact sees _ _
  | iter => exact out (hread (f := fun s => .ok (Verif.SD.iter L s)) (by rw [alone_onList, hT.toList hP.2]; rfl)) fun _ => rfl
  | reversed =>
    have hrev : L.reversed t.list = (L.iter t.list).reverse := by
      obtain ⟨h1, -, -⟩ := h.list.reversed t.list hi.list
      simpa [ListAPI.read, Spec.reversed] using h1
    refine ⟨s, ?_, hP⟩
    show ((fun l => DOut.keys l.reverse) <$> onList W.toList : Task (Verif.SD κ ν σ) (DOut κ ν)).alone s = _
    rw [Task.alone_map, alone_onList, hT.toList hP.2]
    show _ = some (Except.map id (.ok (DOut.keys (L.reversed t.list))), s)
    rw [hrev]; rfl
  | items => exact out (hread (alone_items hT hP)) fun _ => rfl
  | values => exact out (hread (alone_values hT hP)) fun _ => rfl
  | keysAt i => exact out (same_onList hP (hT.getInt i hP.2)) fun _ => rfl
  | itemsAt i => exact out (same_peekitem hT hP i) fun _ => rfl
  | valuesAt i => exact out (same_valuesAt hT hP i) fun _ => rfl
  | viewDelInt i => exact out (same_viewDelInt hT hP i) fun _ => rfl
  | bisectLeft k => exact out (same_onList hP (hT.bisectLeft k hP.2)) fun _ => rfl
  | bisectRight k => exact out (same_onList hP (hT.bisectRight k hP.2)) fun _ => rfl
  | copy => exact mk id _ rfl
  | or other => exact mk (fun own => own ++ other) _ rfl
  | ror other => exact mk (fun own => other ++ own) _ rfl
  | keysSlice sl => exact out (same_onList hP (hT.getSlice sl hP.2)) fun _ => rfl
  | itemsSlice sl => exact out (same_itemsSlice hT hP sl) fun _ => rfl
  | valuesSlice sl => exact out (same_valuesSlice hT hP sl) fun _ => rfl
  | viewDelSlice sl => exact out (same_viewDelSlice hT h hP sl hi.list (by rw [hl]; exact hr)) fun _ => rfl
  | index k i j => exact out (same_onList hP (hT.index k i j hP.2 (by rw [hl]; exact hr))) fun _ => rfl
  | irange lo hi a b r => exact out (same_onList hP (hT.irange lo hi a b r hP.2)) fun _ => rfl
  | islice i j r => exact out (same_onList hP (hT.islice i j r hP.2)) fun _ => rfl
  | reset load => exact out (same_onList hP (hT.reset hv hP.2 (by rw [hl]; exact hr))) fun _ => rfl

end

theorem eraseAll_le (ks : List κ) (d : List (κ × ν)) : (DictSpec.eraseAll eqv ks d).length ≤ d.length := by
  unfold DictSpec.eraseAll
  induction ks generalizing d with
  | nil => exact Nat.le_refl _
  | cons k ks ih => exact Nat.le_trans (ih _) (List.length_filter_le _ d)

theorem spec_length (op : SDOp κ ν) (d : List (κ × ν)) : (DictSpec.step eqv O op d).2.length ≤ d.length + op.given.length := by
  have hf : ∀ k, (erase eqv d k).length ≤ d.length := fun k => List.length_filter_le _ d
  have hout : ∀ {β : Type} (f : β → DOut κ ν) (m : Py (List (κ × ν)) β), (DictSpec.out f m d).2 = (m d).2 := fun f m => by
    unfold DictSpec.out
    rcases hm : m d with ⟨x | x, d'⟩
    · rw [Py.bind_error hm]
    · rw [Py.bind_ok hm]; rfl
  cases op <;> simp only [DictSpec.step, hout, SDOp.given, DictSpec.query, DictSpec.assign, DictSpec.onKeys, DictSpec.onItems, DictSpec.onValues] <;> (try exact Nat.le_refl _)
  case setitem k v => exact set_le _ _ _
  case delitem k => unfold DictSpec.delitem; split <;> simp [hf]
  case clear => simp
  case pop k v => unfold DictSpec.pop; split <;> simp [hf]
  case popitem i => unfold DictSpec.popitem; split <;> (try split) <;> simp [hf]
  case setdefault k v => unfold DictSpec.setdefault; split <;> simp [set_le]
  case update arg => exact update_le _ _
  case viewDelInt i => unfold DictSpec.viewDelInt; split <;> simp [hf]
  case viewDelSlice sl =>
    unfold DictSpec.viewDelSlice; split
    · exact eraseAll_le _ _
    · exact Nat.le_refl _
  all_goals simp

/-- The dict holds the items `d` and is as its methods leave it. -/
def Holds (L : ListAPI σ' κ) (O : Spec.Order κ) (eqv : κ → κ → Bool) (I : σ' → Prop) (R : σ → σ' → Prop) (s : Verif.SD κ ν σ) (d : List (κ × ν)) : Prop := ∃ t, Pair R s t ∧ Verif.SD.Inv L O eqv I t ∧ t.dict = d

theorem follows (hT : W.Tracks L R room) (h : Verif.SD.Good L O eqv I) :
    Guarded.Follows (SDOp.Valid (κ := κ) (ν := ν)) (step eqv W L) (DictSpec.step eqv O) (Holds L O eqv I R) List.length (fun op => op.given.length) room := by
  rintro op s l hv ⟨t, hP, hi, rfl⟩ hf
  obtain ⟨h1, h2, h3⟩ := Verif.SD.step_refines h op hv t hi
  obtain ⟨s', e, hP'⟩ := same_step hT h hP op hv hi hf
  refine ⟨s', ?_, ⟨_, hP', h3, h2⟩, spec_length op _⟩
  have hid : ∀ x : Except PyErr (DOut κ ν), Except.map id x = x := fun x => by cases x <;> rfl
  rw [e, hid, h1]

end SD
end Race
end Verif
