import Verif.Proofs.Threads
import Verif.Model.ThreadsSets
import Verif.Proofs.InterruptHistSets
/-!
# Threads that query one sorted set or dict
-/

namespace Verif
variable {σ ρ τ α κ ν β γ : Type}

namespace Prog
variable {part : ρ → σ} {put : σ → ρ → ρ}

theorem zoom_alone (h1 : ∀ l r, part (put l r) = l) (h2 : ∀ r, put (part r) r = r) (h3 : ∀ a b r, put a (put b r) = put a r) (q : Prog σ β) (r : ρ) :
    (q.zoom part put).alone r = ((q.alone (part r)).1, put (q.alone (part r)).2 r) := by
  induction q generalizing r with
  | ret x => exact Prod.ext rfl (h2 r).symm
  | read k ih => exact ih _ r
  | write g k ih =>
    show (zoom part put k).alone (put (g (part r)) r) = _
    rw [ih, h1, h3]; rfl

theorem zoom_still (q : Prog σ β) (r : ρ) (h : q.Still (part r)) : (q.zoom part put).Still r := by
  induction q with
  | ret x => trivial
  | read k ih => exact ih _ h
  | write g k => exact h.elim

theorem zoom_rely {I : σ → Prop} {J : ρ → Prop} {P : Except PyErr β → Prop} (h1 : ∀ r, J r → I (part r)) (h2 : ∀ r l, J r → I l → J (put l r)) {q : Prog σ β}
    (h : q.Rely I P) : (q.zoom part put).Rely J P := by
  induction q with
  | ret x => exact h
  | read k ih => exact fun r hr => ih _ (h _ (h1 r hr))
  | write g k ih => exact ⟨fun r hr => h2 r _ hr (h.1 _ (h1 r hr)), ih h.2⟩

theorem zoom_writes {R : σ → σ → Prop} {R' : ρ → ρ → Prop} (h1 : ∀ r l, R (part r) l → R' r (put l r)) {q : Prog σ β} (h : q.Writes R) :
    (q.zoom part put).Writes R' := by
  induction q with
  | ret x => trivial
  | read k ih => exact fun r => ih _ (h _)
  | write g k ih => exact ⟨fun r => h1 r _ (h.1 _), ih h.2⟩

end Prog

/-- The programs `Q` are the queries of `L`; `irange` writes nothing. -/
structure QListAPI.Sound (Q : QListAPI σ α) (L : ListAPI σ α) (R : σ → σ → Prop) (W : σ → Prop) : Prop where
  refl : ∀ s, R s s
  trans : ∀ {a b d}, R a b → R b d → R a d
  getInt : ∀ i, Asks R W (Q.getInt i) (L.getInt i)
  getSlice : ∀ sl, Asks R W (Q.getSlice sl) (L.getSlice sl)
  bisectLeft : ∀ v, Asks R W (Q.bisectLeft v) (L.bisectLeft v)
  bisectRight : ∀ v, Asks R W (Q.bisectRight v) (L.bisectRight v)
  index : ∀ v a b, Asks R W (Q.index v a b) (L.index v a b)
  islice : ∀ a b r, Asks R W (Q.islice a b r) (L.islice a b r)
  irange : ∀ lo hi a b r s, (L.irange lo hi a b r s).2 = s
  /-- queries that do not count positions -/
  same_irange : ∀ lo hi a b r {s s'}, R s s' → (L.irange lo hi a b r s').1 = (L.irange lo hi a b r s).1
  same_iter : ∀ {s s'}, R s s' → L.iter s' = L.iter s
  same_reversed : ∀ {s s'}, R s s' → L.reversed s' = L.reversed s

theorem ListClass.threaded_sound (c : ListClass α) : c.threaded.Sound c.api c.Reindexed c.Indexed := by
  cases c with
  | plain E => exact {
      refl := Verif.Reindexed.refl
      trans := fun h h' => Verif.Reindexed.trans h h'
      getInt := Threads.getInt_reader
      getSlice := Threads.getSlice_reader
      bisectLeft := Threads.SL.bisect_left_reader
      bisectRight := Threads.SL.bisect_right_reader
      index := Threads.SL.index_reader
      islice := Threads.islice_reader
      irange := SL.irange_stays E
      same_irange := by
        rintro lo hi a b r (s : St α α) _ ⟨i, o, rfl⟩
        exact congrArg (fun p => p.1) (SL.irange_blind E lo hi a b r s i o)
      same_iter := by rintro (s : St α α) _ ⟨i, o, rfl⟩; rfl
      same_reversed := by rintro (s : St α α) _ ⟨i, o, rfl⟩; rfl }
  | @keyed κ K => exact {
      refl := Verif.Reindexed.refl
      trans := fun h h' => Verif.Reindexed.trans h h'
      getInt := Threads.getInt_reader
      getSlice := Threads.getSlice_reader
      bisectLeft := Threads.SKL.bisect_left_reader
      bisectRight := Threads.SKL.bisect_right_reader
      index := Threads.SKL.index_reader
      islice := Threads.islice_reader
      irange := SKL.irange_stays K
      same_irange := by
        rintro lo hi a b r (s : St α κ) _ ⟨i, o, rfl⟩
        exact congrArg (fun p => p.1) (SKL.irange_blind K lo hi a b r s i o)
      same_iter := by rintro (s : St α κ) _ ⟨i, o, rfl⟩; rfl
      same_reversed := by rintro (s : St α κ) _ ⟨i, o, rfl⟩; rfl }

namespace Threads

namespace SS
variable {S : SetOps τ α} {Q : QListAPI σ α} {L : ListAPI σ α} {R : σ → σ → Prop} {W : σ → Prop}

/-- The set is the same, the list up to `R`. -/
def Like (R : σ → σ → Prop) (s s' : SS τ σ) : Prop := s'.set = s.set ∧ R s.list s'.list

theorem onList_asks {q : Prog σ β} {m : Py σ β} (h : Asks R W q m) :
    Asks (Like R) (fun s : SS τ σ => W s.list) (onList q) (Verif.SS.onList m) := by
  have e : ∀ s : SS τ σ, (onList q).alone s = ((m s.list).1, { s with list := (m s.list).2 }) := fun s => by
    rw [← h.alone]
    exact Prog.zoom_alone (part := fun s => s.list) (put := fun l s => { s with list := l }) (fun _ _ => rfl) (fun _ => rfl) (fun _ _ _ => rfl) q s
  refine ⟨e, fun s => ?_, fun s hs => Prog.zoom_still q s (h.quiet _ hs), fun s0 => ?_,
    Prog.zoom_writes (fun r l hl => ⟨rfl, hl⟩) h.writes⟩
  · rcases h.warm s.list with hw | hw
    · exact .inl (Prog.zoom_still q s hw)
    · rw [e, ← h.alone]; exact .inr hw
  · exact Prog.zoom_rely (fun r hr => hr.2) (fun r l hr hl => ⟨hr.1, hl⟩) (h.only s0.list)

theorem out_asks {q : Prog ρ β} {m : Py ρ β} {R : ρ → ρ → Prop} {W : ρ → Prop} (h : Asks R W q m) (f : β → Out α) : Asks R W (f <$> q) (Spec.out f m) :=
  h.bind fun b => Asks.pure (f b)

theorem valuesOf_snd (f : SS τ σ → Except PyErr (SS τ σ)) (s : SS τ σ) : (Verif.SS.valuesOf L f s).2 = s := by
  unfold Verif.SS.valuesOf; split <;> rfl

theorem query_asks (h : Q.Sound L R W) {op : SSOp α} (hq : op.isQuery = true) :
    Asks (Like R) (fun s : SS τ σ => W s.list) (query S Q L op) (Verif.SS.step S L op) := by
  cases op with
  | getInt i => exact out_asks (onList_asks (h.getInt i)) _
  | getSlice sl => exact out_asks (onList_asks (h.getSlice sl)) _
  | bisectLeft v => exact out_asks (onList_asks (h.bisectLeft v)) _
  | bisectRight v => exact out_asks (onList_asks (h.bisectRight v)) _
  | index v a b => exact out_asks (onList_asks (h.index v a b)) _
  | islice a b r => exact out_asks (onList_asks (h.islice a b r)) _
  | irange lo hi a b r =>
    refine Asks.look fun s => (Spec.out_snd ..).trans ?_
    show SS.mk s.set (L.irange lo hi a b r s.list).2 = s
    rw [h.irange]
  | copy => exact Asks.look fun s => (Spec.out_snd ..).trans (valuesOf_snd _ s)
  | union _ => exact Asks.look fun s => (Spec.out_snd ..).trans (valuesOf_snd _ s)
  | intersection _ => exact Asks.look fun s => (Spec.out_snd ..).trans (valuesOf_snd _ s)
  | difference _ => exact Asks.look fun s => (Spec.out_snd ..).trans (valuesOf_snd _ s)
  | symmetricDifference _ => exact Asks.look fun s => (Spec.out_snd ..).trans (valuesOf_snd _ s)
  | contains _ => exact Asks.look fun s => rfl
  | len => exact Asks.look fun s => rfl
  | iter => exact Asks.look fun s => rfl
  | reversed => exact Asks.look fun s => rfl
  | count _ => exact Asks.look fun s => rfl
  | isdisjoint _ => exact Asks.look fun s => rfl
  | issubset _ => exact Asks.look fun s => rfl
  | issuperset _ => exact Asks.look fun s => rfl
  | compare _ _ => exact Asks.look fun s => rfl
  | _ => cases hq

theorem look_rely {m : Py ρ β} {R : ρ → ρ → Prop} {s : ρ} (h : ∀ s', R s s' → (m s').1 = (m s).1) : (Prog.look m).Rely (R s) (· = (m s).1) :=
  fun s' hs => h s' hs

theorem out_fst {m : Py ρ β} {s s' : ρ} (h : (m s').1 = (m s).1) (f : β → Out α) : (Spec.out f m s').1 = (Spec.out f m s).1 := by
  simp only [Spec.out]
  rcases e : m s with ⟨_ | b, t⟩ <;> rcases e' : m s' with ⟨_ | b', t'⟩ <;> rw [e, e'] at h <;> cases h <;> rfl

theorem plain_rely (h : Q.Sound L R W) {op : SSOp α} (hp : op.plain = true) (s : SS τ σ) :
    (query S Q L op).Rely (Like R s) (· = (Verif.SS.step S L op s).1) := by
  have set : ∀ {s' : SS τ σ}, Like R s s' → s'.set = s.set := fun h => h.1
  have valuesOf_fst : ∀ {f : SS τ σ → Except PyErr (SS τ σ)}, ∀ s', f s' = f s → (Verif.SS.valuesOf L f s').1 = (Verif.SS.valuesOf L f s).1 := by
    intro f s' e
    unfold Verif.SS.valuesOf
    rw [e]
    cases f s <;> rfl
  cases op with
  | irange lo hi a b r => exact look_rely fun s' hs => out_fst (m := Verif.SS.onList (L.irange lo hi a b r)) (h.same_irange lo hi a b r hs.2) _
  | contains v => exact look_rely fun s' hs => out_fst (by simp only [SS.read, SS.contains, set hs]) _
  | len => exact look_rely fun s' hs => out_fst (by simp only [SS.read, SS.length, set hs]) _
  | iter => exact look_rely fun s' hs => out_fst (by simp only [SS.read, SS.iter, h.same_iter hs.2]) _
  | reversed => exact look_rely fun s' hs => out_fst (by simp only [SS.read, SS.reversed, h.same_reversed hs.2]) _
  | count v => exact look_rely fun s' hs => out_fst (by simp only [SS.read, SS.count, set hs]) _
  | isdisjoint xs => exact look_rely fun s' hs => out_fst (by simp only [SS.read, SS.isdisjoint, set hs]) _
  | issubset xs => exact look_rely fun s' hs => out_fst (by simp only [SS.read, SS.issubset, set hs]) _
  | issuperset xs => exact look_rely fun s' hs => out_fst (by simp only [SS.read, SS.issuperset, set hs]) _
  | compare op xs => exact look_rely fun s' hs => out_fst (by simp only [SS.read, SS.compare, set hs]) _
  | copy => exact look_rely fun s' hs => out_fst (valuesOf_fst s' (by simp only [SS.copy, set hs])) _
  | union xss => exact look_rely fun s' hs => out_fst (valuesOf_fst s' (by simp only [SS.union, SS.iter, h.same_iter hs.2])) _
  | intersection xss => exact look_rely fun s' hs => out_fst (valuesOf_fst s' (by simp only [SS.intersection, set hs])) _
  | difference xss => exact look_rely fun s' hs => out_fst (valuesOf_fst s' (by simp only [SS.difference, set hs])) _
  | symmetricDifference xs => exact look_rely fun s' hs => out_fst (valuesOf_fst s' (by simp only [SS.symmetricDifference, set hs])) _
  | _ => cases hp

end SS

namespace SD
variable {eqv : κ → κ → Bool} {Q : QListAPI σ κ} {L : ListAPI σ κ} {R : σ → σ → Prop} {W : σ → Prop}

/-- The dict is the same, the list up to `R`. -/
def Like (R : σ → σ → Prop) (s s' : SD κ ν σ) : Prop := s'.dict = s.dict ∧ R s.list s'.list

theorem onList_asks {q : Prog σ β} {m : Py σ β} (h : Asks R W q m) :
    Asks (Like R) (fun s : SD κ ν σ => W s.list) (onList q) (Verif.SD.onList m) := by
  have e : ∀ s : SD κ ν σ, (onList q).alone s = ((m s.list).1, { s with list := (m s.list).2 }) := fun s => by
    rw [← h.alone]
    exact Prog.zoom_alone (part := fun s => s.list) (put := fun l s => { s with list := l }) (fun _ _ => rfl) (fun _ => rfl) (fun _ _ _ => rfl) q s
  refine ⟨e, fun s => ?_, fun s hs => Prog.zoom_still q s (h.quiet _ hs), fun s0 => ?_,
    Prog.zoom_writes (fun r l hl => ⟨rfl, hl⟩) h.writes⟩
  · rcases h.warm s.list with hw | hw
    · exact .inl (Prog.zoom_still q s hw)
    · rw [e, ← h.alone]; exact .inr hw
  · exact Prog.zoom_rely (fun r hr => hr.2) (fun r l hr hl => ⟨hr.1, hl⟩) (h.only s0.list)

theorem out_asks {q : Prog ρ β} {m : Py ρ β} {R : ρ → ρ → Prop} {W : ρ → Prop} (h : Asks R W q m) (f : β → DOut κ ν) : Asks R W (f <$> q) (SD.out f m) :=
  h.bind fun b => Asks.pure (f b)

theorem getitem_asks (k : κ) {R : SD κ ν σ → SD κ ν σ → Prop} {W : SD κ ν σ → Prop} : Asks R W (getitem eqv k) (Verif.SD.getitem eqv k) :=
  Asks.get.bind fun _ => Asks.lift _

theorem out_snd {m : Py ρ β} (f : β → DOut κ ν) (s : ρ) : (SD.out f m s).2 = (m s).2 := by
  unfold SD.out
  rw [Py.bind_apply]
  rcases m s with ⟨_ | b, t⟩ <;> rfl

theorem itemsOf_snd (f : SD κ ν σ → Except PyErr (SD κ ν σ)) (s : SD κ ν σ) : (Verif.SD.itemsOf eqv L f s).2 = s := by
  unfold Verif.SD.itemsOf; split <;> rfl

theorem query_asks (h : Q.Sound L R W) {op : SDOp κ ν} (hq : op.isQuery = true) :
    Asks (Like R) (fun s : SD κ ν σ => W s.list) (query eqv Q L op) (Verif.SD.step eqv L op) := by
  have peek : ∀ i, Asks (Like R) (fun s : SD κ ν σ => W s.list) (peekitem eqv Q i) (Verif.SD.peekitem eqv L i) := fun i =>
    (onList_asks (h.getInt i)).bind fun _ => (getitem_asks _).bind fun _ => Asks.pure _
  cases op with
  | peekitem i => exact out_asks (peek i) _
  | itemsAt i => exact out_asks (peek i) _
  | keysAt i => exact out_asks (onList_asks (h.getInt i)) _
  | keysSlice sl => exact out_asks (onList_asks (h.getSlice sl)) _
  | itemsSlice sl =>
    exact out_asks ((onList_asks (h.getSlice sl)).bind fun _ => Asks.mapEach (fun _ => (getitem_asks _).bind fun _ => Asks.pure _) _) _
  | valuesAt i => exact out_asks ((onList_asks (h.getInt i)).bind fun _ => getitem_asks _) _
  | valuesSlice sl => exact out_asks ((onList_asks (h.getSlice sl)).bind fun _ => Asks.mapEach (fun _ => getitem_asks _) _) _
  | bisectLeft v => exact out_asks (onList_asks (h.bisectLeft v)) _
  | bisectRight v => exact out_asks (onList_asks (h.bisectRight v)) _
  | index v a b => exact out_asks (onList_asks (h.index v a b)) _
  | islice a b r => exact out_asks (onList_asks (h.islice a b r)) _
  | irange lo hi a b r =>
    refine Asks.look fun s => (out_snd ..).trans ?_
    show SD.mk s.dict (L.irange lo hi a b r s.list).2 = s
    rw [h.irange]
  | getitem k => exact Asks.look fun s => (out_snd ..).trans rfl
  | get k => exact Asks.look fun s => (out_snd ..).trans rfl
  | contains k => exact Asks.look fun s => (out_snd ..).trans rfl
  | len => exact Asks.look fun s => (out_snd ..).trans rfl
  | iter => exact Asks.look fun s => (out_snd ..).trans rfl
  | reversed => exact Asks.look fun s => (out_snd ..).trans rfl
  | items => exact Asks.look fun s => (out_snd ..).trans rfl
  | values => exact Asks.look fun s => (out_snd ..).trans rfl
  | copy => exact Asks.look fun s => (out_snd ..).trans (itemsOf_snd _ s)
  | or _ => exact Asks.look fun s => (out_snd ..).trans (itemsOf_snd _ s)
  | ror _ => exact Asks.look fun s => (out_snd ..).trans (itemsOf_snd _ s)
  | _ => cases hq

theorem out_fst {m : Py ρ β} {s s' : ρ} (h : (m s').1 = (m s).1) (f : β → DOut κ ν) : (SD.out f m s').1 = (SD.out f m s).1 := by
  unfold SD.out
  rw [Py.bind_apply, Py.bind_apply]
  rcases e : m s with ⟨_ | b, t⟩ <;> rcases e' : m s' with ⟨_ | b', t'⟩ <;> rw [e, e'] at h <;> cases h <;> rfl

theorem plain_rely (h : Q.Sound L R W) {op : SDOp κ ν} (hp : op.plain = true) (s : SD κ ν σ) :
    (query eqv Q L op).Rely (Like R s) (· = (Verif.SD.step eqv L op s).1) := by
  have dict : ∀ {s' : SD κ ν σ}, Like R s s' → s'.dict = s.dict := fun h => h.1
  have items : ∀ {s' : SD κ ν σ}, Like R s s' → Verif.SD.items eqv L s' = Verif.SD.items eqv L s := fun hs => by
    simp only [SD.items, SD.iter, dict hs, h.same_iter hs.2]
  have itemsOf_fst : ∀ {f : SD κ ν σ → Except PyErr (SD κ ν σ)}, ∀ s', f s' = f s → (Verif.SD.itemsOf eqv L f s').1 = (Verif.SD.itemsOf eqv L f s).1 := by
    intro f s' e
    unfold Verif.SD.itemsOf
    rw [e]
    cases f s <;> rfl
  cases op with
  | irange lo hi a b r => exact SS.look_rely fun s' hs => out_fst (m := Verif.SD.onList (L.irange lo hi a b r)) (h.same_irange lo hi a b r hs.2) _
  | getitem k =>
    refine SS.look_rely fun s' hs => out_fst ?_ _
    show PyDict.getitem eqv s'.dict k = PyDict.getitem eqv s.dict k
    rw [dict hs]
  | get k => exact SS.look_rely fun s' hs => out_fst (by simp only [SD.read, SD.get, dict hs]) _
  | contains k => exact SS.look_rely fun s' hs => out_fst (by simp only [SD.read, SD.contains, dict hs]) _
  | len => exact SS.look_rely fun s' hs => out_fst (by simp only [SD.read, SD.length, dict hs]) _
  | iter => exact SS.look_rely fun s' hs => out_fst (by simp only [SD.read, SD.iter, h.same_iter hs.2]) _
  | reversed => exact SS.look_rely fun s' hs => out_fst (by simp only [SD.read, SD.reversed, h.same_reversed hs.2]) _
  | items => exact SS.look_rely fun s' hs => out_fst (items hs) _
  | values => exact SS.look_rely fun s' hs => out_fst (by simp only [SD.read, SD.values, SD.iter, dict hs, h.same_iter hs.2]) _
  | copy => exact SS.look_rely fun s' hs => out_fst (itemsOf_fst s' (by simp only [SD.copy, items hs])) _
  | or other => exact SS.look_rely fun s' hs => out_fst (itemsOf_fst s' (by simp only [SD.or, items hs])) _
  | ror other => exact SS.look_rely fun s' hs => out_fst (itemsOf_fst s' (by simp only [SD.ror, items hs])) _
  | _ => cases hp

end SD
end Threads
end Verif
