import Verif.Proofs.RaceSets
import Verif.Proofs.SetHistory
/-!
# Calls on a SortedSet under a lock
-/

namespace Verif
variable {α β γ τ σ σ' : Type}

namespace Race
namespace SS

/-- The same built-in set, and the same list. -/
def Pair (R : σ → σ' → Prop) (s : Verif.SS τ σ) (t : Verif.SS τ σ') : Prop := s.set = t.set ∧ R s.list t.list

theorem alone_onList (m : Task σ β) (s : Verif.SS τ σ) : (onList m).alone s = (m.alone s.list).map fun r => (r.1, { s with list := r.2 }) := by
  induction m generalizing s with
  | ret x => rfl
  | act f k ih => exact ih s.list { s with list := f s.list }
  | spin => rfl

variable {R : σ → σ' → Prop} {s : Verif.SS τ σ} {t : Verif.SS τ σ'}

theorem same_onList {f : γ → β} {m : Task σ β} {p : Py σ' γ} (hP : Pair R s t) (h : Same R f m s.list p t.list) : Same (Pair R) f (onList m) s (Verif.SS.onList p) t := by
  obtain ⟨l, e, h⟩ := h
  exact ⟨{ s with list := l }, by rw [alone_onList, e]; rfl, hP.1, h⟩

theorem same_onSet {f : τ → τ} (hP : Pair R s t) : Same (Pair R) id (onSet f) s (Verif.SS.onSet f) t :=
  ⟨{ s with set := f s.set }, rfl, by show f s.set = f t.set; rw [hP.1], hP.2⟩

theorem same_setRemove {S : SetOps τ α} {v : α} (hP : Pair R s t) : Same (Pair R) id (setRemove S v) s (Verif.SS.setRemove S v) t := by
  unfold Same setRemove Verif.SS.setRemove
  rw [Task.alone_change, hP.1]
  cases S.remove v t.set with
  | ok t' => exact ⟨_, rfl, rfl, hP.2⟩
  | error e => exact ⟨_, rfl, hP⟩

theorem same_seeSet {f : τ → β} (hP : Pair R s t) : Same (Pair R) id (seeSet f) s (Verif.SS.read fun s => f s.set) t :=
  ⟨s, by simp [seeSet, Verif.SS.read, hP.1, Except.map], hP⟩

variable {S : SetOps τ α} {W : RaceAPI σ α} {L : ListAPI σ' α} {O : Spec.Order α} {eqv : α → α → Bool} {I : σ' → Prop} {room : Nat}

theorem addNew_le (eqv : α → α → Bool) (xs : List α) : ∀ l : List α, (xs.foldl (addNew eqv) l).length ≤ l.length + xs.length := by
  induction xs with
  | nil => intro l; simp
  | cons x xs ih =>
    intro l
    have h1 := ih (addNew eqv l x)
    have h2 : (addNew eqv l x).length ≤ l.length + 1 := by
      unfold addNew; split <;> simp
    rw [List.foldl_cons, List.length_cons]; omega

theorem insert_le (h : Verif.SS.Good S L O eqv I) (hi : Verif.SS.Inv S L I t) (v : α) : (Verif.SS.iter L (Verif.SS.add S L v t).2).length ≤ (Verif.SS.iter L t).length + 1 := by
  obtain ⟨t', e, -, h2⟩ := Verif.SS.add_ok h hi v
  rw [e]
  show (Verif.SS.iter L t').length ≤ _
  rw [h2]
  split
  · omega
  · rw [Spec.insert_length']; omega

theorem insertAll_le [DecidableEq α] (O : Spec.Order α) (xs : List α) : ∀ l : List α, (SetSpec.insertAll O l xs).length ≤ l.length + xs.length := by
  unfold SetSpec.insertAll
  induction xs with
  | nil => intro l; simp
  | cons x xs ih =>
    intro l
    have h1 := ih (SetSpec.insertNew O l x)
    have h2 : (SetSpec.insertNew O l x).length ≤ l.length + 1 := by
      unfold SetSpec.insertNew; split
      · omega
      · rw [Spec.insert_length']; omega
    rw [List.foldl_cons, List.length_cons]; omega

theorem symmetricDifference_le [DecidableEq α] (O : Spec.Order α) (xs l : List α) : (SetSpec.symmetricDifference O xs l).length ≤ l.length + xs.length := by
  unfold SetSpec.symmetricDifference
  have h1 := insertAll_le O (xs.filter fun x => x ∉ l) (l.filter fun x => x ∉ xs)
  have h2 := List.length_filter_le (fun x => decide (x ∉ xs)) l
  have h3 := List.length_filter_le (fun x => decide (x ∉ l)) xs
  omega

section
variable (hT : W.Tracks L R room) (h : Verif.SS.Good S L O eqv I) (hP : Pair R s t)
include hT hP

theorem same_add (v : α) (hr : (L.iter t.list).length + 1 < room) : Same (Pair R) id (add S W v) s (Verif.SS.add S L v) t := by
  refine Same.see (Same.get (Same.ite (by rw [hP.1]) (fun _ => Same.pure hP rfl) fun _ => ?_))
  exact Same.bind (same_onSet hP) fun _ s' e hP' => same_onList hP' (hT.add v hP'.2 hr)

theorem same_remove (v : α) (hr : (L.iter t.list).length < room) : Same (Pair R) id (remove S W v) s (Verif.SS.remove S L v) t := by
  refine Same.bind (same_setRemove hP) fun _ s' e hP' => same_onList hP' (hT.remove v hP'.2 ?_)
  unfold Verif.SS.setRemove at e ⊢
  cases hv : S.remove v t.set <;> simpa [hv] using hr

theorem same_discard (v : α) (hr : (L.iter t.list).length < room) : Same (Pair R) id (discard S W v) s (Verif.SS.discard S L v) t :=
  Same.see (Same.get (Same.ite (by rw [hP.1]) (fun _ => same_remove hT hP v hr) fun _ => Same.pure hP rfl))

theorem same_clear : Same (Pair R) id (clear S W) s (Verif.SS.clear S L) t :=
  Same.bind (same_onSet hP) fun _ _ _ hP' => same_onList hP' (hT.clear hP'.2)

theorem same_delInt (i : Int) : Same (Pair R) id (delInt S W i) s (Verif.SS.delInt S L i) t :=
  Same.bind (same_onList hP (hT.getInt i hP.2)) fun _ _ _ hP' => Same.bind (same_setRemove hP') fun _ _ _ hP'' => same_onList hP'' (hT.delInt i hP''.2)

include h in
theorem same_delSlice (sl : PySlice) (hi : I t.list) (hr : (L.iter t.list).length < room) : Same (Pair R) id (delSlice S W sl) s (Verif.SS.delSlice S L sl) t := by
  refine Same.bind (same_onList hP (hT.getSlice sl hP.2)) fun _ _ _ hP' => Same.bind (same_onSet hP') fun _ _ _ hP'' => same_onList hP'' (hT.delSlice sl hP''.2 ?_)
  obtain ⟨-, h2, -⟩ := h.list.getSlice sl t.list hi
  show (L.iter (L.getSlice sl t.list).2).length < room
  rw [h2]
  unfold Spec.getSlice
  split <;> exact hr

theorem same_pop (i : Int) : Same (Pair R) id (pop S W i) s (Verif.SS.pop S L i) t :=
  Same.bind (same_onList hP (hT.pop i hP.2)) fun _ _ _ hP' => Same.bind (same_setRemove hP') fun _ _ _ hP'' => Same.pure hP'' rfl

include h in
/-- The room is enough for the values that the built-in set has now. -/
theorem same_rebuild (hi : I t.list) (hr : (S.toList t.set).length < room) : Same (Pair R) id (rebuild S W) s (Verif.SS.rebuild S L) t := by
  refine Same.bind (same_onList hP (hT.clear hP.2)) fun c s' e hP' => ?_
  obtain ⟨-, h2, -⟩ := h.list.clear t.list hi
  refine Same.see (Same.get ?_)
  rw [hP'.1]
  refine same_onList hP' (hT.update _ hP'.2 ?_)
  show (L.iter (L.clear t.list).2).length + (S.toList t.set).length < room
  rw [h2]
  simpa [Spec.clear] using hr

include h in
theorem same_update (xss : List (List α)) (hi : Verif.SS.Inv S L I t) (hr : (L.iter t.list).length + xss.flatten.length < room) :
    Same (Pair R) id (update S W xss) s (Verif.SS.update S L xss) t := by
  have hv : (S.toList (S.ofList xss.flatten)).length ≤ xss.flatten.length := by
    have := (h.set.ofList xss.flatten).length_eq
    rw [this]
    have := addNew_le eqv xss.flatten []
    simpa using this
  refine Same.see (Same.get (Same.ite (by rw [hP.1]) (fun _ => ?_) fun _ => ?_))
  · refine Same.bind (same_onSet hP) fun _ s' _ hP' => same_rebuild hT h hP' hi.list ?_
    show (S.toList (S.update _ t.set)).length < room
    rw [(h.set.update _ _).length_eq]
    have := addNew_le eqv (S.toList (S.ofList xss.flatten)) (S.toList t.set)
    have := hi.perm.length_eq
    omega
  · refine Same.forEach (I := Verif.SS.Inv S L I) (size := fun t => (L.iter t.list).length) (w := 1) (fun v s t hP hi hr => ⟨same_add hT hP v hr, ?_, insert_le h hi v⟩) _ s t hP hi (by omega)
    obtain ⟨t', e, h1, -⟩ := Verif.SS.add_ok h hi v
    rw [e]; exact h1

include h in
theorem same_differenceUpdate (xss : List (List α)) (hi : Verif.SS.Inv S L I t) (hr : (L.iter t.list).length < room) :
    Same (Pair R) id (differenceUpdate S W xss) s (Verif.SS.differenceUpdate S L xss) t := by
  refine Same.see (Same.get (Same.ite (by rw [hP.1]) (fun _ => ?_) fun _ => ?_))
  · refine Same.bind (same_onSet hP) fun _ s' _ hP' => same_rebuild hT h hP' hi.list ?_
    show (S.toList (S.differenceUpdate _ t.set)).length < room
    rw [(h.set.differenceUpdate _ _).length_eq]
    have := List.length_filter_le (fun y => !(S.toList (S.ofList xss.flatten)).any (eqv · y)) (S.toList t.set)
    have := hi.perm.length_eq
    omega
  · refine Same.forEach (I := Verif.SS.Inv S L I) (size := fun t => (L.iter t.list).length) (w := 0) (fun v s t hP hi hr => ?_) _ s t hP hi (by simpa using hr)
    obtain ⟨t', e, h1, h2⟩ := Verif.SS.discard_ok h hi v
    refine ⟨same_discard hT hP v (by simpa using hr), by rw [e]; exact h1, ?_⟩
    rw [e]
    show (Verif.SS.iter L t').length ≤ (L.iter t.list).length + 0
    rw [h2]
    exact List.length_filter_le _ _

include h in
theorem same_intersectionUpdate (xss : List (List α)) (hi : Verif.SS.Inv S L I t) (hr : (Verif.SS.iter L (Verif.SS.intersectionUpdate S L xss t).2).length < room) :
    Same (Pair R) id (intersectionUpdate S W xss) s (Verif.SS.intersectionUpdate S L xss) t := by
  refine Same.bind (same_onSet hP) fun _ s' _ hP' => same_rebuild hT h hP' hi.list ?_
  obtain ⟨t', e, h1, h2⟩ := Verif.SS.rebuild_ok h (s := { t with set := S.intersectionUpdate xss t.set }) hi.list
  have e' : (Verif.SS.intersectionUpdate S L xss t).2 = t' := congrArg Prod.snd e
  rw [e'] at hr
  have := h1.perm.length_eq
  rw [h2] at this
  show (S.toList (S.intersectionUpdate xss t.set)).length < room
  rw [this]; exact hr

include h in
theorem same_symmetricDifferenceUpdate (xs : List α) (hi : Verif.SS.Inv S L I t) (hr : (Verif.SS.iter L (Verif.SS.symmetricDifferenceUpdate S L xs t).2).length < room) :
    Same (Pair R) id (symmetricDifferenceUpdate S W xs) s (Verif.SS.symmetricDifferenceUpdate S L xs) t := by
  refine Same.bind (same_onSet hP) fun _ s' _ hP' => same_rebuild hT h hP' hi.list ?_
  obtain ⟨t', e, h1, h2⟩ := Verif.SS.rebuild_ok h (s := { t with set := S.symmetricDifferenceUpdate xs t.set }) hi.list
  have e' : (Verif.SS.symmetricDifferenceUpdate S L xs t).2 = t' := congrArg Prod.snd e
  rw [e'] at hr
  have := h1.perm.length_eq
  rw [h2] at this
  show (S.toList (S.symmetricDifferenceUpdate xs t.set)).length < room
  rw [this]; exact hr

include h in
theorem same_step [DecidableEq α] (ht : Verif.SS.Total O eqv) (op : SSOp α) (ho : op.Valid) (hi : Verif.SS.Inv S L I t) (hr : (L.iter t.list).length + op.given.length < room) :
    Same (Pair R) id (step S W L op) s (Verif.SS.step S L op) t := by
  have sees : ∀ {β : Type} (f : τ → β) (g : β → Out α), Same (Pair R) id (g <$> seeSet f) s (Spec.out g (Verif.SS.read fun s => f s.set)) t :=
    fun f g => (same_seeSet hP).out fun _ => rfl
  have iters : ∀ (g : List α → Out α) (f : Verif.SS τ σ' → List α), f t = L.iter t.list → Same (Pair R) id (g <$> onList W.toList) s (Spec.out g (Verif.SS.read f)) t :=
    fun g f e => ⟨s, by rw [Task.alone_map, alone_onList, hT.toList hP.2]; simp [Spec.out, Verif.SS.read, e, Except.map], hP⟩
  have mk : ∀ (f : τ → τ) (g : Verif.SS τ σ' → Except PyErr (Verif.SS τ σ')), g t = Verif.SS.fromset S L (f t.set) →
      Same (Pair R) id (do let t ← seeSet f; Out.vals <$> made S L t) s (Spec.out Out.vals (Verif.SS.valuesOf L g)) t := by
    intro f g e
    refine Same.see ⟨s, ?_, ?_⟩
    · rw [Task.alone_map, made, Task.alone_lift, hP.1]
      simp only [Spec.out, Verif.SS.valuesOf, e]
      cases Verif.SS.fromset S L (f t.set) <;> rfl
    · simp only [Spec.out, Verif.SS.valuesOf, e]
      cases Verif.SS.fromset S L (f t.set) <;> exact hP
  have after : ∀ (op : SSOp α), op.Valid → (Verif.SS.iter L (Verif.SS.step S L op t).2) = (SetSpec.step O op (L.iter t.list)).2 := fun op hv => (Verif.SS.step_refines h ht op hv t hi).2.1
  have hout : ∀ {β : Type} (f : β → Out α) (m : Py (Verif.SS τ σ') β), (Spec.out f m t).2 = (m t).2 := fun f m => by
    unfold Spec.out; rcases m t with ⟨_ | _, _⟩ <;> rfl
  cases op with
  | add v => exact (same_add hT hP v hr).out fun _ => rfl
  | discard v => exact (same_discard hT hP v hr).out fun _ => rfl
  | remove v => exact (same_remove hT hP v hr).out fun _ => rfl
  | pop i => exact (same_pop hT hP i).out fun _ => rfl
  | delInt i => exact (same_delInt hT hP i).out fun _ => rfl
  | clear => exact (same_clear hT hP).out fun _ => rfl
  | update xss => exact (same_update hT h hP xss hi hr).out fun _ => rfl
  | differenceUpdate xss => exact (same_differenceUpdate hT h hP xss hi hr).out fun _ => rfl
  | intersectionUpdate xss =>
    refine (same_intersectionUpdate hT h hP xss hi ?_).out fun _ => rfl
    have := after (.intersectionUpdate xss) trivial
    rw [Verif.SS.step, hout] at this
    rw [this]
    exact Nat.lt_of_le_of_lt (List.length_filter_le _ _) hr
  | symmetricDifferenceUpdate xs =>
    refine (same_symmetricDifferenceUpdate hT h hP xs hi ?_).out fun _ => rfl
    have := after (.symmetricDifferenceUpdate xs) trivial
    rw [Verif.SS.step, hout] at this
    rw [this]
    exact Nat.lt_of_le_of_lt (symmetricDifference_le _ _ _) hr
  | getInt i => exact (same_onList hP (hT.getInt i hP.2)).out fun _ => rfl
  | bisectLeft v => exact (same_onList hP (hT.bisectLeft v hP.2)).out fun _ => rfl
  | bisectRight v => exact (same_onList hP (hT.bisectRight v hP.2)).out fun _ => rfl
  | contains v => exact sees _ _
  | len => exact sees _ _
  | count v => exact sees _ _
  | isdisjoint xs => exact sees _ _
  | issubset xs => exact sees _ _
  | issuperset xs => exact sees _ _
  | compare op values => exact sees _ _
  | iter => exact iters _ _ rfl
  | reversed =>
    have hrev : L.reversed t.list = (L.iter t.list).reverse := by
      obtain ⟨h1, -, -⟩ := h.list.reversed t.list hi.list
      simpa [ListAPI.read, Spec.reversed] using h1
    refine ⟨s, ?_, hP⟩
    show ((fun l => Out.vals l.reverse) <$> onList W.toList : Task (Verif.SS τ σ) (Out α)).alone s = _
    rw [Task.alone_map, alone_onList, hT.toList hP.2]
    simp [Verif.SS.step, Spec.out, Verif.SS.read, Verif.SS.reversed, hrev, Except.map]
  | copy => exact mk S.copy _ rfl
  | intersection xss => exact mk (S.intersection xss) _ rfl
  | difference xss => exact mk (S.difference xss) _ rfl
  | symmetricDifference xs => exact mk (S.symmetricDifference xs) _ rfl
  | union xss =>
    refine ⟨s, ?_, ?_⟩
    · show (onList W.toList >>= fun own => Out.vals <$> Task.lift (Verif.SS.iter L <$> Verif.SS.new S L (some (own ++ xss.flatten))) : Task (Verif.SS τ σ) (Out α)).alone s = _
      rw [Task.alone_bind', alone_onList, hT.toList hP.2]
      simp only [Option.map_some, Task.alone_map, Task.alone_lift, Verif.SS.step, Spec.out, Verif.SS.valuesOf, Verif.SS.union, Verif.SS.iter]
      cases Verif.SS.new S L (some (L.iter t.list ++ xss.flatten)) <;> rfl
    · simp only [Verif.SS.step, Spec.out, Verif.SS.valuesOf]
      cases Verif.SS.union S L xss t <;> exact hP
  | delSlice sl => exact (same_delSlice hT h hP sl hi.list hr).out fun _ => rfl
  | getSlice sl => exact (same_onList hP (hT.getSlice sl hP.2)).out fun _ => rfl
  | index v i j => exact (same_onList hP (hT.index v i j hP.2 hr)).out fun _ => rfl
  | irange lo hi a b r => exact (same_onList hP (hT.irange lo hi a b r hP.2)).out fun _ => rfl
  | islice i j r => exact (same_onList hP (hT.islice i j r hP.2)).out fun _ => rfl
  | reset load => exact (same_onList hP (hT.reset ho hP.2 hr)).out fun _ => rfl

end

theorem spec_length [DecidableEq α] (op : SSOp α) (l : List α) : (SetSpec.step O op l).2.length ≤ l.length + op.given.length := by
  have hi := fun i => (List.eraseIdx_sublist l i).length_le
  have hf := fun p => List.length_filter_le p l
  have hout : ∀ {β : Type} (f : β → Out α) (m : Py (List α) β), (Spec.out f m l).2 = (m l).2 := fun f m => by
    unfold Spec.out; rcases m l with ⟨_ | _, _⟩ <;> rfl
  cases op <;> simp only [SetSpec.step, hout, SSOp.given, SetSpec.query, SetSpec.assign, SetSpec.union] <;> (try exact Nat.le_refl _)
  case add v => exact insertAll_le O [v] l
  case discard v => exact List.length_erase_le
  case remove v => unfold SetSpec.remove; split <;> simp [List.length_erase_le]
  case pop i => unfold Spec.pop; split <;> (try split) <;> simp [hi]
  case delInt i => unfold Spec.delInt; split <;> simp [hi]
  case clear => simp [Spec.clear]
  case update xss => exact insertAll_le O _ l
  case differenceUpdate xss => exact hf _
  case intersectionUpdate xss => exact hf _
  case symmetricDifferenceUpdate xs => exact symmetricDifference_le _ _ _
  case getInt i => unfold Spec.getInt; split <;> simp
  case delSlice sl =>
    unfold Spec.delSlice; split
    · exact Nat.le_refl _
    · exact Spec.deletePositions_length _ _
  case getSlice sl => unfold Spec.getSlice; split <;> simp
  case index v i j => unfold Spec.index; simp only; split <;> simp
  all_goals simp [Spec.bisectLeft, Spec.bisectRight]

/-- The set holds the values `l` and is as its methods leave it. -/
def Holds (S : SetOps τ α) (L : ListAPI σ' α) (I : σ' → Prop) (R : σ → σ' → Prop) (s : Verif.SS τ σ) (l : List α) : Prop := ∃ t, Pair R s t ∧ Verif.SS.Inv S L I t ∧ Verif.SS.iter L t = l

theorem follows [DecidableEq α] (hT : W.Tracks L R room) (h : Verif.SS.Good S L O eqv I) (ht : Verif.SS.Total O eqv) :
    Guarded.Follows SSOp.Valid (step S W L) (SetSpec.step O) (Holds S L I R) List.length (fun op => op.given.length) room := by
  rintro op s l ho ⟨t, hP, hi, rfl⟩ hf
  obtain ⟨h1, h2, h3⟩ := Verif.SS.step_refines h ht op ho t hi
  obtain ⟨s', e, hP'⟩ := same_step hT h hP ht op ho hi hf
  refine ⟨s', ?_, ⟨_, hP', h3, h2⟩, spec_length op _⟩
  have hid : ∀ x : Except PyErr (Out α), Except.map id x = x := fun x => by cases x <;> rfl
  rw [e, hid, h1]

end SS
end Race
end Verif
