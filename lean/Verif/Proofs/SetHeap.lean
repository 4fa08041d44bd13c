import Verif.Model.SetHeap
import Verif.Proofs.SetHistory
/-!
# A SortedSet by reference does what a SortedSet by value does, to its own set and list
-/

namespace Verif
namespace SetHeap
variable {τ σ α β γ : Type}

/-- The sorted set `o` has its set and list in memory, its bound methods are theirs, and their values are `s`. -/
structure At (m : Mem τ σ) (o : Obj) (s : SS τ σ) : Prop where
  set : m.sets[o.set]? = some s.set
  list : m.lists[o.list]? = some s.list
  setMethods : o.setMethods = o.set
  listMethods : o.listMethods = o.list

/-- The set and the list of `o` get the values `s`. -/
def put (m : Mem τ σ) (o : Obj) (s : SS τ σ) : Mem τ σ :=
  { sets := m.sets.set o.set s.set, lists := m.lists.set o.list s.list }

variable {m : Mem τ σ} {o : Obj} {s s' : SS τ σ}

theorem At.bounds (h : At m o s) : o.set < m.sets.length ∧ o.list < m.lists.length :=
  ⟨(List.getElem?_eq_some_iff.1 h.set).1, (List.getElem?_eq_some_iff.1 h.list).1⟩

theorem At.put (h : At m o s) (s' : SS τ σ) : At (put m o s') o s' where
  set := by simp [SetHeap.put, h.bounds.1]
  list := by simp [SetHeap.put, h.bounds.2]
  setMethods := h.setMethods
  listMethods := h.listMethods

theorem put_put (m : Mem τ σ) (o : Obj) (s s' : SS τ σ) : put (put m o s) o s' = put m o s' := by
  simp [put]

theorem At.put_self (h : At m o s) : SetHeap.put m o s = m := by
  have h1 := List.getElem?_eq_some_iff.1 h.set
  have h2 := List.getElem?_eq_some_iff.1 h.list
  obtain ⟨_, e1⟩ := h1
  obtain ⟨_, e2⟩ := h2
  simp only [SetHeap.put, ← e1, ← e2, List.set_getElem_self]

/-- The method `m` by reference does what `f` does by value. -/
def Lifts (o : Obj) (r : Run τ σ β) (f : Py (SS τ σ) β) : Prop :=
  ∀ m s, At m o s → r { mem := m, self := o } = ((f s).1, { mem := put m o (f s).2, self := o })

namespace Lifts

theorem pure (b : β) : Lifts o (Pure.pure b : Run τ σ β) (Pure.pure b) := by
  intro m s h
  show (Except.ok b, _) = (Except.ok b, _)
  simp only [Pure.pure, Py.pure, h.put_self]

theorem bind {r : Run τ σ β} {f : Py (SS τ σ) β} {r' : β → Run τ σ γ} {f' : β → Py (SS τ σ) γ}
    (h : Lifts o r f) (h' : ∀ b, Lifts o (r' b) (f' b)) : Lifts o (r >>= r') (f >>= f') := by
  intro m s hs
  show Py.bind r r' _ = ((Py.bind f f' s).1, ({ mem := SetHeap.put m o (Py.bind f f' s).2, self := o } : Ctx τ σ))
  simp only [Py.bind, h m s hs]
  rcases e : f s with ⟨_ | b, s1⟩
  · simp only [Py.bind, e]
  · simp only [Py.bind, e]
    rw [h' b _ _ (hs.put s1), put_put]

theorem self {r : Obj → Run τ σ β} {f : Py (SS τ σ) β} (h : Lifts o (r o) f) : Lifts o (SetHeap.self >>= r) f := h

theorem theSet {r : τ → Run τ σ β} {f : SS τ σ → Py (SS τ σ) β} (h : ∀ s0 : SS τ σ, Lifts o (r s0.set) (f s0)) :
    Lifts o (SetHeap.theSet o.set >>= r) (Py.get >>= f) := by
  intro m s hs
  show Py.bind _ r _ = ((Py.bind Py.get f s).1, _)
  simp only [Py.bind, SetHeap.theSet, hs.set]
  exact h s m s hs

theorem theList {r : σ → Run τ σ β} {f : SS τ σ → Py (SS τ σ) β} (h : ∀ s0 : SS τ σ, Lifts o (r s0.list) (f s0)) :
    Lifts o (SetHeap.theList o.list >>= r) (Py.get >>= f) := by
  intro m s hs
  show Py.bind _ r _ = ((Py.bind Py.get f s).1, _)
  simp only [Py.bind, SetHeap.theList, hs.list]
  exact h s m s hs

theorem onList (f : Py σ β) : Lifts (τ := τ) o (SetHeap.onList o.list f) (SS.onList f) := by
  intro m s hs
  have h1 := List.getElem?_eq_some_iff.1 hs.set
  obtain ⟨_, e1⟩ := h1
  simp only [SetHeap.onList, hs.list, SS.onList, SetHeap.put, ← e1, List.set_getElem_self]

theorem onSet (f : τ → τ) : Lifts (σ := σ) o (SetHeap.onSet o.set fun t => .ok (f t)) (SS.onSet f) := by
  intro m s hs
  have h1 := List.getElem?_eq_some_iff.1 hs.list
  obtain ⟨_, e1⟩ := h1
  simp only [SetHeap.onSet, hs.set, SS.onSet, Py.modify, SetHeap.put, ← e1, List.set_getElem_self]

theorem setRemove (S : SetOps τ α) (v : α) : Lifts (σ := σ) o (SetHeap.onSet o.set (S.remove v)) (SS.setRemove S v) := by
  intro m s hs
  have h1 := List.getElem?_eq_some_iff.1 hs.list
  obtain ⟨_, e1⟩ := h1
  simp only [SetHeap.onSet, hs.set, SS.setRemove]
  rcases S.remove v s.set with _ | t
  · simp only [hs.put_self]
  · simp only [SetHeap.put, ← e1, List.set_getElem_self]

theorem forEach {r : γ → Run τ σ Unit} {f : γ → Py (SS τ σ) Unit} (h : ∀ x, Lifts o (r x) (f x)) (xs : List γ) :
    Lifts o (Py.forEach r xs) (Py.forEach f xs) := by
  induction xs with
  | nil => exact pure ()
  | cons x xs ih => exact bind (h x) fun _ => ih

theorem out {g : β → Out α} {r : Run τ σ β} {f : Py (SS τ σ) β} (h : Lifts o r f) : Lifts o (Spec.out g r) (Spec.out g f) := by
  intro m s hs
  simp only [Spec.out, h m s hs]
  rcases f s with ⟨_ | b, s1⟩ <;> rfl

theorem read {g : SS τ σ → β} {r : Run τ σ β}
    (h : ∀ m s, At m o s → r { mem := m, self := o } = (.ok (g s), { mem := m, self := o })) : Lifts o r (SS.read g) := by
  intro m s hs
  simp only [SS.read, h m s hs, hs.put_self]

variable (S : SetOps τ α) (L : ListAPI σ α)

theorem rebuild : Lifts o (SetHeap.rebuild S L o.set o.list) (SS.rebuild S L) :=
  bind (onList _) fun _ => theSet fun _ => onList _

theorem add (v : α) : Lifts o (SetHeap.add S L v) (SS.add S L v) := by
  refine self (theSet fun s0 => ?_)
  split
  · exact pure ()
  · exact bind (onSet _) fun _ => self (onList _)

theorem discard (v : α) : Lifts o (SetHeap.discard S L v) (SS.discard S L v) := by
  refine self (theSet fun s0 => ?_)
  split
  · exact bind (setRemove S v) fun _ => self (onList _)
  · exact pure ()

theorem remove (v : α) : Lifts o (SetHeap.remove S L v) (SS.remove S L v) :=
  self (bind (setRemove S v) fun _ => self (onList _))

theorem pop (i : Int) : Lifts o (SetHeap.pop S L i) (SS.pop S L i) :=
  self (bind (onList _) fun v => self (bind (setRemove S v) fun _ => pure v))

theorem delInt (i : Int) : Lifts o (SetHeap.delInt S L i) (SS.delInt S L i) :=
  self (self (bind (onList _) fun v => bind (setRemove S v) fun _ => onList _))

theorem delSlice (sl : PySlice) : Lifts o (SetHeap.delSlice S L sl) (SS.delSlice S L sl) :=
  self (self (bind (onList _) fun _ => bind (onSet _) fun _ => onList _))

theorem clear : Lifts o (SetHeap.clear S L) (SS.clear S L) :=
  self (bind (onSet _) fun _ => self (onList _))

theorem update (xss : List (List α)) : Lifts o (SetHeap.update S L xss) (SS.update S L xss) := by
  refine self (self (theSet fun s0 => ?_))
  dsimp only
  split
  · exact bind (onSet _) fun _ => rebuild S L
  · exact forEach (add S L) _

theorem differenceUpdate (xss : List (List α)) : Lifts o (SetHeap.differenceUpdate S L xss) (SS.differenceUpdate S L xss) := by
  refine self (self (theSet fun s0 => ?_))
  dsimp only
  split
  · exact bind (onSet _) fun _ => rebuild S L
  · exact forEach (discard S L) _

theorem intersectionUpdate (xss : List (List α)) :
    Lifts o (SetHeap.intersectionUpdate S L xss) (SS.intersectionUpdate S L xss) :=
  self (self (bind (onSet _) fun _ => rebuild S L))

theorem symmetricDifferenceUpdate (xs : List α) :
    Lifts o (SetHeap.symmetricDifferenceUpdate S L xs) (SS.symmetricDifferenceUpdate S L xs) :=
  self (self (bind (onSet _) fun _ => rebuild S L))

end Lifts

/-! ### New sorted sets -/

/-- More objects. -/
def more (m : Mem τ σ) (ts : List τ) (ls : List σ) : Mem τ σ := { sets := m.sets ++ ts, lists := m.lists ++ ls }

/-- The method only makes new objects; among them a sorted set with the values that `g` gives, unless `g` raises. -/
def Makes (o : Obj) (r : Run τ σ Obj) (g : SS τ σ → Except PyErr (SS τ σ)) : Prop :=
  ∀ m s, At m o s → ∃ ts ls, (r { mem := m, self := o }).2 = { mem := more m ts ls, self := o } ∧
    match g s with
    | .ok s' => ∃ o', (r { mem := m, self := o }).1 = .ok o' ∧ At (more m ts ls) o' s' ∧
        m.sets.length ≤ o'.set ∧ m.lists.length ≤ o'.list
    | .error e => (r { mem := m, self := o }).1 = .error e

variable (S : SetOps τ α) (L : ListAPI σ α)

theorem fromset_makes {f : τ → τ} :
    Makes o (do let t ← theSet (← self).set; fromset S L (← newSet (f t))) fun s => SS.fromset S L (f s.set) := by
  intro m s hs
  have e : (do let t ← theSet (← self).set; fromset S L (← newSet (f t)) : Run τ σ Obj) { mem := m, self := o } =
      fromset S L m.sets.length { mem := more m [f s.set] [], self := o } := by
    show Py.bind _ _ _ = _
    simp only [self, Py.bind]
    show Py.bind _ _ _ = _
    simp only [Py.bind, theSet, hs.set]
    show Py.bind _ _ _ = _
    simp only [Py.bind, newSet, more, List.append_nil]
  rw [e]
  simp only [fromset, init, more, List.append_nil]
  rw [List.getElem?_append_right (Nat.le_refl _)]
  simp only [Nat.sub_self, List.getElem?_cons_zero]
  unfold SS.fromset
  rcases L.new (some (S.toList (f s.set))) with x | l
  · exact ⟨[f s.set], [], by simp, rfl⟩
  · refine ⟨[f s.set], [l], rfl, _, rfl, ⟨by simp, by simp, rfl, rfl⟩, Nat.le_refl _, Nat.le_refl _⟩

theorem init_makes (m : Mem τ σ) (o : Obj) (xs : Option (List α)) :
    ∃ ts ls, (init S L none xs { mem := m, self := o }).2 = { mem := more m ts ls, self := o } ∧
    match SS.new S L xs with
    | .ok s' => ∃ o', (init S L none xs { mem := m, self := o }).1 = .ok o' ∧ At (more m ts ls) o' s' ∧
        m.sets.length ≤ o'.set ∧ m.lists.length ≤ o'.list
    | .error e => (init S L none xs { mem := m, self := o }).1 = .error e := by
  simp only [init]
  rw [List.getElem?_append_right (Nat.le_refl _)]
  simp only [Nat.sub_self, List.getElem?_cons_zero]
  unfold SS.new
  rcases L.new (some (S.toList S.empty)) with x | l
  · exact ⟨[S.empty], [], by simp [more], rfl⟩
  · rcases xs with _ | xs
    · exact ⟨[S.empty], [l], rfl, _, rfl, ⟨by simp [more], by simp [more], rfl, rfl⟩, Nat.le_refl _, Nat.le_refl _⟩
    · let o' : Obj := { set := m.sets.length, list := m.lists.length, setMethods := m.sets.length, listMethods := m.lists.length }
      have ha : At (more m [S.empty] [l]) o' { set := S.empty, list := l } := ⟨by simp [more, o'], by simp [more, o'], rfl, rfl⟩
      have hu := Lifts.update (o := o') S L [xs] _ _ ha
      have hp : ∀ s' : SS τ σ, put (more m [S.empty] [l]) o' s' = more m [s'.set] [s'.list] := by
        intro s'
        simp only [put, more, o']
        rw [List.set_append_right _ _ (Nat.le_refl _), List.set_append_right _ _ (Nat.le_refl _)]
        simp
      have hu' : update S L [xs] { mem := { sets := m.sets ++ [S.empty], lists := m.lists ++ [l] }, self := o' } = _ := hu
      simp only [o'] at hu'
      rw [hp] at hu'
      simp only [hu']
      rcases e : SS.update S L [xs] { set := S.empty, list := l } with ⟨_ | _, s'⟩
      · exact ⟨_, _, rfl, rfl⟩
      · refine ⟨_, _, rfl, _, rfl, ⟨by simp [more], by simp [more], rfl, rfl⟩, Nat.le_refl _, Nat.le_refl _⟩

theorem new_makes {f : SS τ σ → List α} {r : Run τ σ (List α)}
    (h : ∀ m s, At m o s → r { mem := m, self := o } = (.ok (f s), { mem := m, self := o })) :
    Makes o (do init S L none (some (← r))) fun s => SS.new S L (some (f s)) := by
  intro m s hs
  have e : (do init S L none (some (← r)) : Run τ σ Obj) { mem := m, self := o } =
      init S L none (some (f s)) { mem := m, self := o } := by
    show Py.bind _ _ _ = _
    simp only [Py.bind, h m s hs]
  rw [e]
  exact init_makes S L m o _

theorem copy_makes : Makes o (copy S L) (SS.copy S L) := fromset_makes S L

theorem difference_makes (xss : List (List α)) : Makes o (difference S L xss) (SS.difference S L xss) := fromset_makes S L

theorem intersection_makes (xss : List (List α)) : Makes o (intersection S L xss) (SS.intersection S L xss) := fromset_makes S L

theorem symmetricDifference_makes (xs : List α) : Makes o (symmetricDifference S L xs) (SS.symmetricDifference S L xs) :=
  fromset_makes S L

theorem iter_run {m : Mem τ σ} {s : SS τ σ} (hs : At m o s) :
    iter L { mem := m, self := o } = (.ok (SS.iter L s), { mem := m, self := o }) := by
  show Py.bind _ _ _ = _
  simp only [self, Py.bind]
  show Py.bind _ _ _ = _
  simp only [Py.bind, theList, hs.list]
  rfl

theorem set_run {m : Mem τ σ} {s : SS τ σ} (hs : At m o s) (f : τ → β) :
    (do return f (← theSet (← self).set) : Run τ σ β) { mem := m, self := o } = (.ok (f s.set), { mem := m, self := o }) := by
  show Py.bind _ _ _ = _
  simp only [self, Py.bind]
  show Py.bind _ _ _ = _
  simp only [Py.bind, theSet, hs.set]
  rfl

theorem methods_run {m : Mem τ σ} {s : SS τ σ} (hs : At m o s) (f : τ → β) :
    (do return f (← theSet (← self).setMethods) : Run τ σ β) { mem := m, self := o } = (.ok (f s.set), { mem := m, self := o }) := by
  show Py.bind _ _ _ = _
  simp only [self, Py.bind]
  show Py.bind _ _ _ = _
  simp only [Py.bind, theSet, hs.setMethods, hs.set]
  rfl

theorem union_makes (xss : List (List α)) : Makes o (union S L xss) (SS.union S L xss) := by
  intro m s hs
  have e : union S L xss { mem := m, self := o } = init S L none (some (SS.iter L s ++ xss.flatten)) { mem := m, self := o } := by
    show Py.bind _ _ _ = _
    simp only [Py.bind, iter_run L hs]
  rw [e]
  exact init_makes S L m o _

theorem pickle_makes : Makes o (pickle S L) fun s => SS.new S L (some (SS.reduceArgs S s)) := by
  intro m s hs
  have e : pickle S L { mem := m, self := o } = init S L none (some (SS.reduceArgs S s)) { mem := m, self := o } := by
    have e' : (pickle S L : Run τ σ Obj) { mem := m, self := o } =
        (theSet o.set >>= fun t => init S L none (some (S.toList t))) { mem := m, self := o } := rfl
    rw [e']
    show Py.bind _ _ _ = _
    simp only [Py.bind, theSet, hs.set]
    rfl
  rw [e]
  exact init_makes S L m o _

end SetHeap
end Verif
