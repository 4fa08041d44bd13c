import Verif.Proofs.SetHeap
/-!
# Several sorted sets by reference are several sorted sets by value

`Vals` is the world in which every set and every sorted set is a value; `World.sim`: the world of references behaves like
it, whatever comparisons do, unless the client calls `__reduce__`.
-/

namespace Verif
namespace SetHeap
variable {τ σ α β γ : Type}

section
variable {m : Mem τ σ} {o : Obj} {s s' : SS τ σ} (S : SetOps τ α) (L : ListAPI σ α)

theorem more_nil (m : Mem τ σ) : more m [] [] = m := by simp [more]

/-- A call by reference does what the call by value does; it may also make objects that are dropped. -/
def Calls (o : Obj) (r : Run τ σ β) (f : Py (SS τ σ) β) : Prop :=
  ∀ m s, At m o s → ∃ ts ls, r { mem := m, self := o } = ((f s).1, { mem := more (put m o (f s).2) ts ls, self := o })

theorem Lifts.calls {r : Run τ σ β} {f : Py (SS τ σ) β} (h : Lifts o r f) : Calls o r f := fun m s hs =>
  ⟨[], [], by rw [h m s hs, more_nil]⟩

theorem Calls.out {g : β → Out α} {r : Run τ σ β} {f : Py (SS τ σ) β} (h : Calls o r f) : Calls o (Spec.out g r) (Spec.out g f) := by
  intro m s hs
  obtain ⟨ts, ls, e⟩ := h m s hs
  refine ⟨ts, ls, ?_⟩
  simp only [Spec.out, e]
  rcases f s with ⟨_ | b, s1⟩ <;> rfl

theorem Makes.values {r : Run τ σ Obj} {g : SS τ σ → Except PyErr (SS τ σ)} (h : Makes o r g) :
    Calls o (values L r) (SS.valuesOf L g) := by
  intro m s hs
  obtain ⟨ts, ls, e1, e2⟩ := h m s hs
  refine ⟨ts, ls, ?_⟩
  show Py.bind _ _ _ = _
  simp only [Py.bind, SS.valuesOf]
  rcases hr : r { mem := m, self := o } with ⟨x, c⟩
  rw [hr] at e1 e2
  simp only at e1
  subst e1
  rcases hg : g s with x' | s'
  · rw [hg] at e2
    simp only at e2
    subst e2
    simp only [hs.put_self]
  · rw [hg] at e2
    obtain ⟨o', e, ha, _⟩ := e2
    simp only at e
    subst e
    show Py.bind _ _ _ = _
    simp only [Py.bind, theList, ha.list, hs.put_self]
    rfl

theorem compare_calls (op : CmpOp) (xs : List α) :
    Calls o (do compare S op (← newSet (S.ofList xs))) (SS.read (SS.compare (σ := σ) S op (S.ofList xs))) := by
  intro m s hs
  refine ⟨[S.ofList xs], [], ?_⟩
  show Py.bind _ _ _ = _
  simp only [Py.bind, newSet]
  show Py.bind _ _ _ = _
  simp only [self, Py.bind]
  show Py.bind _ _ _ = _
  simp only [Py.bind, theSet]
  rw [List.getElem?_append_left hs.bounds.1, hs.set]
  show Py.bind _ _ _ = _
  simp only [Py.bind, theSet]
  rw [List.getElem?_append_right (Nat.le_refl _)]
  simp only [Nat.sub_self, List.getElem?_cons_zero, SS.read, hs.put_self, more, List.append_nil]
  rfl

theorem bound_lifts (hm : o.listMethods = o.list) (f : Py σ β) : Lifts (τ := τ) o (bound f) (SS.onList f) := by
  refine Lifts.self ?_
  rw [hm]
  exact Lifts.onList f

/-- One call. -/
theorem call_calls (op : SSOp α) : Calls o (call S L op) (SS.step S L op) := by
  have b : ∀ {β : Type} (g : β → Out α) (f : Py σ β), Calls (τ := τ) o (Spec.out g (bound f)) (Spec.out g (SS.onList f)) := by
    intro β g f m s hs
    exact ((bound_lifts hs.listMethods f).calls.out) m s hs
  cases op with
  | add v => exact (Lifts.add S L v).out.calls
  | discard v => exact (Lifts.discard S L v).out.calls
  | remove v => exact (Lifts.remove S L v).out.calls
  | pop i => exact (Lifts.pop S L i).out.calls
  | delInt i => exact (Lifts.delInt S L i).out.calls
  | delSlice sl => exact (Lifts.delSlice S L sl).out.calls
  | clear => exact (Lifts.clear S L).out.calls
  | update xss => exact (Lifts.update S L xss).out.calls
  | differenceUpdate xss => exact (Lifts.differenceUpdate S L xss).out.calls
  | intersectionUpdate xss => exact (Lifts.intersectionUpdate S L xss).out.calls
  | symmetricDifferenceUpdate xs => exact (Lifts.symmetricDifferenceUpdate S L xs).out.calls
  | getInt i => exact (Lifts.out (Lifts.self (Lifts.onList _))).calls
  | getSlice sl => exact (Lifts.out (Lifts.self (Lifts.onList _))).calls
  | bisectLeft v => exact b _ _
  | bisectRight v => exact b _ _
  | index v a b' => exact b _ _
  | irange lo hi a b' r => exact b _ _
  | islice a b' r => exact b _ _
  | reset load => exact b _ _
  | contains v => exact (Lifts.read fun m s hs => set_run hs _).out.calls
  | len => exact (Lifts.read fun m s hs => set_run hs _).out.calls
  | iter => exact (Lifts.read fun m s hs => iter_run L hs).out.calls
  | reversed =>
    refine (Lifts.read fun m s hs => ?_).out.calls
    show Py.bind _ _ _ = _
    simp only [self, Py.bind]
    show Py.bind _ _ _ = _
    simp only [Py.bind, theList, hs.list]
    rfl
  | count v => exact (Lifts.read fun m s hs => set_run hs _).out.calls
  | isdisjoint xs => exact (Lifts.read fun m s hs => methods_run hs fun t => !xs.any fun v => S.mem v t).out.calls
  | issubset xs => exact (Lifts.read fun m s hs => methods_run hs fun t => SS.setCompare S .le t (S.ofList xs)).out.calls
  | issuperset xs => exact (Lifts.read fun m s hs => methods_run hs fun t => xs.all fun v => S.mem v t).out.calls
  | compare op xs => exact (compare_calls S op xs).out
  | copy => exact ((copy_makes S L).values L).out
  | union xss => exact ((union_makes S L xss).values L).out
  | intersection xss => exact ((intersection_makes S L xss).values L).out
  | difference xss => exact ((difference_makes S L xss).values L).out
  | symmetricDifference xs => exact ((symmetricDifference_makes S L xs).values L).out

end

/-! ### Sets by value -/

/-- The client's sets and sorted sets, by value. -/
structure Vals (τ σ : Type) where
  sets : List τ
  objs : List (SS τ σ)

namespace Vals
variable (S : SetOps τ α) (L : ListAPI σ α)

def arg (v : Vals τ σ) : SetArg α → Option (List α)
  | .set i => v.sets[i]?.map S.toList
  | .sorted j => v.objs[j]?.map (SS.iter L)
  | .values xs => some xs

def args (v : Vals τ σ) (as : List (SetArg α)) : Option (List (List α)) := as.mapM (v.arg S L)

def operand (v : Vals τ σ) : SetArg α → Option τ
  | .set i => v.sets[i]?
  | .sorted j => v.objs[j]?.map (·.set)
  | .values xs => some (S.ofList xs)

def change (j : Nat) (as : Option β) (m : β → Py (SS τ σ) Unit) : Py (Vals τ σ) (SetOut α) := fun v =>
  match v.objs[j]?, as with
  | some s, some b =>
    let r := m b s
    (r.1.map fun _ => .none, { v with objs := v.objs.set j r.2 })
  | _, _ => (.ok .noSuch, v)

def keep (r : Except PyErr (SS τ σ)) : Py (Vals τ σ) (SetOut α) := fun v =>
  match r with
  | .ok s => (.ok (.newSorted v.objs.length), { v with objs := v.objs ++ [s] })
  | .error e => (.error e, v)

def derive (j : Nat) (as : Option β) (g : β → SS τ σ → Except PyErr (SS τ σ)) : Py (Vals τ σ) (SetOut α) := fun v =>
  match v.objs[j]?, as with
  | some s, some b => keep (g b s) v
  | _, _ => (.ok .noSuch, v)

def step : SetEvent α → Py (Vals τ σ) (SetOut α)
  | .newSet xs => fun v => (.ok (.newSet v.sets.length), { v with sets := v.sets ++ [S.ofList xs] })
  | .mutate i xs => fun v =>
    match v.sets[i]? with
    | some _ => (.ok .none, { v with sets := v.sets.set i (S.ofList xs) })
    | none => (.ok .noSuch, v)
  | .construct a => fun v =>
    match v.arg S L a with
    | some xs => keep (SS.new S L (some xs)) v
    | none => (.ok .noSuch, v)
  | .call j op => fun v =>
    match v.objs[j]? with
    | some s =>
      let r := SS.step S L op s
      (r.1.map .value, { v with objs := v.objs.set j r.2 })
    | none => (.ok .noSuch, v)
  | .compare j op a => fun v =>
    match v.objs[j]?, v.operand S a with
    | some s, some t => (.ok (.value (.bool (SS.compare S op t s))), v)
    | _, _ => (.ok .noSuch, v)
  | .update j as => fun v => change j (v.args S L as) (SS.update S L) v
  | .differenceUpdate j as => fun v => change j (v.args S L as) (SS.differenceUpdate S L) v
  | .intersectionUpdate j as => fun v => change j (v.args S L as) (SS.intersectionUpdate S L) v
  | .symmetricDifferenceUpdate j a => fun v => change j (v.arg S L a) (SS.symmetricDifferenceUpdate S L) v
  | .copy j => derive j (some ()) fun _ => SS.copy S L
  | .pickle j => derive j (some ()) fun _ s => SS.new S L (some (SS.reduceArgs S s))
  | .union j as => fun v => derive j (v.args S L as) (SS.union S L) v
  | .intersection j as => fun v => derive j (v.args S L as) (SS.intersection S L) v
  | .difference j as => fun v => derive j (v.args S L as) (SS.difference S L) v
  | .symmetricDifference j a => fun v => derive j (v.arg S L a) (SS.symmetricDifference S L) v
  | .reduceArgs j => fun v =>
    match v.objs[j]? with
    | some s => (.ok (.newSet v.sets.length), { v with sets := v.sets ++ [s.set] })
    | none => (.ok .noSuch, v)

def contents (v : Vals τ σ) : SetStore α := { sets := v.sets.map S.toList, sorted := v.objs.map (SS.iter L) }

end Vals

/-- The world of references has the values `v`, and nothing is shared. -/
structure World.Has (w : World τ σ) (v : Vals τ σ) : Prop where
  setsLen : w.sets.length = v.sets.length
  objsLen : w.objs.length = v.objs.length
  sets : ∀ (i : Nat) (a : Nat), w.sets[i]? = some a → ∃ t, v.sets[i]? = some t ∧ w.mem.sets[a]? = some t
  objs : ∀ (j : Nat) (o : Obj), w.objs[j]? = some o → ∃ s, v.objs[j]? = some s ∧ At w.mem o s
  setSet : ∀ (i i' : Nat) (a : Nat), w.sets[i]? = some a → w.sets[i']? = some a → i = i'
  setObj : ∀ (i j : Nat) (a : Nat) (o : Obj), w.sets[i]? = some a → w.objs[j]? = some o → a ≠ o.set
  objObj : ∀ (j j' : Nat) (o o' : Obj), w.objs[j]? = some o → w.objs[j']? = some o' → o.set = o'.set → j = j'
  listList : ∀ (j j' : Nat) (o o' : Obj), w.objs[j]? = some o → w.objs[j']? = some o' → o.list = o'.list → j = j'

namespace World.Has
variable {w : World τ σ} {v : Vals τ σ}

theorem empty : World.Has (World.empty : World τ σ) { sets := [], objs := [] } where
  setsLen := rfl
  objsLen := rfl
  sets := by intro i a h; simp [World.empty] at h
  objs := by intro i a h; simp [World.empty] at h
  setSet := by intro i i' a h; simp [World.empty] at h
  setObj := by intro i j a o h; simp [World.empty] at h
  objObj := by intro i j a o h; simp [World.empty] at h
  listList := by intro i j a o h; simp [World.empty] at h

theorem setsNone (h : w.Has v) {i : Nat} (e : w.sets[i]? = none) : v.sets[i]? = none := by
  rw [List.getElem?_eq_none_iff] at e ⊢; have := h.setsLen; omega

theorem objsNone (h : w.Has v) {j : Nat} (e : w.objs[j]? = none) : v.objs[j]? = none := by
  rw [List.getElem?_eq_none_iff] at e ⊢; have := h.objsLen; omega

theorem at_more {m : Mem τ σ} {o : Obj} {s : SS τ σ} (h : At m o s) (ts : List τ) (ls : List σ) : At (more m ts ls) o s where
  set := by simp only [more]; rw [List.getElem?_append_left h.bounds.1]; exact h.set
  list := by simp only [more]; rw [List.getElem?_append_left h.bounds.2]; exact h.list
  setMethods := h.setMethods
  listMethods := h.listMethods

theorem lt_of_some {l : List β} {i : Nat} {x : β} (h : l[i]? = some x) : i < l.length := (List.getElem?_eq_some_iff.1 h).1

/-- Objects that nobody keeps. -/
theorem garbage (h : w.Has v) (ts : List τ) (ls : List σ) : World.Has { w with mem := more w.mem ts ls } v where
  setsLen := h.setsLen
  objsLen := h.objsLen
  sets i a e := by
    obtain ⟨t, e1, e2⟩ := h.sets i a e
    exact ⟨t, e1, by simp only [more]; rw [List.getElem?_append_left (lt_of_some e2)]; exact e2⟩
  objs j o e := by
    obtain ⟨s, e1, e2⟩ := h.objs j o e
    exact ⟨s, e1, at_more e2 ts ls⟩
  setSet := h.setSet
  setObj := h.setObj
  objObj := h.objObj
  listList := h.listList

/-- A sorted set changes. -/
theorem put (h : w.Has v) {j : Nat} {o : Obj} (ho : w.objs[j]? = some o) (s' : SS τ σ) :
    World.Has { w with mem := SetHeap.put w.mem o s' } { v with objs := v.objs.set j s' } where
  setsLen := h.setsLen
  objsLen := by simp [h.objsLen]
  sets i a e := by
    obtain ⟨t, e1, e2⟩ := h.sets i a e
    refine ⟨t, e1, ?_⟩
    simp only [SetHeap.put]
    rw [List.getElem?_set_ne (Ne.symm (h.setObj i j a o e ho))]
    exact e2
  objs j' o' e := by
    obtain ⟨s1, e1, e2⟩ := h.objs j' o' e
    by_cases hj : j = j'
    · subst hj
      have : o = o' := by simpa using ho.symm.trans e
      subst this
      exact ⟨s', by simp [lt_of_some e1], e2.put s'⟩
    · refine ⟨s1, by rw [List.getElem?_set_ne hj]; exact e1, ⟨?_, ?_, e2.setMethods, e2.listMethods⟩⟩
      · simp only [SetHeap.put]
        rw [List.getElem?_set_ne fun hh => hj (h.objObj j j' o o' ho e hh)]
        exact e2.set
      · simp only [SetHeap.put]
        rw [List.getElem?_set_ne fun hh => hj (h.listList j j' o o' ho e hh)]
        exact e2.list
  setSet := h.setSet
  setObj := h.setObj
  objObj := h.objObj
  listList := h.listList

/-- The client changes one of its sets. -/
theorem mutate (h : w.Has v) {i : Nat} {a : Nat} (ha : w.sets[i]? = some a) (t : τ) :
    World.Has { w with mem := { w.mem with sets := w.mem.sets.set a t } } { v with sets := v.sets.set i t } where
  setsLen := by simp [h.setsLen]
  objsLen := h.objsLen
  sets i' a' e := by
    obtain ⟨t', e1, e2⟩ := h.sets i' a' e
    by_cases hi : i = i'
    · subst hi
      have : a = a' := by simpa using ha.symm.trans e
      subst this
      exact ⟨t, by simp [lt_of_some e1], by simp [lt_of_some e2]⟩
    · refine ⟨t', by rw [List.getElem?_set_ne hi]; exact e1, ?_⟩
      show (w.mem.sets.set a t)[a']? = _
      rw [List.getElem?_set_ne fun hh => hi (h.setSet i i' a ha (by rw [hh]; exact e))]
      exact e2
  objs j o e := by
    obtain ⟨s, e1, e2⟩ := h.objs j o e
    refine ⟨s, e1, ⟨?_, e2.list, e2.setMethods, e2.listMethods⟩⟩
    show (w.mem.sets.set a t)[o.set]? = _
    rw [List.getElem?_set_ne (h.setObj i j a o ha e)]
    exact e2.set
  setSet := h.setSet
  setObj := h.setObj
  objObj := h.objObj
  listList := h.listList

theorem append_some {l : List β} {x y : β} {i : Nat} (h : (l ++ [x])[i]? = some y) :
    l[i]? = some y ∨ (i = l.length ∧ y = x) := by
  rcases Nat.lt_or_ge i l.length with hi | hi
  · rw [List.getElem?_append_left hi] at h; exact .inl h
  · rw [List.getElem?_append_right hi] at h
    have : i - l.length = 0 := by have := lt_of_some h; simp at this; omega
    rw [this] at h
    simp at h
    exact .inr ⟨by omega, h.symm⟩

/-- The client makes a set. -/
theorem newSet (h : w.Has v) (t : τ) :
    World.Has { w with mem := { w.mem with sets := w.mem.sets ++ [t] }, sets := w.sets ++ [w.mem.sets.length] }
      { v with sets := v.sets ++ [t] } where
  setsLen := by simp [h.setsLen]
  objsLen := h.objsLen
  sets i a e := by
    rcases append_some e with e | ⟨rfl, rfl⟩
    · obtain ⟨t', e1, e2⟩ := h.sets i a e
      exact ⟨t', by rw [List.getElem?_append_left (lt_of_some e1)]; exact e1,
        by show (w.mem.sets ++ [t])[a]? = _; rw [List.getElem?_append_left (lt_of_some e2)]; exact e2⟩
    · exact ⟨t, by rw [h.setsLen]; simp, by simp⟩
  objs j o e := by
    obtain ⟨s, e1, e2⟩ := h.objs j o e
    have := at_more e2 [t] []
    simp only [more, List.append_nil] at this
    exact ⟨s, e1, this⟩
  setSet i i' a e e' := by
    rcases append_some e with e | ⟨hi, ha⟩ <;> rcases append_some e' with e' | ⟨hi', ha'⟩
    · exact h.setSet i i' a e e'
    · obtain ⟨_, _, e2⟩ := h.sets i a e
      have := lt_of_some e2; omega
    · obtain ⟨_, _, e2⟩ := h.sets i' a e'
      have := lt_of_some e2; omega
    · omega
  setObj i j a o e e' := by
    rcases append_some e with e | ⟨hi, ha⟩
    · exact h.setObj i j a o e e'
    · obtain ⟨_, _, e2⟩ := h.objs j o e'
      have := e2.bounds.1
      subst ha
      intro hh; rw [← hh] at this; omega
  objObj := h.objObj
  listList := h.listList

/-- The client keeps a new sorted set. -/
theorem newObj (h : w.Has v) {ts : List τ} {ls : List σ} {o : Obj} {s : SS τ σ} (ho : At (more w.mem ts ls) o s)
    (h1 : w.mem.sets.length ≤ o.set) (h2 : w.mem.lists.length ≤ o.list) :
    World.Has { w with mem := more w.mem ts ls, objs := w.objs ++ [o] } { v with objs := v.objs ++ [s] } where
  setsLen := h.setsLen
  objsLen := by simp [h.objsLen]
  sets := (h.garbage ts ls).sets
  objs j o' e := by
    rcases append_some e with e | ⟨rfl, rfl⟩
    · obtain ⟨s1, e1, e2⟩ := h.objs j o' e
      exact ⟨s1, by rw [List.getElem?_append_left (lt_of_some e1)]; exact e1, at_more e2 ts ls⟩
    · exact ⟨s, by rw [h.objsLen]; simp, ho⟩
  setSet := h.setSet
  setObj i j a o' e e' := by
    rcases append_some e' with e' | ⟨hj, rfl⟩
    · exact h.setObj i j a o' e e'
    · obtain ⟨_, _, e2⟩ := h.sets i a e
      have := lt_of_some e2
      intro hh; subst hh; omega
  objObj j j' o1 o2 e e' hh := by
    rcases append_some e with f | ⟨hj, ho1⟩ <;> rcases append_some e' with f' | ⟨hj', ho2⟩
    · exact h.objObj j j' o1 o2 f f' hh
    · obtain ⟨_, _, e2⟩ := h.objs j o1 f
      have := e2.bounds.1; subst ho2; omega
    · obtain ⟨_, _, e2⟩ := h.objs j' o2 f'
      have := e2.bounds.1; subst ho1; omega
    · omega
  listList j j' o1 o2 e e' hh := by
    rcases append_some e with f | ⟨hj, ho1⟩ <;> rcases append_some e' with f' | ⟨hj', ho2⟩
    · exact h.listList j j' o1 o2 f f' hh
    · obtain ⟨_, _, e2⟩ := h.objs j o1 f
      have := e2.bounds.2; subst ho2; omega
    · obtain ⟨_, _, e2⟩ := h.objs j' o2 f'
      have := e2.bounds.2; subst ho1; omega
    · omega

variable (S : SetOps τ α) (L : ListAPI σ α)

theorem arg (h : w.Has v) (a : SetArg α) : w.arg S L a = v.arg S L a := by
  cases a with
  | set i =>
    simp only [World.arg, Vals.arg]
    cases e : w.sets[i]? with
    | none => simp [h.setsNone e]
    | some a =>
      obtain ⟨t, e1, e2⟩ := h.sets i a e
      simp [e1, e2]
  | sorted j =>
    simp only [World.arg, Vals.arg]
    cases e : w.objs[j]? with
    | none => simp [h.objsNone e]
    | some o =>
      obtain ⟨s, e1, e2⟩ := h.objs j o e
      simp [e1, e2.list, SS.iter]
  | values xs => rfl

theorem args (h : w.Has v) (as : List (SetArg α)) : w.args S L as = v.args S L as := by
  simp only [World.args, Vals.args]
  congr 1
  funext a
  exact h.arg S L a

theorem contents (h : w.Has v) : w.contents S L = v.contents S L := by
  simp only [World.contents, Vals.contents]
  congr 1
  · refine List.ext_getElem? fun i => ?_
    rw [List.getElem?_map, List.getElem?_map]
    cases e : w.sets[i]? with
    | none => simp [h.setsNone e]
    | some a =>
      obtain ⟨t, e1, e2⟩ := h.sets i a e
      simp [e1, e2]
  · refine List.ext_getElem? fun j => ?_
    rw [List.getElem?_map, List.getElem?_map]
    cases e : w.objs[j]? with
    | none => simp [h.objsNone e]
    | some o =>
      obtain ⟨s, e1, e2⟩ := h.objs j o e
      simp [e1, e2.list, SS.iter]

/-- The same answer, and still the same values. -/
def Same (r : Except PyErr (SetOut α) × World τ σ) (r' : Except PyErr (SetOut α) × Vals τ σ) : Prop :=
  r.1 = r'.1 ∧ r.2.Has r'.2

theorem set_same {l : List β} {j : Nat} {x : β} (h : l[j]? = some x) : l.set j x = l := by
  obtain ⟨hj, rfl⟩ := List.getElem?_eq_some_iff.1 h
  exact List.set_getElem_self hj

theorem change (h : w.Has v) (j : Nat) (as : Option β) {m : β → Run τ σ Unit} {f : β → Py (SS τ σ) Unit}
    (hm : ∀ b o, Lifts o (m b) (f b)) : Same (α := α) (World.change j as m w) (Vals.change j as f v) := by
  unfold World.change Vals.change
  cases e : w.objs[j]? with
  | none => rw [h.objsNone e]; exact ⟨rfl, h⟩
  | some o =>
    obtain ⟨s, e1, e2⟩ := h.objs j o e
    rw [e1]
    cases as with
    | none => exact ⟨rfl, h⟩
    | some b =>
      simp only [World.run, hm b o _ _ e2, set_same e]
      exact ⟨rfl, h.put e _⟩

theorem keep (h : w.Has v) {r : Except PyErr Obj × Ctx τ σ} {g : Except PyErr (SS τ σ)} {o : Obj}
    (hr : ∃ ts ls, r.2 = { mem := more w.mem ts ls, self := o } ∧
      match g with
      | .ok s' => ∃ o', r.1 = .ok o' ∧ At (more w.mem ts ls) o' s' ∧ w.mem.sets.length ≤ o'.set ∧ w.mem.lists.length ≤ o'.list
      | .error e => r.1 = .error e) :
    Same (α := α) (World.keep (r.1, { w with mem := r.2.mem })) (Vals.keep g v) := by
  obtain ⟨r1, r2⟩ := r
  obtain ⟨ts, ls, e1, e2⟩ := hr
  simp only at e1
  subst e1
  cases g with
  | error x =>
    simp only at e2
    subst e2
    exact ⟨rfl, h.garbage ts ls⟩
  | ok s' =>
    obtain ⟨o', e, ha, h1, h2⟩ := e2
    simp only at e
    subst e
    exact ⟨by simp [World.keep, Vals.keep, h.objsLen], h.newObj ha h1 h2⟩

theorem derive (h : w.Has v) (j : Nat) (as : Option β) {m : β → Run τ σ Obj} {g : β → SS τ σ → Except PyErr (SS τ σ)}
    (hm : ∀ b o, Makes o (m b) (g b)) : Same (α := α) (World.derive j as m w) (Vals.derive j as g v) := by
  unfold World.derive Vals.derive
  cases e : w.objs[j]? with
  | none => rw [h.objsNone e]; exact ⟨rfl, h⟩
  | some o =>
    obtain ⟨s, e1, e2⟩ := h.objs j o e
    rw [e1]
    cases as with
    | none => exact ⟨rfl, h⟩
    | some b =>
      obtain ⟨ts, ls, e3, e4⟩ := hm b o _ _ e2
      have := h.keep (α := α) (r := m b { mem := w.mem, self := o }) ⟨ts, ls, e3, e4⟩
      simp only [World.run]
      rw [e3] at this ⊢
      simp only [set_same e]
      exact this

theorem compare {m : Mem τ σ} {o : Obj} {s : SS τ σ} (hs : At m o s) (op : CmpOp)
    {b : Nat} {t : τ} (hb : m.sets[b]? = some t) :
    SetHeap.compare S op b { mem := m, self := o } = (.ok (SS.compare S op t s), { mem := m, self := o }) := by
  show Py.bind _ _ _ = _
  simp only [self, Py.bind]
  show Py.bind _ _ _ = _
  simp only [Py.bind, theSet, hs.set]
  show Py.bind _ _ _ = _
  simp only [Py.bind, theSet, hb]
  rfl

/-- One event. -/
theorem sim (h : w.Has v) (ev : SetEvent α) (hev : ¬ ev.isReduce) : Same (World.step S L ev w) (Vals.step S L ev v) := by
  cases ev with
  | newSet xs => exact ⟨by simp [World.step, Vals.step, h.setsLen], h.newSet _⟩
  | mutate i xs =>
    simp only [World.step, Vals.step]
    cases e : w.sets[i]? with
    | none => rw [h.setsNone e]; exact ⟨rfl, h⟩
    | some a =>
      obtain ⟨t, e1, e2⟩ := h.sets i a e
      rw [e1]
      exact ⟨rfl, h.mutate e _⟩
  | construct a =>
    simp only [World.step, Vals.step]
    rw [h.arg S L a]
    cases v.arg S L a with
    | none => exact ⟨rfl, h⟩
    | some xs => exact h.keep (init_makes S L w.mem _ (some xs))
  | call j op =>
    simp only [World.step, Vals.step]
    cases e : w.objs[j]? with
    | none => rw [h.objsNone e]; exact ⟨rfl, h⟩
    | some o =>
      obtain ⟨s, e1, e2⟩ := h.objs j o e
      rw [e1]
      obtain ⟨ts, ls, hc⟩ := call_calls (o := o) S L op _ _ e2
      simp only [World.run, hc, set_same e]
      exact ⟨rfl, (h.put e _).garbage ts ls⟩
  | compare j op a =>
    simp only [World.step, Vals.step]
    cases e : w.objs[j]? with
    | none => rw [h.objsNone e]; exact ⟨rfl, h⟩
    | some o =>
      obtain ⟨s, e1, e2⟩ := h.objs j o e
      rw [e1]
      cases a with
      | set i =>
        simp only [World.operand, Vals.operand]
        cases e' : w.sets[i]? with
        | none => rw [h.setsNone e']; exact ⟨rfl, h⟩
        | some a =>
          obtain ⟨t, e3, e4⟩ := h.sets i a e'
          rw [e3]
          simp only [Option.bind_eq_bind, Option.bind_some, Option.pure_def, World.run, compare S e2 op e4, set_same e]
          exact ⟨rfl, h⟩
      | sorted j' =>
        simp only [World.operand, Vals.operand]
        cases e' : w.objs[j']? with
        | none => rw [h.objsNone e']; exact ⟨rfl, h⟩
        | some o' =>
          obtain ⟨s', e3, e4⟩ := h.objs j' o' e'
          rw [e3]
          simp only [Option.bind_eq_bind, Option.bind_some, Option.pure_def, World.run, compare S e2 op e4.set, set_same e,
            Option.map_some]
          exact ⟨rfl, h⟩
      | values xs =>
        simp only [World.operand, Vals.operand]
        have h' := h.garbage [S.ofList xs] []
        simp only [more, List.append_nil] at h'
        have e2' := at_more e2 [S.ofList xs] []
        simp only [more, List.append_nil] at e2'
        have := compare S e2' op (b := w.mem.sets.length) (t := S.ofList xs) (by simp)
        simp only [World.run, this, set_same e]
        exact ⟨rfl, h'⟩
  | update j as =>
    simp only [World.step, Vals.step]
    rw [h.args S L]
    exact h.change j _ fun b o => Lifts.update S L b
  | differenceUpdate j as =>
    simp only [World.step, Vals.step]
    rw [h.args S L]
    exact h.change j _ fun b o => Lifts.differenceUpdate S L b
  | intersectionUpdate j as =>
    simp only [World.step, Vals.step]
    rw [h.args S L]
    exact h.change j _ fun b o => Lifts.intersectionUpdate S L b
  | symmetricDifferenceUpdate j a =>
    simp only [World.step, Vals.step]
    rw [h.arg S L]
    exact h.change j _ fun b o => Lifts.symmetricDifferenceUpdate S L b
  | copy j => exact h.derive j _ fun _ o => copy_makes S L
  | pickle j => exact h.derive j _ fun _ o => pickle_makes S L
  | union j as =>
    simp only [World.step, Vals.step]
    rw [h.args S L]
    exact h.derive j _ fun b o => union_makes S L b
  | intersection j as =>
    simp only [World.step, Vals.step]
    rw [h.args S L]
    exact h.derive j _ fun b o => intersection_makes S L b
  | difference j as =>
    simp only [World.step, Vals.step]
    rw [h.args S L]
    exact h.derive j _ fun b o => difference_makes S L b
  | symmetricDifference j a =>
    simp only [World.step, Vals.step]
    rw [h.arg S L]
    exact h.derive j _ fun b o => symmetricDifference_makes S L b
  | reduceArgs j => exact absurd trivial hev

/-- A sequence of events. -/
theorem hist (h : w.Has v) (evs : List (SetEvent α)) (hev : ∀ ev ∈ evs, ¬ ev.isReduce) :
    (runHist (World.step S L) evs w).1 = (runHist (Vals.step S L) evs v).1 ∧
    (runHist (World.step S L) evs w).2.Has (runHist (Vals.step S L) evs v).2 := by
  induction evs generalizing w v with
  | nil => exact ⟨rfl, h⟩
  | cons ev evs ih =>
    have h1 := h.sim S L ev (hev ev (by simp))
    have h2 := ih h1.2 fun e he => hev e (by simp [he])
    simp only [runHist]
    exact ⟨by rw [h1.1, h2.1], h2.2⟩

end World.Has
end SetHeap
end Verif
