import Verif.Proofs.DictHeap
/-!
# What calls on dicts leave alone, whatever comparisons do
-/

namespace Verif
namespace DictHeap
variable {κ ν σ β γ : Type} {m m' m1 m2 : Mem κ ν σ} {A B A' B' : Nat → Prop} {a l : Nat} {s s' : SD κ ν σ}

/-- Nothing. -/
abbrev Nil : Nat → Prop := fun _ => False

/-- `r` changes nothing at all. -/
def Still (r : Run κ ν σ β) : Prop := ∀ m, (r m).2 = m

namespace Still

theorem pure (b : β) : Still (Pure.pure b : Run κ ν σ β) := fun _ => rfl

theorem bind {r : Run κ ν σ β} {r' : β → Run κ ν σ γ} (h : Still r) (h' : ∀ b, Still (r' b)) : Still (r >>= r') := by
  intro m
  have h1 := h m
  rcases e : r m with ⟨x | b, m1⟩
  · rw [Py.bind_error e]; rw [e] at h1; exact h1
  · rw [Py.bind_ok e]; rw [e] at h1; subst h1; exact h' b _

theorem items (b : Nat) : Still (DictHeap.items b : Run κ ν σ _) := by
  intro m; unfold DictHeap.items; split <;> rfl

theorem getitem (eqv : κ → κ → Bool) (b : Nat) (k : κ) : Still (DictHeap.getitem eqv b k : Run κ ν σ ν) :=
  bind (items b) fun _ _ => rfl

theorem iter (L : ListAPI σ κ) (b : Nat) : Still (DictHeap.iter L b : Run κ ν σ _) := by
  intro m
  unfold DictHeap.iter
  split
  · rfl
  · unfold bound
    refine bind (r := attrs b) ?_ ?_ m
    · intro m; unfold attrs; split <;> rfl
    · intro x m
      unfold onList
      split
      · rename_i s e; simp only [readList, set_self e]
      · rfl
  · rfl

theorem mapEach {r : γ → Run κ ν σ β} (h : ∀ x, Still (r x)) (xs : List γ) : Still (Py.mapEach r xs) := by
  induction xs with
  | nil => exact pure _
  | cons x xs ih => exact bind (h x) fun _ => bind ih fun _ => pure _

theorem itemsOf (eqv : κ → κ → Bool) (L : ListAPI σ κ) (b : Nat) : Still (DictHeap.itemsOf eqv L b : Run κ ν σ _) :=
  bind (iter L b) fun _ => mapEach (fun k => bind (getitem eqv b k) fun _ => pure _) _

end Still

/-- `r` changes dicts in `A` and sorted lists in `B`, and no others. -/
def Inside (A B : Nat → Prop) (r : Run κ ν σ β) : Prop := ∀ m, Stays A B m (r m).2

namespace Inside

theorem still {r : Run κ ν σ β} (h : Still r) : Inside A B r := fun m => by rw [h m]; exact .refl _ _ m

theorem bind {r : Run κ ν σ β} {r' : β → Run κ ν σ γ} (h : Inside A B r) (h' : ∀ b, Inside A B (r' b)) : Inside A B (r >>= r') := by
  intro m
  have h1 := h m
  rcases e : r m with ⟨x | b, m1⟩
  · rw [Py.bind_error e]; rw [e] at h1; exact h1
  · rw [Py.bind_ok e]; rw [e] at h1; exact h1.trans (h' b m1)

theorem forEach {r : γ → Run κ ν σ Unit} (h : ∀ x, Inside A B (r x)) (xs : List γ) : Inside A B (Py.forEach r xs) := by
  induction xs with
  | nil => exact still fun _ => rfl
  | cons x xs ih => exact bind (h x) fun _ => ih

theorem onDict (a : Nat) (f : List (κ × ν) → List (κ × ν)) (hA : A a) : Inside A B (DictHeap.onDict a f : Run κ ν σ Unit) := by
  intro m
  unfold DictHeap.onDict
  split
  · rename_i o e; exact .setDict e _ hA
  · exact .refl _ _ m

theorem newDict (o : Obj κ ν) : Inside A B (DictHeap.newDict o : Run κ ν σ Nat) := fun _ => .newDict o

variable (eqv : κ → κ → Bool) (L : ListAPI σ κ)

theorem merge (a b : Nat) (hA : A a) : Inside A B (DictHeap.merge eqv L a b : Run κ ν σ Unit) :=
  bind (still (.iter L b)) fun _ => forEach (fun k => bind (still (.getitem eqv b k)) fun _ => onDict a _ hA) _

theorem dictUpdate (a : Nat) (arg : Arg κ ν) (hA : A a) : Inside A B (DictHeap.dictUpdate eqv L a arg : Run κ ν σ Unit) := by
  cases arg with
  | obj b => exact merge eqv L a b hA
  | itemsOf bs => exact forEach (fun b => merge eqv L a b hA) bs
  | pairs items fail =>
    refine bind (onDict a _ hA) fun _ => ?_
    cases fail with
    | none => exact still fun _ => rfl
    | some e => exact still fun _ => rfl

theorem pairsOf (arg : Arg κ ν) : Inside A B (DictHeap.pairsOf eqv L arg : Run κ ν σ Nat) := by
  have h : ∀ arg : Arg κ ν, Inside A B (do
      let b ← DictHeap.newDict { items := [], attrs := none }
      DictHeap.dictUpdate eqv L b arg
      pure b : Run κ ν σ Nat) := by
    intro arg m
    have e : (DictHeap.newDict { items := [], attrs := none } : Run κ ν σ Nat) m =
      (.ok m.dicts.length, { m with dicts := m.dicts ++ [{ items := [], attrs := none }] }) := rfl
    rw [Py.bind_ok e]
    have h2 : Inside (· = m.dicts.length) B (do
      DictHeap.dictUpdate eqv L m.dicts.length arg
      pure m.dicts.length : Run κ ν σ Nat) := bind (dictUpdate eqv L _ arg rfl) fun _ => still fun _ => rfl
    refine Stays.trans_of (.newDict _) (h2 _) (fun b hb hb' => ?_) fun _ _ h => h
    omega
  cases arg with
  | obj b => exact still fun _ => rfl
  | itemsOf bs => exact h _
  | pairs items fail => exact h _

end Inside

/-- A call on the sorted dict at `a` changes its dict, its list, and nothing else. -/
def Only (a l : Nat) (r : Run κ ν σ β) : Prop := ∀ m s, At m a l s → Own a l m (r m).2

namespace Only

theorem lifts {r : Run κ ν σ β} {f : Py (SD κ ν σ) β} (h : Lifts a l r f) : Only a l r := by
  intro m s hs
  obtain ⟨m', e, _, h'⟩ := h m s hs
  rw [e]; exact h'

theorem inside {r : Run κ ν σ β} (h : Inside (· = a) Nil r) : Only a l r := fun m _ _ => (h m).mono (fun _ h => h) fun _ h => h.elim

theorem bind {r : Run κ ν σ β} {r' : β → Run κ ν σ γ} (h : Only a l r) (h' : ∀ b, Only a l (r' b)) : Only a l (r >>= r') := by
  intro m s hs
  have h1 := h m s hs
  rcases e : r m with ⟨x | b, m1⟩
  · rw [Py.bind_error e]; rw [e] at h1; exact h1
  · rw [Py.bind_ok e]; rw [e] at h1
    obtain ⟨s1, hs1⟩ := hs.stays h1
    exact h1.trans (h' b m1 s1 hs1)

theorem pure (b : β) : Only a l (Pure.pure b : Run κ ν σ β) := inside (.still (.pure b))

theorem forEach {r : γ → Run κ ν σ Unit} (h : ∀ x, Only a l (r x)) (xs : List γ) : Only a l (Py.forEach r xs) := by
  induction xs with
  | nil => exact pure ()
  | cons x xs ih => exact bind (h x) fun _ => ih

variable (eqv : κ → κ → Bool) (L : ListAPI σ κ)

theorem update (arg : Arg κ ν) : Only a l (DictHeap.update eqv L a arg) := by
  have it : ∀ b, Only (κ := κ) (ν := ν) (σ := σ) a l (items b) := fun b => inside (.still (.items b))
  refine bind (it a) fun d => ?_
  split
  · exact bind (inside (.dictUpdate eqv L a arg rfl)) fun _ => bind (it a) fun _ => lifts (.bound _)
  · refine bind (inside (.pairsOf eqv L arg)) fun b => bind (it b) fun _ => bind (it a) fun _ => ?_
    split
    · exact bind (inside (.dictUpdate eqv L a _ rfl)) fun _ => bind (lifts (.bound _)) fun _ => bind (it a) fun _ =>
        lifts (.bound _)
    · exact bind (inside (.still (.iter L b))) fun _ => forEach
        (fun k => bind (inside (.still (.getitem eqv b k))) fun v => lifts (.setitem eqv L k v)) _

end Only

/-- `r` makes a sorted dict with a new dict and a new list. -/
def Makes (r : Run κ ν σ Nat) : Prop := ∀ m, Stays Nil Nil m (r m).2 ∧
  ∀ a, (r m).1 = .ok a → m.dicts.length ≤ a ∧ ∃ l s, m.lists.length ≤ l ∧ At (r m).2 a l s

/-- A new sorted dict without items. -/
def fresh (m : Mem κ ν σ) (s0 : σ) : Mem κ ν σ :=
  { dicts := m.dicts ++ [{ items := [], attrs := some { list := m.lists.length, methods := m.lists.length } }], lists := m.lists ++ [s0] }

theorem fresh_at (m : Mem κ ν σ) (s0 : σ) : At (fresh m s0) m.dicts.length m.lists.length { dict := [], list := s0 } :=
  ⟨by simp [fresh], by simp [fresh]⟩

theorem fresh_stays (m : Mem κ ν σ) (s0 : σ) : Stays A B m (fresh m s0) :=
  Stays.trans (m1 := { m with lists := m.lists ++ [s0] }) (.newList s0) (.newDict _)

section
variable (eqv : κ → κ → Bool) (L : ListAPI σ κ)

/-- The constructor, after the empty list has been made. -/
theorem init_run (arg : Arg κ ν) {s0 : σ} (e : L.new none = .ok s0) (m : Mem κ ν σ) : init eqv L arg m =
    (do update eqv L m.dicts.length arg; pure m.dicts.length : Run κ ν σ Nat) (fresh m s0) := by
  unfold init
  rw [e]
  rfl

theorem init_makes (arg : Arg κ ν) : Makes (init eqv L arg : Run κ ν σ Nat) := by
  intro m
  cases e : L.new none with
  | error x =>
    have : init eqv L arg m = (.error x, m) := by unfold init; rw [e]; rfl
    rw [this]
    exact ⟨.refl _ _ m, fun a h => by cases h⟩
  | ok s0 =>
    rw [init_run eqv L arg e]
    have h0 := fresh_at m s0
    have h1 : Only m.dicts.length m.lists.length (do update eqv L m.dicts.length arg; pure m.dicts.length : Run κ ν σ Nat) :=
      Only.bind (.update eqv L arg) fun _ => .pure _
    have h2 := h1 _ _ h0
    refine ⟨(fresh_stays m s0).trans_of h2 (fun b hb hb' => ?_) (fun b hb hb' => ?_), fun a ha => ?_⟩
    · omega
    · omega
    · have : a = m.dicts.length := by
        generalize fresh m s0 = mm at ha
        rcases e' : update eqv L m.dicts.length arg mm with ⟨x | b, m1⟩
        · rw [Py.bind_error e'] at ha; cases ha
        · rw [Py.bind_ok e'] at ha; exact (Except.ok.inj ha).symm
      subst this
      obtain ⟨s1, hs1⟩ := h0.stays h2
      exact ⟨Nat.le_refl _, _, s1, Nat.le_refl _, hs1⟩

theorem pickle_makes (self : Nat) : Makes (pickle eqv L self : Run κ ν σ Nat) := by
  intro m
  have hr : Inside (κ := κ) (ν := ν) (σ := σ) Nil Nil (do
      let a ← reduceArgs self
      newDict { items := ← items a, attrs := none }) :=
    .bind (.bind (.still (.items self)) fun _ => .newDict _) fun a => .bind (.still (.items a)) fun _ => .newDict _
  have h1 := hr m
  have e : (pickle eqv L self : Run κ ν σ Nat) = (do
      let b ← (do
        let a ← reduceArgs self
        newDict { items := ← items a, attrs := none })
      init eqv L (.obj b)) := by
    simp only [pickle, Py.bind_assoc']
  rw [e]
  rcases e' : (do
      let a ← reduceArgs self
      newDict { items := ← items a, attrs := none } : Run κ ν σ Nat) m with ⟨x | b, m1⟩
  · rw [Py.bind_error e']
    rw [e'] at h1
    exact ⟨h1, fun a h => by cases h⟩
  · rw [Py.bind_ok e']
    rw [e'] at h1
    obtain ⟨h2, h3⟩ := init_makes eqv L (.obj b) m1
    refine ⟨h1.trans h2, fun a ha => ?_⟩
    obtain ⟨h4, l, s, h5, h6⟩ := h3 a ha
    exact ⟨Nat.le_trans h1.dictsLen h4, l, s, Nat.le_trans h1.listsLen h5, h6⟩

namespace Only

theorem makes {r : Run κ ν σ Nat} (h : Makes r) : Only a l r := fun m _ _ => (h m).1.mono (fun _ h => h.elim) fun _ h => h.elim

/-- One call. -/
theorem call (op : SDOp κ ν) : Only a l (DictHeap.call eqv L a op) := by
  have drop : ∀ {r : Run κ ν σ Nat}, Makes r → Only a l (SD.out .items (do itemsOf eqv L (← r))) := fun h =>
    bind (bind (makes h) fun b => inside (.still (.itemsOf eqv L b))) fun _ => pure _
  have lit : ∀ ps, Only (κ := κ) (ν := ν) (σ := σ) a l (literal eqv ps) := fun ps => inside (.newDict _)
  cases op with
  | update arg =>
    refine bind (bind ?_ fun arg => update eqv L arg) fun _ => pure _
    cases arg with
    | dict ps => exact bind (lit ps) fun _ => pure _
    | pairs ps fail => exact pure _
  | copy => exact drop (init_makes eqv L _)
  | or other =>
    exact bind (bind (lit other) fun _ => bind (makes (init_makes eqv L _)) fun b => inside (.still (.itemsOf eqv L b))) fun _ => pure _
  | ror other =>
    exact bind (bind (lit other) fun _ => bind (makes (init_makes eqv L _)) fun b => inside (.still (.itemsOf eqv L b))) fun _ => pure _
  | _ => exact lifts (Lifts.call eqv L _ trivial)

end Only

/-- `r` makes a plain dict. -/
def MakesDict (r : Run κ ν σ Nat) : Prop := ∀ m, Stays Nil Nil m (r m).2 ∧
  ∀ a, (r m).1 = .ok a → m.dicts.length ≤ a ∧ ∃ d, (r m).2.dicts[a]? = some { items := d, attrs := none }

theorem newDict_makes (d : List (κ × ν)) : MakesDict (newDict { items := d, attrs := none } : Run κ ν σ Nat) := by
  intro m
  refine ⟨.newDict _, fun a ha => ?_⟩
  cases ha
  exact ⟨Nat.le_refl _, d, by simp [newDict]⟩

theorem reduceArgs_makes (self : Nat) : MakesDict (reduceArgs self : Run κ ν σ Nat) := by
  intro m
  unfold reduceArgs
  have hs := Still.items (κ := κ) (ν := ν) (σ := σ) self m
  rcases e : (items self : Run κ ν σ _) m with ⟨x | d, m1⟩
  · rw [Py.bind_error e]; rw [e] at hs; simp only at hs; subst hs
    exact ⟨.refl _ _ _, fun a h => by cases h⟩
  · rw [Py.bind_ok e]; rw [e] at hs; simp only at hs; subst hs
    exact newDict_makes d _

end

/-! ### The world -/

/-- Every dict of the client is a plain dict object; every sorted dict is one with a list of its own; views are views of sorted
dicts that the client has; nothing is shared. -/
structure World.Wf (w : World κ ν σ) : Prop where
  dicts : ∀ i a : Nat, w.dicts[i]? = some a → ∃ d, w.mem.dicts[a]? = some { items := d, attrs := none }
  objs : ∀ j a : Nat, w.objs[j]? = some a → ∃ l s, At w.mem a l s
  dictDict : ∀ i i' a : Nat, w.dicts[i]? = some a → w.dicts[i']? = some a → i = i'
  objObj : ∀ j j' a : Nat, w.objs[j]? = some a → w.objs[j']? = some a → j = j'
  listList : ∀ (j j' a a' l : Nat) (s s' : SD κ ν σ), w.objs[j]? = some a → w.objs[j']? = some a' → At w.mem a l s →
    At w.mem a' l s' → j = j'
  views : ∀ (n : Nat) (kind : ViewKind) (a : Nat), w.views[n]? = some (kind, a) → ∃ j : Nat, w.objs[j]? = some a
  ilocs : ∀ a n : Nat, w.ilocs.lookup a = some n → w.views[n]? = some (.keys, a)

theorem append_some {l : List β} {x y : β} {i : Nat} (h : (l ++ [x])[i]? = some y) : l[i]? = some y ∨ (i = l.length ∧ y = x) := by
  rcases Nat.lt_or_ge i l.length with hi | hi
  · rw [List.getElem?_append_left hi] at h; exact .inl h
  · rw [List.getElem?_append_right hi] at h
    have : i - l.length = 0 := by have := lt_of_some h; simp at this; omega
    rw [this] at h
    simp at h
    exact .inr ⟨by omega, h.symm⟩

theorem append_old {l l' : List β} {j : Nat} {x : β} (h : l[j]? = some x) : (l ++ l')[j]? = some x := by
  rw [List.getElem?_append_left (lt_of_some h)]; exact h

theorem At.list_unique {l' : Nat} (h : At m a l s) (h' : At m a l' s') : l = l' ∧ s = s' := by
  have e := h.dict.symm.trans h'.dict
  simp only [Option.some.injEq, Obj.mk.injEq, Attrs.mk.injEq, and_self] at e
  obtain ⟨e1, e2⟩ := e
  subst e2
  have e3 := h.list.symm.trans h'.list
  simp only [Option.some.injEq] at e3
  refine ⟨rfl, ?_⟩
  cases s; cases s'
  simp only at e1 e3
  rw [e1, e3]

namespace World.Wf
variable {w : World κ ν σ}

theorem empty : World.Wf (World.empty : World κ ν σ) where
  dicts := by intro i a h; simp [World.empty] at h
  objs := by intro i a h; simp [World.empty] at h
  dictDict := by intro i i' a h; simp [World.empty] at h
  objObj := by intro i j a h; simp [World.empty] at h
  listList := by intro i j a a' l s s' h; simp [World.empty] at h
  views := by intro n kind a h; simp [World.empty] at h
  ilocs := by intro a n h; simp [World.empty] at h

/-- A dict is not a sorted dict. -/
theorem dictObj (h : w.Wf) {i j a a' : Nat} (hi : w.dicts[i]? = some a) (hj : w.objs[j]? = some a') : a ≠ a' := by
  intro e
  subst e
  obtain ⟨d, e1⟩ := h.dicts i a hi
  obtain ⟨l, s, e2⟩ := h.objs j a hj
  have := e1.symm.trans e2.dict
  simp at this

theorem stays (h : w.Wf) (hs : Stays A B w.mem m') : World.Wf { w with mem := m' } where
  dicts i a hi := by
    obtain ⟨d, e⟩ := h.dicts i a hi
    obtain ⟨d', e'⟩ := hs.attrs a _ e
    exact ⟨d', e'⟩
  objs j a hj := by
    obtain ⟨l, s, e⟩ := h.objs j a hj
    obtain ⟨s', e'⟩ := e.stays hs
    exact ⟨l, s', e'⟩
  dictDict := h.dictDict
  objObj := h.objObj
  listList j j' a a' l s s' hj hj' ha ha' := by
    obtain ⟨l1, s1, e1⟩ := h.objs j a hj
    obtain ⟨l2, s2, e2⟩ := h.objs j' a' hj'
    obtain ⟨_, f1⟩ := e1.stays hs
    obtain ⟨_, f2⟩ := e2.stays hs
    have g1 := (f1.list_unique ha).1
    have g2 := (f2.list_unique ha').1
    subst g1 g2
    exact h.listList j j' a a' _ s1 s2 hj hj' e1 e2
  views := h.views
  ilocs := h.ilocs

theorem addObj (h : w.Wf) (hs : Stays A B w.mem m') {a l : Nat} {s : SD κ ν σ} (h1 : w.mem.dicts.length ≤ a)
    (h2 : w.mem.lists.length ≤ l) (ha : At m' a l s) : World.Wf { w with mem := m', objs := w.objs ++ [a] } := by
  have hw := h.stays hs
  have old : ∀ j b : Nat, w.objs[j]? = some b → b ≠ a ∧ ∀ l' s', At m' b l' s' → l' ≠ l := by
    intro j b hb
    obtain ⟨l1, s1, e1⟩ := h.objs j b hb
    obtain ⟨_, f1⟩ := e1.stays hs
    refine ⟨fun hh => ?_, fun l' s' hb' hh => ?_⟩
    · have := lt_of_some e1.dict; omega
    · have := lt_of_some e1.list
      have := (f1.list_unique hb').1
      omega
  exact {
    dicts := hw.dicts
    objs := fun j b hb => by
      rcases append_some hb with hb | ⟨_, rfl⟩
      · exact hw.objs j b hb
      · exact ⟨l, s, ha⟩
    dictDict := h.dictDict
    objObj := fun j j' b hb hb' => by
      rcases append_some hb with hb | ⟨e1, e2⟩ <;> rcases append_some hb' with hb' | ⟨e3, e4⟩
      · exact h.objObj j j' b hb hb'
      · exact absurd e4 (old j b hb).1
      · exact absurd e2 (old j' b hb').1
      · omega
    listList := fun j j' b b' k t t' hb hb' hk hk' => by
      rcases append_some hb with f | ⟨e1, e2⟩ <;> rcases append_some hb' with f' | ⟨e3, e4⟩
      · exact hw.listList j j' b b' k t t' f f' hk hk'
      · subst e4; exact absurd (hk'.list_unique ha).1 ((old j b f).2 k t hk)
      · subst e2; exact absurd (hk.list_unique ha).1 ((old j' b' f').2 k t' hk')
      · omega
    views := fun n kind b hb => by
      obtain ⟨j, hj⟩ := h.views n kind b hb
      exact ⟨j, append_old hj⟩
    ilocs := h.ilocs }

theorem addDict (h : w.Wf) (hs : Stays A B w.mem m') {a : Nat} {d : List (κ × ν)} (h1 : w.mem.dicts.length ≤ a)
    (ha : m'.dicts[a]? = some { items := d, attrs := none }) : World.Wf { w with mem := m', dicts := w.dicts ++ [a] } := by
  have hw := h.stays hs
  have old : ∀ i b : Nat, w.dicts[i]? = some b → b ≠ a := by
    intro i b hb hh
    obtain ⟨d1, e1⟩ := h.dicts i b hb
    have := lt_of_some e1; omega
  exact {
    dicts := fun i b hb => by
      rcases append_some hb with hb | ⟨_, rfl⟩
      · exact hw.dicts i b hb
      · exact ⟨d, ha⟩
    objs := hw.objs
    dictDict := fun i i' b hb hb' => by
      rcases append_some hb with hb | ⟨e1, e2⟩ <;> rcases append_some hb' with hb' | ⟨e3, e4⟩
      · exact h.dictDict i i' b hb hb'
      · exact absurd e4 (old i b hb)
      · exact absurd e2 (old i' b hb')
      · omega
    objObj := h.objObj
    listList := hw.listList
    views := h.views
    ilocs := h.ilocs }

theorem addView (h : w.Wf) {j a : Nat} (hj : w.objs[j]? = some a) (kind : ViewKind) :
    World.Wf { w with views := w.views ++ [(kind, a)] } := { h with
  views := fun n kind' b hb => by
    rcases append_some hb with hb | ⟨_, e⟩
    · exact h.views n kind' b hb
    · cases e; exact ⟨j, hj⟩
  ilocs := fun b n hb => append_old (h.ilocs b n hb) }

theorem addIloc (h : w.Wf) {j a : Nat} (hj : w.objs[j]? = some a) :
    World.Wf { w with views := w.views ++ [(.keys, a)], ilocs := (a, w.views.length) :: w.ilocs } := { h.addView hj .keys with
  ilocs := fun b n hb => by
    simp only [List.lookup_cons] at hb
    split at hb
    · rename_i hba
      have : b = a := by simpa using hba
      simp only [Option.some.injEq] at hb
      subst hb this
      simp
    · exact append_old (h.ilocs b n hb) }

variable (eqv : κ → κ → Bool) (L : ListAPI σ κ)

theorem make (h : w.Wf) {r : Run κ ν σ Nat} (hr : Makes r) : (World.make r w).2.Wf := by
  obtain ⟨h1, h2⟩ := hr w.mem
  unfold World.make
  rcases e : r w.mem with ⟨x | a, m1⟩
  · rw [e] at h1; exact h.stays h1
  · rw [e] at h1 h2
    obtain ⟨h3, l, s, h4, h5⟩ := h2 a rfl
    exact h.addObj h1 h3 h4 h5

theorem makeDict (h : w.Wf) {r : Run κ ν σ Nat} (hr : MakesDict r) : (World.makeDict r w).2.Wf := by
  obtain ⟨h1, h2⟩ := hr w.mem
  unfold World.makeDict
  rcases e : r w.mem with ⟨x | a, m1⟩
  · rw [e] at h1; exact h.stays h1
  · rw [e] at h1 h2
    obtain ⟨h3, d, h4⟩ := h2 a rfl
    exact h.addDict h1 h3 h4

/-- No event makes sorted dicts share anything. -/
theorem step (h : w.Wf) (ev : DictEvent κ ν) : (World.step eqv L ev w).2.Wf := by
  cases ev with
  | newDict ps => exact h.makeDict (newDict_makes _)
  | mutate i ps =>
    simp only [World.step]
    split
    · exact h.stays (A := fun _ => True) (B := Nil) (Inside.onDict _ _ trivial _)
    · exact h
  | construct a =>
    simp only [World.step]
    split
    · exact h.make (init_makes eqv L _)
    · exact h
  | call j op =>
    simp only [World.step]
    split
    · rename_i a e
      obtain ⟨l, s, hs⟩ := h.objs j a e
      exact h.stays (Only.call eqv L op _ _ hs)
    · exact h
  | update j arg =>
    simp only [World.step]
    split
    · rename_i a arg' e _
      obtain ⟨l, s, hs⟩ := h.objs j a e
      exact h.stays (Only.update eqv L arg' _ _ hs)
    · exact h
  | or j arg =>
    simp only [World.step]
    split
    · exact h.make (init_makes eqv L _)
    · exact h
  | ror j arg =>
    simp only [World.step]
    split
    · exact h.make (init_makes eqv L _)
    · exact h
  | copy j =>
    simp only [World.step]
    split
    · exact h.make (init_makes eqv L _)
    · exact h
  | pickle j =>
    simp only [World.step]
    split
    · exact h.make (pickle_makes eqv L _)
    · exact h
  | reduceArgs j =>
    simp only [World.step]
    split
    · exact h.makeDict (reduceArgs_makes _)
    · exact h
  | view j kind =>
    simp only [World.step]
    split
    · rename_i a e; exact h.addView e kind
    · exact h
  | iloc j =>
    simp only [World.step]
    split
    · rename_i a e
      unfold World.iloc
      split
      · exact h
      · exact h.addIloc e
    · exact h
  | viewCall n op =>
    simp only [World.step]
    split
    · rename_i kind a e
      obtain ⟨j, hj⟩ := h.views n kind a e
      obtain ⟨l, s, hs⟩ := h.objs j a hj
      exact h.stays (Only.lifts (Lifts.viewCall eqv L kind op) _ _ hs)
    · exact h

theorem hist (h : w.Wf) (evs : List (DictEvent κ ν)) : (runHist (World.step eqv L) evs w).2.Wf := by
  induction evs generalizing w with
  | nil => exact h
  | cons ev evs ih => exact ih (h.step eqv L ev)

/-! What an event leaves alone -/

/-- From `w` to `w'` the dicts for which `P` fails and the sorted dicts for which `Q` fails look the same. -/
structure Frame (w w' : World κ ν σ) (P Q : Nat → Prop) : Prop where
  dicts : ∀ (i : Nat) (d : List (κ × ν)), ¬ P i → w.seenDicts[i]? = some d → w'.seenDicts[i]? = some d
  sorted : ∀ (j : Nat) (x : Seen κ ν), ¬ Q j → (w.seenSorted L)[j]? = some x → (w'.seenSorted L)[j]? = some x

variable {w' : World κ ν σ} {P Q : Nat → Prop}

theorem frame (h : w.Wf) (hs : Stays A B w.mem w'.mem) (hd : ∀ i a : Nat, w.dicts[i]? = some a → w'.dicts[i]? = some a)
    (ho : ∀ j a : Nat, w.objs[j]? = some a → w'.objs[j]? = some a) (hA : ∀ i a : Nat, ¬ P i → w.dicts[i]? = some a → ¬ A a)
    (hA' : ∀ j a : Nat, ¬ Q j → w.objs[j]? = some a → ¬ A a)
    (hB : ∀ (j a l : Nat) (s : SD κ ν σ), ¬ Q j → w.objs[j]? = some a → At w.mem a l s → ¬ B l) : Frame L w w' P Q where
  dicts i d hP e := by
    simp only [seenDicts, List.getElem?_map, Option.map_eq_some_iff] at e ⊢
    obtain ⟨a, e1, rfl⟩ := e
    refine ⟨a, hd i a e1, ?_⟩
    obtain ⟨d, e⟩ := h.dicts i a e1
    simp only [items, hs.dicts a _ (hA i a hP e1) e, e]
  sorted j x hQ e := by
    simp only [seenSorted, List.getElem?_map, Option.map_eq_some_iff] at e ⊢
    obtain ⟨a, e1, rfl⟩ := e
    refine ⟨a, ho j a e1, ?_⟩
    obtain ⟨l, s, e⟩ := h.objs j a e1
    have e' := e.same hs (hA' j a hQ e1) (hB j a l s hQ e1 e)
    rw [items_run e', items_run e, iter_run L e', iter_run L e]

theorem Frame.refl : Frame L w w P Q := ⟨fun _ _ _ e => e, fun _ _ _ e => e⟩

theorem make_frame (h : w.Wf) {r : Run κ ν σ Nat} (hr : Makes r) : Frame L w (World.make r w).2 P Q := by
  obtain ⟨h1, _⟩ := hr w.mem
  unfold World.make
  rcases e : r w.mem with ⟨x | a, m1⟩
  · rw [e] at h1
    exact h.frame L h1 (fun _ _ e => e) (fun _ _ e => e) (fun _ _ _ _ => id) (fun _ _ _ _ => id) (fun _ _ _ _ _ _ _ => id)
  · rw [e] at h1
    exact h.frame L h1 (fun _ _ e => e) (fun _ _ e => append_old e) (fun _ _ _ _ => id) (fun _ _ _ _ => id) (fun _ _ _ _ _ _ _ => id)

theorem makeDict_frame (h : w.Wf) {r : Run κ ν σ Nat} (hr : MakesDict r) : Frame L w (World.makeDict r w).2 P Q := by
  obtain ⟨h1, _⟩ := hr w.mem
  unfold World.makeDict
  rcases e : r w.mem with ⟨x | a, m1⟩
  · rw [e] at h1
    exact h.frame L h1 (fun _ _ e => e) (fun _ _ e => e) (fun _ _ _ _ => id) (fun _ _ _ _ => id) (fun _ _ _ _ _ _ _ => id)
  · rw [e] at h1
    exact h.frame L h1 (fun _ _ e => append_old e) (fun _ _ e => e) (fun _ _ _ _ => id) (fun _ _ _ _ => id) (fun _ _ _ _ _ _ _ => id)

/-- A call on the `j`-th sorted dict. -/
theorem own_frame (h : w.Wf) {f : β → DictOut κ ν} {r : Run κ ν σ β} {j a : Nat} (hj : w.objs[j]? = some a) (hQ : Q j)
    (hr : ∀ l, Only a l r) : Frame L w (World.run f r w).2 P Q := by
  obtain ⟨l, s, e⟩ := h.objs j a hj
  refine h.frame L (hr l _ _ e) (fun _ _ e => e) (fun _ _ e => e) (fun i b _ hb => h.dictObj hb hj) (fun j' b hQ' hb hh => ?_)
    (fun j' b l' s' hQ' hb hl hh => ?_)
  · subst hh
    exact hQ' (h.objObj j j' b hj hb ▸ hQ)
  · subst hh
    exact hQ' (h.listList j j' a b _ s s' hj hb e hl ▸ hQ)

theorem step_frame (h : w.Wf) (ev : DictEvent κ ν) : Frame L w (World.step eqv L ev w).2 ev.changesDict
    (ev.changesSorted (w.views.map fun p => (p.1, w.objs.idxOf p.2))) := by
  cases ev with
  | newDict ps => exact h.makeDict_frame L (newDict_makes _)
  | mutate i ps =>
    simp only [World.step]
    split
    · rename_i a e
      refine h.frame L (A := (· = a)) (B := Nil) (Inside.onDict (A := (· = a)) a _ rfl _) (fun _ _ e => e) (fun _ _ e => e)
        (fun i' b hi hb hh => ?_) (fun j b _ hb => (h.dictObj e hb).symm) (fun _ _ _ _ _ _ _ => id)
      subst hh
      exact hi (h.dictDict i i' b e hb)
    · exact .refl L
  | construct a =>
    simp only [World.step]
    split
    · exact h.make_frame L (init_makes eqv L _)
    · exact .refl L
  | call j op =>
    simp only [World.step]
    split
    · rename_i a e
      exact h.own_frame L e rfl fun l => Only.call eqv L op
    · exact .refl L
  | update j arg =>
    simp only [World.step]
    split
    · rename_i a arg' e _
      exact h.own_frame L e rfl fun l => Only.update eqv L arg'
    · exact .refl L
  | or j arg =>
    simp only [World.step]
    split
    · exact h.make_frame L (init_makes eqv L _)
    · exact .refl L
  | ror j arg =>
    simp only [World.step]
    split
    · exact h.make_frame L (init_makes eqv L _)
    · exact .refl L
  | copy j =>
    simp only [World.step]
    split
    · exact h.make_frame L (init_makes eqv L _)
    · exact .refl L
  | pickle j =>
    simp only [World.step]
    split
    · exact h.make_frame L (pickle_makes eqv L _)
    · exact .refl L
  | reduceArgs j =>
    simp only [World.step]
    split
    · exact h.makeDict_frame L (reduceArgs_makes _)
    · exact .refl L
  | view j kind =>
    simp only [World.step]
    split
    · exact ⟨fun _ _ _ e => e, fun _ _ _ e => e⟩
    · exact .refl L
  | iloc j =>
    simp only [World.step]
    split
    · unfold World.iloc
      split
      · exact .refl L
      · exact ⟨fun _ _ _ e => e, fun _ _ _ e => e⟩
    · exact .refl L
  | viewCall n op =>
    simp only [World.step]
    split
    · rename_i kind a e
      obtain ⟨j, hj⟩ := h.views n kind a e
      refine h.own_frame L hj ?_ fun l => Only.lifts (Lifts.viewCall eqv L kind op)
      simp only [DictEvent.changesSorted, List.getElem?_map, e, Option.map_some]
      congr 1
      have hm : a ∈ w.objs := List.mem_of_getElem? hj
      have : w.objs[w.objs.idxOf a]? = some a := by
        rw [List.getElem?_eq_getElem (List.idxOf_lt_length_of_mem hm), List.getElem_idxOf]
      exact h.objObj _ _ a this hj
    · exact .refl L

end World.Wf

/-- What the client has, it keeps. -/
structure World.Keeps (w w' : World κ ν σ) : Prop where
  objs : ∀ j a : Nat, w.objs[j]? = some a → w'.objs[j]? = some a
  views : ∀ (n : Nat) (v : ViewKind × Nat), w.views[n]? = some v → w'.views[n]? = some v
  ilocs : ∀ a n : Nat, w.ilocs.lookup a = some n → w'.ilocs.lookup a = some n

namespace World.Keeps
variable {w w' w'' : World κ ν σ} {eqv : κ → κ → Bool} {L : ListAPI σ κ}

theorem refl : Keeps w w := ⟨fun _ _ e => e, fun _ _ e => e, fun _ _ e => e⟩

theorem trans (h : Keeps w w') (h' : Keeps w' w'') : Keeps w w'' :=
  ⟨fun j a e => h'.objs j a (h.objs j a e), fun n v e => h'.views n v (h.views n v e),
    fun a n e => h'.ilocs a n (h.ilocs a n e)⟩

theorem run {f : β → DictOut κ ν} {r : Run κ ν σ β} : Keeps w (World.run f r w).2 := ⟨fun _ _ e => e, fun _ _ e => e, fun _ _ e => e⟩

theorem make {r : Run κ ν σ Nat} : Keeps w (World.make r w).2 := by
  unfold World.make
  split
  · exact ⟨fun _ _ e => append_old e, fun _ _ e => e, fun _ _ e => e⟩
  · exact ⟨fun _ _ e => e, fun _ _ e => e, fun _ _ e => e⟩

theorem makeDict {r : Run κ ν σ Nat} : Keeps w (World.makeDict r w).2 := by
  unfold World.makeDict
  split <;> exact ⟨fun _ _ e => e, fun _ _ e => e, fun _ _ e => e⟩

theorem step (ev : DictEvent κ ν) : Keeps w (World.step eqv L ev w).2 := by
  cases ev with
  | newDict ps => exact makeDict
  | view j kind =>
    simp only [World.step]
    split
    · exact ⟨fun _ _ e => e, fun _ _ e => append_old e, fun _ _ e => e⟩
    · exact refl
  | iloc j =>
    simp only [World.step]
    split
    · rename_i a e
      unfold World.iloc
      split
      · exact refl
      · rename_i hn
        refine ⟨fun _ _ e => e, fun _ _ e => append_old e, fun b n eb => ?_⟩
        simp only [List.lookup_cons]
        split
        · rename_i hb
          have : b = a := by simpa using hb
          subst this
          rw [hn] at eb; cases eb
        · exact eb
    · exact refl
  | reduceArgs j =>
    simp only [World.step]
    split
    · exact makeDict
    · exact refl
  | _ =>
    simp only [World.step]
    split
    · first
      | exact make
      | exact run
    · exact refl

theorem hist (evs : List (DictEvent κ ν)) : Keeps w (runHist (World.step eqv L) evs w).2 := by
  induction evs generalizing w with
  | nil => exact refl
  | cons ev evs ih => exact (step ev).trans ih

end World.Keeps

/-- Only `iloc` sets the attribute. -/
theorem World.ilocs_step (eqv : κ → κ → Bool) (L : ListAPI σ κ) (w : World κ ν σ) (ev : DictEvent κ ν) (hev : ∀ j, ev ≠ .iloc j) :
    (World.step eqv L ev w).2.ilocs = w.ilocs := by
  have mk : ∀ r : Run κ ν σ Nat, (World.make r w).2.ilocs = w.ilocs := by
    intro r; unfold World.make; split <;> rfl
  have mkd : ∀ r : Run κ ν σ Nat, (World.makeDict r w).2.ilocs = w.ilocs := by
    intro r; unfold World.makeDict; split <;> rfl
  cases ev with
  | iloc j => exact absurd rfl (hev j)
  | newDict ps => exact mkd _
  | _ =>
    simp only [World.step]
    split
    · first
      | exact mk _
      | exact mkd _
      | rfl
    · rfl

/-- The `j`-th sorted dict, if there is one, has no `_iloc` until `iloc` is used on it. -/
theorem World.fresh (eqv : κ → κ → Bool) (L : ListAPI σ κ) {j : Nat} (evs : List (DictEvent κ ν)) (hev : ∀ ev ∈ evs, ev ≠ .iloc j)
    {w : World κ ν σ} (h : w.Wf) (hf : ∀ a, w.objs[j]? = some a → w.ilocs.lookup a = none) :
    ∀ a, (runHist (World.step eqv L) evs w).2.objs[j]? = some a →
      (runHist (World.step eqv L) evs w).2.ilocs.lookup a = none := by
  induction evs generalizing w with
  | nil => exact hf
  | cons ev evs ih =>
    refine ih (fun e he => hev e (by simp [he])) (h.step eqv L ev) fun a ha => ?_
    have old : w.ilocs.lookup a = none := by
      cases e : w.ilocs.lookup a with
      | none => rfl
      | some n =>
        obtain ⟨j', hj'⟩ := h.views n .keys a (h.ilocs a n e)
        have := (h.step eqv L ev).objObj _ _ a ((World.Keeps.step (eqv := eqv) (L := L) ev).objs j' a hj') ha
        subst this
        rw [hf a hj'] at e; cases e
    by_cases hi : ∃ j', ev = .iloc j'
    · obtain ⟨j', rfl⟩ := hi
      have hne : j' ≠ j := fun hh => hev (.iloc j') (by simp) (by rw [hh])
      simp only [World.step] at ha ⊢
      split
      · rename_i b eb
        rw [eb] at ha
        unfold World.iloc at ha ⊢
        split
        · exact old
        · rename_i hn
          simp only [hn] at ha
          simp only [List.lookup_cons]
          split
          · rename_i hb
            have : a = b := by simpa using hb
            subst this
            exact absurd (h.objObj _ _ _ eb ha) hne
          · exact old
      · exact old
    · rw [World.ilocs_step eqv L w ev fun j' hh => hi ⟨j', hh⟩]
      exact old
end DictHeap
end Verif
