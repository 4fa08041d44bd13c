import Verif.Model.DictHeap
import Verif.Proofs.SortedDict
/-!
# A SortedDict by reference does what a SortedDict by value does, to its own dict and list
-/

namespace Verif
namespace DictHeap
variable {κ ν σ β γ : Type} {m m' m1 m2 : Mem κ ν σ} {A B A' B' : Nat → Prop} {a l : Nat} {s s' : SD κ ν σ}

/-- From `m` to `m'` only dicts in `A` and sorted lists in `B` change, no attributes change, and no object disappears. -/
structure Stays (A B : Nat → Prop) (m m' : Mem κ ν σ) : Prop where
  dicts : ∀ (b : Nat) (o : Obj κ ν), ¬ A b → m.dicts[b]? = some o → m'.dicts[b]? = some o
  attrs : ∀ (b : Nat) (o : Obj κ ν), m.dicts[b]? = some o → ∃ d, m'.dicts[b]? = some { o with items := d }
  lists : ∀ (k : Nat) (s : σ), ¬ B k → m.lists[k]? = some s → m'.lists[k]? = some s
  list : ∀ (k : Nat) (s : σ), m.lists[k]? = some s → ∃ s', m'.lists[k]? = some s'

theorem lt_of_some {l : List β} {i : Nat} {x : β} (h : l[i]? = some x) : i < l.length := (List.getElem?_eq_some_iff.1 h).1

theorem some_of_lt {l : List β} {i : Nat} (h : i < l.length) : ∃ x, l[i]? = some x := ⟨_, List.getElem?_eq_getElem h⟩

theorem set_self {l : List β} {i : Nat} {x : β} (h : l[i]? = some x) : l.set i x = l := by
  obtain ⟨_, e⟩ := List.getElem?_eq_some_iff.1 h
  rw [← e, List.set_getElem_self]

namespace Stays

theorem refl (A B : Nat → Prop) (m : Mem κ ν σ) : Stays A B m m :=
  ⟨fun _ _ _ h => h, fun _ o h => ⟨o.items, h⟩, fun _ _ _ h => h, fun _ s h => ⟨s, h⟩⟩

theorem dictsLen (h : Stays A B m m') : m.dicts.length ≤ m'.dicts.length := by
  rcases Nat.eq_zero_or_pos m.dicts.length with h0 | h0
  · omega
  · obtain ⟨o, ho⟩ := some_of_lt (l := m.dicts) (i := m.dicts.length - 1) (by omega)
    obtain ⟨d, hd⟩ := h.attrs _ o ho
    have := lt_of_some hd
    omega

theorem listsLen (h : Stays A B m m') : m.lists.length ≤ m'.lists.length := by
  rcases Nat.eq_zero_or_pos m.lists.length with h0 | h0
  · omega
  · obtain ⟨o, ho⟩ := some_of_lt (l := m.lists) (i := m.lists.length - 1) (by omega)
    obtain ⟨d, hd⟩ := h.list _ o ho
    have := lt_of_some hd
    omega

/-- What happens to objects that did not exist at the beginning does not matter. -/
theorem trans_of (h1 : Stays A B m m1) (h2 : Stays A' B' m1 m2) (hA : ∀ b, b < m.dicts.length → A' b → A b)
    (hB : ∀ b, b < m.lists.length → B' b → B b) : Stays A B m m2 where
  dicts b o hb e := h2.dicts b o (fun h => hb (hA b (lt_of_some e) h)) (h1.dicts b o hb e)
  attrs b o e := by
    obtain ⟨d, e1⟩ := h1.attrs b o e
    obtain ⟨d', e2⟩ := h2.attrs b _ e1
    exact ⟨d', e2⟩
  lists b o hb e := h2.lists b o (fun h => hb (hB b (lt_of_some e) h)) (h1.lists b o hb e)
  list b o e := by
    obtain ⟨d, e1⟩ := h1.list b o e
    exact h2.list b _ e1

theorem trans (h1 : Stays A B m m1) (h2 : Stays A B m1 m2) : Stays A B m m2 :=
  h1.trans_of h2 (fun _ _ h => h) fun _ _ h => h

theorem mono (h : Stays A B m m') (hA : ∀ b, A b → A' b) (hB : ∀ b, B b → B' b) : Stays A' B' m m' :=
  ⟨fun b o hb e => h.dicts b o (fun x => hb (hA b x)) e, h.attrs, fun b o hb e => h.lists b o (fun x => hb (hB b x)) e, h.list⟩

theorem setDict {o : Obj κ ν} (ho : m.dicts[a]? = some o) (d : List (κ × ν)) (hA : A a) :
    Stays A B m { m with dicts := m.dicts.set a { o with items := d } } where
  dicts b o' hb e := by
    show (m.dicts.set a _)[b]? = _
    rw [List.getElem?_set_ne (fun h : a = b => hb (h ▸ hA)), e]
  attrs b o' e := by
    show ∃ d', (m.dicts.set a _)[b]? = _
    by_cases h : a = b
    · subst h
      have : o = o' := by simpa using ho.symm.trans e
      subst this
      exact ⟨d, by simp [lt_of_some ho]⟩
    · exact ⟨o'.items, by rw [List.getElem?_set_ne h, e]⟩
  lists _ _ _ e := e
  list _ s e := ⟨s, e⟩

theorem setList {s0 : σ} (h0 : m.lists[l]? = some s0) (s1 : σ) (hB : B l) :
    Stays A B m { m with lists := m.lists.set l s1 } where
  dicts _ _ _ e := e
  attrs _ o e := ⟨o.items, e⟩
  lists b o' hb e := by
    show (m.lists.set l _)[b]? = _
    rw [List.getElem?_set_ne (fun h : l = b => hb (h ▸ hB)), e]
  list b s' e := by
    show ∃ d', (m.lists.set l _)[b]? = _
    by_cases h : l = b
    · subst h
      exact ⟨s1, by simp [lt_of_some h0]⟩
    · exact ⟨s', by rw [List.getElem?_set_ne h, e]⟩

theorem newDict (o : Obj κ ν) : Stays A B m { m with dicts := m.dicts ++ [o] } where
  dicts b o' _ e := by
    show (m.dicts ++ [o])[b]? = _
    rw [List.getElem?_append_left (lt_of_some e), e]
  attrs b o' e := ⟨o'.items, by
    show (m.dicts ++ [o])[b]? = _
    rw [List.getElem?_append_left (lt_of_some e), e]⟩
  lists _ _ _ e := e
  list _ s e := ⟨s, e⟩

theorem newList (s0 : σ) : Stays A B m { m with lists := m.lists ++ [s0] } where
  dicts _ _ _ e := e
  attrs _ o e := ⟨o.items, e⟩
  lists b o' _ e := by
    show (m.lists ++ [s0])[b]? = _
    rw [List.getElem?_append_left (lt_of_some e), e]
  list b o' e := ⟨o', by
    show (m.lists ++ [s0])[b]? = _
    rw [List.getElem?_append_left (lt_of_some e), e]⟩

end Stays

/-- The sorted dict at `a` has its list at `l`, the cached methods are those of this list, and its value is `s`. -/
structure At (m : Mem κ ν σ) (a l : Nat) (s : SD κ ν σ) : Prop where
  dict : m.dicts[a]? = some { items := s.dict, attrs := some { list := l, methods := l } }
  list : m.lists[l]? = some s.list

theorem At.stays (h : At m a l s) (hs : Stays A B m m') : ∃ s', At m' a l s' := by
  obtain ⟨d, e1⟩ := hs.attrs a _ h.dict
  obtain ⟨t, e2⟩ := hs.list l _ h.list
  exact ⟨{ dict := d, list := t }, e1, e2⟩

theorem At.same (h : At m a l s) (hs : Stays A B m m') (ha : ¬ A a) (hl : ¬ B l) : At m' a l s :=
  ⟨hs.dicts a _ ha h.dict, hs.lists l _ hl h.list⟩

/-- The sorted dict at `a` and its list, and nothing else. -/
abbrev Own (a l : Nat) (m m' : Mem κ ν σ) : Prop := Stays (· = a) (· = l) m m'

/-- The method `r` by reference does what `f` does by value. -/
def Lifts (a l : Nat) (r : Run κ ν σ β) (f : Py (SD κ ν σ) β) : Prop :=
  ∀ m s, At m a l s → ∃ m', r m = ((f s).1, m') ∧ At m' a l (f s).2 ∧ Own a l m m'

namespace Lifts

theorem pure (b : β) : Lifts a l (Pure.pure b : Run κ ν σ β) (Pure.pure b) := fun m _ h => ⟨m, rfl, h, .refl _ _ m⟩

theorem raise (e : PyErr) : Lifts a l (Py.raise e : Run κ ν σ β) (Py.raise e) := fun m _ h => ⟨m, rfl, h, .refl _ _ m⟩

theorem bind {r : Run κ ν σ β} {f : Py (SD κ ν σ) β} {r' : β → Run κ ν σ γ} {f' : β → Py (SD κ ν σ) γ} (h : Lifts a l r f)
    (h' : ∀ b, Lifts a l (r' b) (f' b)) : Lifts a l (r >>= r') (f >>= f') := by
  intro m s hs
  obtain ⟨m1, e1, h1, o1⟩ := h m s hs
  rcases e : f s with ⟨x | b, s1⟩
  · rw [e] at e1 h1
    rw [Py.bind_error e1, Py.bind_error e]
    exact ⟨m1, rfl, h1, o1⟩
  · rw [e] at e1 h1
    rw [Py.bind_ok e1, Py.bind_ok e]
    obtain ⟨m2, e2, h2, o2⟩ := h' b m1 s1 h1
    exact ⟨m2, e2, h2, o1.trans o2⟩

theorem items {r : List (κ × ν) → Run κ ν σ β} {f : SD κ ν σ → Py (SD κ ν σ) β} (h : ∀ s0 : SD κ ν σ, Lifts a l (r s0.dict) (f s0)) :
    Lifts a l (DictHeap.items a >>= r) (Py.get >>= f) := by
  intro m s hs
  have e : DictHeap.items a m = (.ok s.dict, m) := by simp only [DictHeap.items, hs.dict]
  rw [Py.bind_ok e]
  exact h s m s hs

theorem onDict (f : List (κ × ν) → List (κ × ν)) : Lifts (σ := σ) a l (DictHeap.onDict a f) (SD.onDict f) := by
  intro m s hs
  refine ⟨{ m with dicts := m.dicts.set a _ }, by simp only [DictHeap.onDict, hs.dict]; rfl, ⟨?_, hs.list⟩, .setDict hs.dict _ rfl⟩
  show (m.dicts.set a _)[a]? = _
  simp [lt_of_some hs.dict]
  rfl

theorem onList (f : Py σ β) : Lifts (κ := κ) (ν := ν) a l (DictHeap.onList l f) (SD.onList f) := by
  intro m s hs
  refine ⟨{ m with lists := m.lists.set l _ }, by simp only [DictHeap.onList, hs.list]; rfl, ⟨hs.dict, ?_⟩, .setList hs.list _ rfl⟩
  show (m.lists.set l _)[l]? = _
  simp [lt_of_some hs.list]
  rfl

theorem bound (f : Py σ β) : Lifts (κ := κ) (ν := ν) a l (DictHeap.bound a f) (SD.onList f) := by
  intro m s hs
  have e : DictHeap.attrs a m = (.ok { list := l, methods := l }, m) := by
    simp only [DictHeap.attrs, hs.dict, Option.bind_some]
  unfold DictHeap.bound
  rw [Py.bind_ok e]
  exact onList f m s hs

theorem viaList (f : Py σ β) : Lifts (κ := κ) (ν := ν) a l (DictHeap.viaList a f) (SD.onList f) := by
  intro m s hs
  have e : DictHeap.attrs a m = (.ok { list := l, methods := l }, m) := by
    simp only [DictHeap.attrs, hs.dict, Option.bind_some]
  unfold DictHeap.viaList
  rw [Py.bind_ok e]
  exact onList f m s hs

theorem lift (x : Except PyErr β) : Lifts a l (Py.lift x : Run κ ν σ β) (Py.lift x) := fun m _ h => ⟨m, rfl, h, .refl _ _ m⟩

theorem forEach {r : γ → Run κ ν σ Unit} {f : γ → Py (SD κ ν σ) Unit} (h : ∀ x, Lifts a l (r x) (f x)) (xs : List γ) :
    Lifts a l (Py.forEach r xs) (Py.forEach f xs) := by
  induction xs with
  | nil => exact pure ()
  | cons x xs ih => exact bind (h x) fun _ => ih

theorem mapEach {r : γ → Run κ ν σ β} {f : γ → Py (SD κ ν σ) β} (h : ∀ x, Lifts a l (r x) (f x)) (xs : List γ) :
    Lifts a l (Py.mapEach r xs) (Py.mapEach f xs) := by
  induction xs with
  | nil => exact pure _
  | cons x xs ih => exact bind (h x) fun _ => bind ih fun _ => pure _

theorem out {g : β → DOut κ ν} {r : Run κ ν σ β} {f : Py (SD κ ν σ) β} (h : Lifts a l r f) : Lifts a l (SD.out g r) (SD.out g f) :=
  bind h fun _ => pure _

theorem congr {r : Run κ ν σ β} {f g : Py (SD κ ν σ) β} (h : Lifts a l r f) (e : ∀ s, f s = g s) : Lifts a l r g := by
  rwa [show f = g from funext e] at h

variable (eqv : κ → κ → Bool) (L : ListAPI σ κ)

theorem contains {k : κ} {r : Bool → Run κ ν σ β} {f : SD κ ν σ → Py (SD κ ν σ) β}
    (h : ∀ s0 : SD κ ν σ, Lifts a l (r (SD.contains eqv k s0)) (f s0)) :
    Lifts a l (DictHeap.contains eqv a k >>= r) (Py.get >>= f) := by
  intro m s hs
  have e : DictHeap.contains eqv a k m = (.ok (SD.contains eqv k s), m) := by
    have e : DictHeap.items a m = (.ok s.dict, m) := by simp only [DictHeap.items, hs.dict]
    unfold DictHeap.contains
    rw [Py.bind_ok e]
    rfl
  rw [Py.bind_ok e]
  exact h s m s hs

theorem getitem (k : κ) : Lifts a l (DictHeap.getitem eqv a k) (SD.getitem eqv k : Py (SD κ ν σ) ν) :=
  items fun s0 => lift (PyDict.getitem eqv s0.dict k)

theorem dictDelitem (k : κ) : Lifts a l (DictHeap.dictDelitem eqv a k) (SD.dictDelitem eqv k : Py (SD κ ν σ) Unit) := by
  refine items fun s0 => ?_
  split
  · exact onDict _
  · exact raise _

theorem dictPop (k : κ) : Lifts a l (DictHeap.dictPop eqv a k) (SD.dictPop eqv k : Py (SD κ ν σ) ν) :=
  items fun s0 => bind (lift (PyDict.getitem eqv s0.dict k)) fun v => bind (onDict _) fun _ => pure v

theorem clear : Lifts a l (DictHeap.clear L a) (SD.clear L : Py (SD κ ν σ) Unit) :=
  bind (onDict _) fun _ => bound _

theorem delitem (k : κ) : Lifts a l (DictHeap.delitem eqv L a k) (SD.delitem eqv L k : Py (SD κ ν σ) Unit) :=
  bind (dictDelitem eqv k) fun _ => bound _

theorem read {r : Run κ ν σ β} {g : SD κ ν σ → Except PyErr β} (h : ∀ m s, At m a l s → r m = (g s, m)) : Lifts a l r (SD.read g) :=
  fun m s hs => ⟨m, h m s hs, hs, .refl _ _ m⟩

end Lifts

section
variable (eqv : κ → κ → Bool) (L : ListAPI σ κ)

theorem iter_run (hs : At m a l s) : iter L a m = (.ok (SD.iter L s), m) := by
  have e : DictHeap.attrs a m = (.ok { list := l, methods := l }, m) := by
    simp only [DictHeap.attrs, hs.dict, Option.bind_some]
  simp only [iter, hs.dict, bound]
  rw [Py.bind_ok e]
  simp only [onList, hs.list, readList, set_self hs.list, SD.iter]

theorem reversed_run (hs : At m a l s) : reversed L a m = (.ok (SD.reversed L s), m) := by
  have e : DictHeap.attrs a m = (.ok { list := l, methods := l }, m) := by
    simp only [DictHeap.attrs, hs.dict, Option.bind_some]
  simp only [reversed, bound]
  rw [Py.bind_ok e]
  simp only [onList, hs.list, readList, set_self hs.list, SD.reversed]

theorem items_run (hs : At m a l s) : items a m = (.ok s.dict, m) := by simp only [items, hs.dict]

theorem mapEach_read {f : γ → Except PyErr β} {r : γ → Run κ ν σ β} (h : ∀ x, r x m = (f x, m)) (xs : List γ) :
    Py.mapEach r xs m = (mapE f xs, m) := by
  induction xs with
  | nil => rfl
  | cons x xs ih =>
    show (r x >>= fun a => Py.mapEach r xs >>= fun as => pure (a :: as)) m = _
    have hx := h x
    cases e : f x with
    | error x => rw [e] at hx; rw [Py.bind_error hx]; simp [mapE, e]
    | ok b =>
      rw [e] at hx
      rw [Py.bind_ok hx]
      cases e' : mapE f xs with
      | error x => rw [e'] at ih; rw [Py.bind_error ih]; simp [mapE, e, e', bind, Except.bind]
      | ok bs => rw [e'] at ih; rw [Py.bind_ok ih]; simp [mapE, e, e', bind, Except.bind, pure, Py.pure, Except.pure]

theorem getitem_run (hs : At m a l s) (k : κ) : getitem eqv a k m = (PyDict.getitem eqv s.dict k, m) := by
  unfold getitem
  rw [Py.bind_ok (items_run hs)]
  rfl

theorem item_run (hs : At m a l s) (k : κ) : (do let v ← getitem eqv a k; pure (k, v) : Run κ ν σ (κ × ν)) m =
    ((do let v ← PyDict.getitem eqv s.dict k; pure (k, v)), m) := by
  have h := getitem_run eqv hs k
  cases e : PyDict.getitem eqv s.dict k with
  | error x => rw [e] at h; rw [Py.bind_error h]; rfl
  | ok v => rw [e] at h; rw [Py.bind_ok h]; rfl

theorem itemsOf_run (hs : At m a l s) : itemsOf eqv L a m = (SD.items eqv L s, m) := by
  unfold itemsOf
  rw [Py.bind_ok (iter_run L hs)]
  exact mapEach_read (item_run eqv hs) _

theorem valuesOf_run (hs : At m a l s) : valuesOf eqv L a m = (SD.values eqv L s, m) := by
  unfold valuesOf
  rw [Py.bind_ok (iter_run L hs)]
  exact mapEach_read (getitem_run eqv hs) _

end

namespace Lifts
variable (eqv : κ → κ → Bool) (L : ListAPI σ κ)

theorem setitem (k : κ) (v : ν) : Lifts a l (DictHeap.setitem eqv L a k v) (SD.setitem eqv L k v) := by
  refine contains eqv fun s0 => ?_
  split
  · exact onDict _
  · exact bind (bound _) fun _ => onDict _

theorem pop (k : κ) (default : Option ν) : Lifts a l (DictHeap.pop eqv L a k default) (SD.pop eqv L k default) := by
  refine contains eqv fun s0 => ?_
  split
  · exact bind (bound _) fun _ => dictPop eqv k
  · cases default with
    | none => exact raise _
    | some v => exact pure v

theorem popitem (i : Int) : Lifts a l (DictHeap.popitem eqv L a i) (SD.popitem eqv L i : Py (SD κ ν σ) (κ × ν)) := by
  refine items fun s0 => ?_
  split
  · exact raise _
  · exact bind (bound _) fun k => bind (dictPop eqv k) fun v => pure _

theorem peekitem (i : Int) : Lifts a l (DictHeap.peekitem eqv L a i) (SD.peekitem eqv L i : Py (SD κ ν σ) (κ × ν)) :=
  bind (viaList _) fun k => bind (getitem eqv k) fun _ => pure _

theorem setdefault (k : κ) (v : ν) : Lifts a l (DictHeap.setdefault eqv L a k v) (SD.setdefault eqv L k v) := by
  refine contains eqv fun s0 => ?_
  split
  · exact getitem eqv k
  · exact bind (onDict _) fun _ => bind (bound _) fun _ => pure v

theorem viewDelInt (i : Int) : Lifts a l (DictHeap.viewDelInt eqv L a i) (SD.viewDelInt eqv L i : Py (SD κ ν σ) Unit) :=
  bind (viaList _) fun k => dictDelitem eqv k

theorem viewDelSlice (sl : PySlice) : Lifts a l (DictHeap.viewDelSlice eqv L a sl) (SD.viewDelSlice eqv L sl : Py (SD κ ν σ) Unit) :=
  bind (viaList _) fun ks => bind (viaList _) fun _ => forEach (dictDelitem eqv) ks

/-- A call on a view. -/
theorem viewCall (kind : ViewKind) (op : ViewCall) : Lifts a l (DictHeap.viewCall eqv L kind a op) (SD.step eqv L (op.on kind) : Py (SD κ ν σ) (DOut κ ν)) := by
  cases op with
  | len =>
    refine out (read fun m s hs => ?_)
    unfold DictHeap.length
    rw [Py.bind_ok (items_run hs)]
    rfl
  | iter =>
    cases kind with
    | keys => exact out (read fun m s hs => iter_run L hs)
    | items => exact out (read fun m s hs => itemsOf_run eqv L hs)
    | values => exact out (read fun m s hs => valuesOf_run eqv L hs)
  | «at» i =>
    cases kind with
    | keys => exact out (viaList _)
    | items => exact out (peekitem eqv L i)
    | values => exact out (bind (viaList _) fun k => getitem eqv k)
  | slice sl =>
    cases kind with
    | keys => exact out (viaList _)
    | items => exact out (bind (viaList _) fun ks => mapEach (fun k => bind (getitem eqv k) fun v => pure _) ks)
    | values => exact out (bind (viaList _) fun ks => mapEach (getitem eqv) ks)
  | delInt i => cases kind <;> exact out (viewDelInt eqv L i)
  | delSlice sl => cases kind <;> exact out (viewDelSlice eqv L sl)

end Lifts

/-- The calls that neither take nor return dicts. -/
def plain : SDOp κ ν → Prop
  | .update _ | .copy | .or _ | .ror _ => False
  | _ => True

namespace Lifts
variable (eqv : κ → κ → Bool) (L : ListAPI σ κ)

theorem call (op : SDOp κ ν) (hop : plain op) : Lifts a l (DictHeap.call eqv L a op) (SD.step eqv L op) := by
  cases op with
  | setitem k v => exact out (setitem eqv L k v)
  | delitem k => exact out (delitem eqv L k)
  | clear => exact out (clear L)
  | pop k d => exact out (pop eqv L k d)
  | popitem i => exact out (popitem eqv L i)
  | peekitem i => exact out (peekitem eqv L i)
  | setdefault k v => exact out (setdefault eqv L k v)
  | update arg => exact hop.elim
  | getitem k => exact out (getitem eqv k)
  | get k =>
    refine out (read fun m s hs => ?_)
    unfold DictHeap.get
    rw [Py.bind_ok (items_run hs)]
    rfl
  | contains k =>
    refine out (read fun m s hs => ?_)
    unfold DictHeap.contains
    rw [Py.bind_ok (items_run hs)]
    rfl
  | len =>
    refine out (read fun m s hs => ?_)
    unfold DictHeap.length
    rw [Py.bind_ok (items_run hs)]
    rfl
  | iter => exact out (read fun m s hs => iter_run L hs)
  | reversed => exact out (read fun m s hs => reversed_run L hs)
  | items => exact viewCall eqv L .items .iter
  | values => exact viewCall eqv L .values .iter
  | keysAt i => exact viewCall eqv L .keys (.at i)
  | keysSlice sl => exact viewCall eqv L .keys (.slice sl)
  | itemsAt i => exact viewCall eqv L .items (.at i)
  | itemsSlice sl => exact viewCall eqv L .items (.slice sl)
  | valuesAt i => exact viewCall eqv L .values (.at i)
  | valuesSlice sl => exact viewCall eqv L .values (.slice sl)
  | viewDelInt i => exact viewCall eqv L .keys (.delInt i)
  | viewDelSlice sl => exact viewCall eqv L .keys (.delSlice sl)
  | bisectLeft k => exact out (bound _)
  | bisectRight k => exact out (bound _)
  | index k a b => exact out (bound _)
  | irange lo hi a b r => exact out (bound _)
  | islice a b r => exact out (bound _)
  | reset load => exact out (bound _)
  | copy => exact hop.elim
  | or o => exact hop.elim
  | ror o => exact hop.elim

end Lifts

end DictHeap
end Verif
