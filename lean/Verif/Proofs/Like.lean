import Verif.Proofs.API
/-!
# Runs that do not look at `_maxes` and `_keys`

`Like s t`: the objects `s` and `t` agree in everything but the *entries* of `_maxes` and `_keys`.  The methods that compare
nothing behave the same on both.
-/

namespace Verif
variable {α κ κ' β γ : Type}

/-- Same values in the same sublists, same `_len`, `_load`, `_index`, `_offset`, and `_maxes`, `_keys` of the same lengths. -/
structure Like (s : St α κ) (t : St α κ') : Prop where
  len : s.len = t.len
  load : s.load = t.load
  lists : s.lists = t.lists
  index : s.index = t.index
  offset : s.offset = t.offset
  maxes : s.maxes.length = t.maxes.length
  keys : s.keys.map List.length = t.keys.map List.length

/-- `m` and `m'` return the same and keep `Like`. -/
def Sim (m : Py (St α κ) β) (m' : Py (St α κ') β) : Prop :=
  ∀ s t, Like s t → (m s).1 = (m' t).1 ∧ Like (m s).2 (m' t).2

/-- Both raise the same exception, or both return, with related results. -/
inductive RelE (R : β → γ → Prop) : Except PyErr β → Except PyErr γ → Prop
  | ok {a b} : R a b → RelE R (.ok a) (.ok b)
  | error (e) : RelE R (.error e) (.error e)

namespace Sim

theorem pure (b : β) : Sim (Pure.pure b : Py (St α κ) β) (Pure.pure b : Py (St α κ') β) := fun _ _ h => ⟨rfl, h⟩
theorem raise (e : PyErr) : Sim (Py.raise e : Py (St α κ) β) (Py.raise e : Py (St α κ') β) := fun _ _ h => ⟨rfl, h⟩
theorem lift (x : Except PyErr β) : Sim (Py.lift x : Py (St α κ) β) (Py.lift x : Py (St α κ') β) := fun _ _ h => ⟨rfl, h⟩

theorem get_bind {f : St α κ → Py (St α κ) β} {f' : St α κ' → Py (St α κ') β}
    (h : ∀ s t, Like s t → Sim (f s) (f' t)) : Sim (Py.get >>= f) (Py.get >>= f') :=
  fun s t hst => h s t hst s t hst

theorem lift_bind {x : Except PyErr β} {f : β → Py (St α κ) γ} {f' : β → Py (St α κ') γ}
    (h : ∀ a, x = .ok a → Sim (f a) (f' a)) : Sim (Py.lift x >>= f) (Py.lift x >>= f') := by
  cases x with
  | error e => exact fun _ _ hst => ⟨rfl, hst⟩
  | ok a => exact h a rfl

theorem lift_rel {δ : Type} {R : β → δ → Prop} {x : Except PyErr β} {x' : Except PyErr δ} {f : β → Py (St α κ) γ}
    {f' : δ → Py (St α κ') γ} (hx : RelE R x x') (h : ∀ a a', R a a' → Sim (f a) (f' a')) :
    Sim (Py.lift x >>= f) (Py.lift x' >>= f') := by
  cases hx with
  | error e => exact fun _ _ hst => ⟨rfl, hst⟩
  | ok hr => exact h _ _ hr

theorem modify {g : St α κ → St α κ} {g' : St α κ' → St α κ'} (h : ∀ s t, Like s t → Like (g s) (g' t)) :
    Sim (Py.modify g) (Py.modify g') := fun s t hst => ⟨rfl, h s t hst⟩

theorem bind {m : Py (St α κ) β} {m' : Py (St α κ') β} {f : β → Py (St α κ) γ} {f' : β → Py (St α κ') γ}
    (hm : Sim m m') (h : ∀ a, Sim (f a) (f' a)) : Sim (m >>= f) (m' >>= f') := by
  intro s t hst
  obtain ⟨h1, h2⟩ := hm s t hst
  rcases e : m s with ⟨r, s'⟩
  rcases e' : m' t with ⟨r', t'⟩
  rw [e, e'] at h1 h2
  simp only at h1 h2
  subst h1
  cases r with
  | error er => rw [Py.bind_error e, Py.bind_error e']; exact ⟨rfl, h2⟩
  | ok a => rw [Py.bind_ok e, Py.bind_ok e']; exact h a _ _ h2

theorem modify_bind {g : St α κ → St α κ} {g' : St α κ' → St α κ'} {f : Py (St α κ) β} {f' : Py (St α κ') β}
    (h : ∀ s t, Like s t → Like (g s) (g' t)) (hf : Sim f f') :
    Sim (Py.modify g >>= fun _ => f) (Py.modify g' >>= fun _ => f') := bind (modify h) (fun _ => hf)

theorem ite {p p' : Prop} [Decidable p] [Decidable p'] {m n : Py (St α κ) β} {m' n' : Py (St α κ') β} (h : p ↔ p')
    (h1 : p → Sim m m') (h2 : ¬p → Sim n n') : Sim (if p then m else n) (if p' then m' else n') := by
  by_cases hp : p
  · rw [if_pos hp, if_pos (h.1 hp)]; exact h1 hp
  · rw [if_neg hp, if_neg (fun hp' => hp (h.2 hp'))]; exact h2 hp

theorem forEach {f : δ → Py (St α κ) Unit} {f' : δ → Py (St α κ') Unit} (h : ∀ a, Sim (f a) (f' a)) (l : List δ) :
    Sim (Py.forEach f l) (Py.forEach f' l) := by
  induction l with
  | nil => exact pure ()
  | cons a l ih => exact bind (h a) (fun _ => ih)

theorem mapEach {f : δ → Py (St α κ) β} {f' : δ → Py (St α κ') β} (h : ∀ a, Sim (f a) (f' a)) (l : List δ) :
    Sim (Py.mapEach f l) (Py.mapEach f' l) := by
  induction l with
  | nil => exact pure []
  | cons a l ih => exact bind (h a) (fun _ => bind ih (fun _ => pure _))

end Sim

theorem Like.with_index {s : St α κ} {t : St α κ'} (h : Like s t) (index : List Nat) :
    Like { s with index := index } { t with index := index } := ⟨h.len, h.load, h.lists, rfl, h.offset, h.maxes, h.keys⟩

theorem Like.with_lists {s : St α κ} {t : St α κ'} (h : Like s t) (lists : List (List α)) :
    Like { s with lists := lists } { t with lists := lists } := ⟨h.len, h.load, rfl, h.index, h.offset, h.maxes, h.keys⟩

theorem Like.with_len {s : St α κ} {t : St α κ'} (h : Like s t) (n : Nat) :
    Like { s with len := n } { t with len := n } := ⟨rfl, h.load, h.lists, h.index, h.offset, h.maxes, h.keys⟩

theorem Like.with_load {s : St α κ} {t : St α κ'} (h : Like s t) (n : Nat) :
    Like { s with load := n } { t with load := n } := ⟨h.len, rfl, h.lists, h.index, h.offset, h.maxes, h.keys⟩

theorem Like.with_maxes {s : St α κ} {t : St α κ'} (h : Like s t) {M : List κ} {M' : List κ'} (hM : M.length = M'.length) :
    Like { s with maxes := M } { t with maxes := M' } := ⟨h.len, h.load, h.lists, h.index, h.offset, hM, h.keys⟩

theorem Like.with_keys {s : St α κ} {t : St α κ'} (h : Like s t) {M : List (List κ)} {M' : List (List κ')}
    (hM : M.map List.length = M'.map List.length) :
    Like { s with keys := M } { t with keys := M' } := ⟨h.len, h.load, h.lists, h.index, h.offset, h.maxes, hM⟩

theorem Like.iter {s : St α κ} {t : St α κ'} (h : Like s t) : Core.iter s = Core.iter t := by
  unfold Core.iter; rw [h.lists]

namespace Core

theorem buildIndex_sim (ilog2 : Nat → Nat) : Sim (buildIndex ilog2 : Py (St α κ) Unit) (buildIndex ilog2 : Py (St α κ') Unit) := by
  refine Sim.get_bind fun s t h => ?_
  simp only [h.lists]
  refine Sim.ite Iff.rfl (fun _ => Sim.modify fun a b h' => ?_) (fun _ => ?_)
  · exact ⟨h'.len, h'.load, h'.lists, rfl, rfl, h'.maxes, h'.keys⟩
  · refine Sim.ite Iff.rfl (fun _ => Sim.modify fun a b h' => ?_) (fun _ => Sim.modify fun a b h' => ?_)
    · exact ⟨h'.len, h'.load, h'.lists, rfl, rfl, h'.maxes, h'.keys⟩
    · exact ⟨h'.len, h'.load, h'.lists, by simp only [h'.index], rfl, h'.maxes, h'.keys⟩

theorem ensureIndex_sim (ilog2 : Nat → Nat) :
    Sim (ensureIndex ilog2 : Py (St α κ) Unit) (ensureIndex ilog2 : Py (St α κ') Unit) := by
  refine Sim.get_bind fun s t h => ?_
  rw [h.index]
  exact Sim.ite Iff.rfl (fun _ => buildIndex_sim _) (fun _ => Sim.pure _)

theorem loc_sim (ilog2 : Nat → Nat) (p i : Nat) : Sim (loc ilog2 p i : Py (St α κ) Nat) (loc ilog2 p i : Py (St α κ') Nat) := by
  unfold loc
  refine Sim.ite Iff.rfl (fun _ => Sim.pure _) (fun _ => Sim.bind (ensureIndex_sim _) fun _ => Sim.get_bind fun s t h => ?_)
  rw [h.index, h.offset]
  exact Sim.lift_bind fun _ _ => Sim.pure _

theorem posNonneg_sim (ilog2 : Nat → Nat) (i : Nat) :
    Sim (posNonneg ilog2 i : Py (St α κ) _) (posNonneg ilog2 i : Py (St α κ') _) := by
  refine Sim.get_bind fun s t h => ?_
  rw [h.lists]
  refine Sim.lift_bind fun _ _ => Sim.ite Iff.rfl (fun _ => Sim.pure _) (fun _ => Sim.bind (ensureIndex_sim _) fun _ =>
    Sim.get_bind fun s t h => ?_)
  rw [h.index, h.offset]
  exact Sim.ite Iff.rfl (fun _ => Sim.raise _) (fun _ => Sim.pure _)

theorem pos_sim (ilog2 : Nat → Nat) (i : Int) : Sim (pos ilog2 i : Py (St α κ) _) (pos ilog2 i : Py (St α κ') _) := by
  refine Sim.get_bind fun s t h => ?_
  rw [h.lists, h.len]
  refine Sim.ite Iff.rfl (fun _ => Sim.lift_bind fun _ _ => Sim.ite Iff.rfl (fun _ => Sim.pure _) fun _ => ?_) fun _ => ?_
  · exact Sim.ite Iff.rfl (fun _ => Sim.raise _) (fun _ => posNonneg_sim _ _)
  · exact Sim.ite Iff.rfl (fun _ => Sim.raise _) (fun _ => posNonneg_sim _ _)

theorem touchIndex_sim (f : Nat → Except PyErr Nat) (p : Nat) :
    Sim (touchIndex f p : Py (St α κ) _) (touchIndex f p : Py (St α κ') _) := by
  refine Sim.get_bind fun s t h => ?_
  rw [h.index, h.offset]
  exact Sim.ite Iff.rfl (fun _ => Sim.pure _) (fun _ => Sim.lift_bind fun _ _ => Sim.modify fun _ _ h => h.with_index _)

theorem getInt_sim (ilog2 : Nat → Nat) (i : Int) : Sim (getInt ilog2 i : Py (St α κ) α) (getInt ilog2 i : Py (St α κ') α) := by
  refine Sim.get_bind fun s t h => ?_
  rw [h.lists, h.len]
  refine Sim.ite Iff.rfl (fun _ => ?_) (fun _ => Sim.raise _)
  refine Sim.ite Iff.rfl (fun _ => Sim.lift_bind fun _ _ => Sim.lift _) fun _ => ?_
  refine Sim.ite Iff.rfl (fun _ => Sim.lift_bind fun _ _ => Sim.lift _) fun _ => ?_
  refine Sim.lift_bind fun _ _ => Sim.ite Iff.rfl (fun _ => Sim.lift _) fun _ => ?_
  refine Sim.lift_bind fun _ _ => Sim.ite Iff.rfl (fun _ => Sim.lift _) fun _ => ?_
  exact Sim.bind (pos_sim _ _) fun ⟨_, _⟩ => Sim.lift_bind fun _ _ => Sim.lift _

theorem getSliceFwd_sim (ilog2 : Nat → Nat) (a b : Int) :
    Sim (getSliceFwd ilog2 a b : Py (St α κ) _) (getSliceFwd ilog2 a b : Py (St α κ') _) := by
  refine Sim.get_bind fun s t h => ?_
  rw [h.lists, h.len, h.iter]
  refine Sim.ite Iff.rfl (fun _ => Sim.pure _) fun _ => ?_
  refine Sim.bind (pos_sim _ _) fun ⟨_, _⟩ => Sim.lift_bind fun _ _ => Sim.ite Iff.rfl (fun _ => Sim.pure _) fun _ => ?_
  exact Sim.ite Iff.rfl (fun _ => Sim.lift_bind fun _ _ => Sim.bind (Sim.pure _) fun ⟨_, _⟩ => Sim.lift_bind fun _ _ => Sim.pure _)
    (fun _ => Sim.bind (pos_sim _ _) fun ⟨_, _⟩ => Sim.lift_bind fun _ _ => Sim.pure _)

theorem getSliceStep1_sim (ilog2 : Nat → Nat) (a b : Option Int) :
    Sim (getSliceStep1 ilog2 a b : Py (St α κ) _) (getSliceStep1 ilog2 a b : Py (St α κ') _) := by
  refine Sim.get_bind fun s t h => ?_
  rw [h.len]
  exact Sim.lift_bind fun ⟨_, _, _⟩ _ => Sim.ite Iff.rfl (fun _ => getSliceFwd_sim _ _ _) fun _ => Sim.mapEach (getInt_sim _) _

theorem getSlice_sim (ilog2 : Nat → Nat) (sl : PySlice) :
    Sim (getSlice ilog2 sl : Py (St α κ) _) (getSlice ilog2 sl : Py (St α κ') _) := by
  refine Sim.get_bind fun s t h => ?_
  rw [h.len]
  exact Sim.lift_bind fun ⟨_, _, _⟩ _ => Sim.ite Iff.rfl (fun _ => getSliceFwd_sim _ _ _) fun _ =>
    Sim.ite Iff.rfl (fun _ => Sim.bind (getSliceStep1_sim _ _ _) fun _ => Sim.pure _) fun _ => Sim.mapEach (getInt_sim _) _

theorem islicePos_like {s : St α κ} {t : St α κ'} (h : Like s t) : islicePos s = islicePos t := by
  funext a b c d r
  unfold islicePos
  rw [h.lists]

theorem islice_sim (ilog2 : Nat → Nat) (a b : Option Int) (r : Bool) :
    Sim (islice ilog2 a b r : Py (St α κ) _) (islice ilog2 a b r : Py (St α κ') _) := by
  refine Sim.get_bind fun s t h => ?_
  rw [h.len, h.lists, islicePos_like h]
  refine Sim.ite Iff.rfl (fun _ => Sim.pure _) fun _ => Sim.lift_bind fun ⟨_, _, _⟩ _ => ?_
  refine Sim.ite Iff.rfl (fun _ => Sim.pure _) fun _ => Sim.bind (pos_sim _ _) fun ⟨_, _⟩ => ?_
  exact Sim.ite Iff.rfl (fun _ => Sim.lift_bind fun _ _ => Sim.lift _)
    (fun _ => Sim.bind (pos_sim _ _) fun ⟨_, _⟩ => Sim.lift _)

variable {M : Methods α κ} {M' : Methods α κ'}

theorem delInt_sim (hl : M.ilog2 = M'.ilog2) (hd : ∀ p i, Sim (M.delete p i) (M'.delete p i)) (i : Int) :
    Sim (delInt M i) (delInt M' i) := by
  unfold delInt
  rw [hl]
  exact Sim.bind (pos_sim _ _) fun ⟨_, _⟩ => hd _ _

theorem pop_sim (hl : M.ilog2 = M'.ilog2) (hd : ∀ p i, Sim (M.delete p i) (M'.delete p i)) (i : Int) :
    Sim (pop M i) (pop M' i) := by
  refine Sim.get_bind fun s t h => ?_
  rw [h.len, h.lists, hl]
  refine Sim.ite Iff.rfl (fun _ => Sim.raise _) fun _ => ?_
  refine Sim.ite Iff.rfl (fun _ => Sim.lift_bind fun _ _ => Sim.lift_bind fun _ _ => Sim.bind (hd _ _) fun _ => Sim.pure _) fun _ => ?_
  refine Sim.ite Iff.rfl (fun _ => Sim.lift_bind fun _ _ => Sim.lift_bind fun _ _ => Sim.bind (hd _ _) fun _ => Sim.pure _) fun _ => ?_
  refine Sim.lift_bind fun _ _ => Sim.ite Iff.rfl (fun _ => Sim.lift_bind fun _ _ => Sim.bind (hd _ _) fun _ => Sim.pure _) fun _ => ?_
  refine Sim.lift_bind fun _ _ => Sim.ite Iff.rfl (fun _ => Sim.lift_bind fun _ _ => Sim.lift_bind fun _ _ =>
    Sim.bind (hd _ _) fun _ => Sim.pure _) fun _ => ?_
  exact Sim.bind (pos_sim _ _) fun ⟨_, _⟩ => Sim.lift_bind fun _ _ => Sim.lift_bind fun _ _ => Sim.bind (hd _ _) fun _ => Sim.pure _

end Core

/-! ## Element access only depends on lengths -/

theorem getItem_rel {a : List β} {b : List γ} (h : a.length = b.length) (i : Nat) :
    RelE (fun _ _ => True) (getItem a i) (getItem b i) := by
  by_cases hi : i < a.length
  · rw [getItem_ok hi, getItem_ok (h ▸ hi)]; exact .ok trivial
  · rw [show getItem a i = .error .indexError from ?_, show getItem b i = .error .indexError from ?_]
    · exact .error _
    · unfold getItem; rw [List.getElem?_eq_none (by omega)]
    · unfold getItem; rw [List.getElem?_eq_none (by omega)]

theorem lastItem_rel {a : List β} {b : List γ} (h : a.length = b.length) :
    RelE (fun _ _ => True) (lastItem a) (lastItem b) := by
  unfold lastItem
  cases a with
  | nil =>
    cases b with
    | nil => exact .error _
    | cons _ _ => simp at h
  | cons x a =>
    cases b with
    | nil => simp at h
    | cons y b =>
      rw [List.getLast?_eq_some_getLast (by simp), List.getLast?_eq_some_getLast (by simp)]
      exact .ok trivial

theorem setItem_rel {a : List β} {b : List γ} (h : a.length = b.length) (i : Nat) (x : β) (y : γ) :
    RelE (fun u v => u.length = v.length) (setItem a i x) (setItem b i y) := by
  unfold setItem
  rw [h]
  split
  · exact .ok (by simpa using h)
  · exact .error _

theorem delItem_rel {a : List β} {b : List γ} (h : a.length = b.length) (i : Nat) :
    RelE (fun u v => u.length = v.length) (delItem a i) (delItem b i) := by
  unfold delItem
  rw [h]
  split
  · exact .ok (by simp [List.length_eraseIdx, h])
  · exact .error _

theorem getItem_lens_rel {a : List (List β)} {b : List (List γ)} (h : a.map List.length = b.map List.length) (i : Nat) :
    RelE (fun u v => u.length = v.length) (getItem a i) (getItem b i) := by
  have hl : a.length = b.length := by simpa using congrArg List.length h
  by_cases hi : i < a.length
  · rw [getItem_ok hi, getItem_ok (hl ▸ hi)]
    refine .ok ?_
    have := congrArg (fun l => l[i]?) h
    simpa [hi, hl ▸ hi] using this
  · rw [show getItem a i = .error .indexError from ?_, show getItem b i = .error .indexError from ?_]
    · exact .error _
    · unfold getItem; rw [List.getElem?_eq_none (by omega)]
    · unfold getItem; rw [List.getElem?_eq_none (by omega)]

theorem delItem_lens_rel {a : List (List β)} {b : List (List γ)} (h : a.map List.length = b.map List.length) (i : Nat) :
    RelE (fun u v => u.map List.length = v.map List.length) (delItem a i) (delItem b i) := by
  have hl : a.length = b.length := by simpa using congrArg List.length h
  unfold delItem
  rw [hl]
  split
  · refine .ok ?_
    have hmap : ∀ {δ : Type} (l : List (List δ)) (i : Nat), (l.eraseIdx i).map List.length = (l.map List.length).eraseIdx i := by
      intro δ l i
      rw [List.eraseIdx_eq_take_drop_succ, List.eraseIdx_eq_take_drop_succ, List.map_append, List.map_take, List.map_drop]
    rw [hmap, hmap, h]
  · exact .error _

theorem set_lens_rel {a : List (List β)} {b : List (List γ)} (h : a.map List.length = b.map List.length) (i : Nat)
    {x : List β} {y : List γ} (hxy : x.length = y.length) :
    (a.set i x).map List.length = (b.set i y).map List.length := by
  rw [List.map_set, List.map_set, h, hxy]

theorem insertAt_lens_rel {a : List (List β)} {b : List (List γ)} (h : a.map List.length = b.map List.length) (i : Nat)
    {x : List β} {y : List γ} (hxy : x.length = y.length) :
    (insertAt a i x).map List.length = (insertAt b i y).map List.length := by
  unfold insertAt
  simp only [List.map_append, List.map_cons, List.map_take, List.map_drop, h, hxy]

theorem insertAt_length_rel {a : List β} {b : List γ} (h : a.length = b.length) (i : Nat) (x : β) (y : γ) :
    (insertAt a i x).length = (insertAt b i y).length := by
  unfold insertAt
  simp [h]

namespace SL

theorem expand_sim (p : Nat) : Sim (expand p : Py (St α α) Unit) (expand p) := by
  refine Sim.get_bind fun s t h => ?_
  rw [h.lists, h.load]
  refine Sim.lift_bind fun l _ => Sim.ite Iff.rfl (fun _ => ?_) (fun _ => Core.touchIndex_sim _ _)
  refine Sim.modify_bind (fun _ _ h => by rw [h.lists]; exact h.with_lists _) ?_
  refine Sim.lift_bind fun m _ => Sim.lift_rel (setItem_rel h.maxes p m m) fun M M' hM => ?_
  refine Sim.modify_bind (fun _ _ h => h.with_maxes hM) ?_
  refine Sim.modify_bind (fun _ _ h => by rw [h.lists]; exact h.with_lists _) ?_
  refine Sim.lift_bind fun m _ => Sim.modify_bind (fun _ _ h => h.with_maxes (insertAt_length_rel h.maxes _ _ _)) ?_
  exact Sim.modify fun _ _ h => h.with_index _

theorem delete_sim (p i : Nat) : Sim (delete p i : Py (St α α) Unit) (delete p i) := by
  refine Sim.get_bind fun s t h => ?_
  rw [h.lists, h.load, h.len]
  refine Sim.lift_bind fun _ _ => Sim.lift_bind fun _ _ => ?_
  refine Sim.modify_bind (fun _ _ h => by rw [h.lists]; exact h.with_lists _) ?_
  refine Sim.lift_bind fun _ _ => Sim.modify_bind (fun _ _ h => h.with_len _) ?_
  refine Sim.ite Iff.rfl (fun _ => ?_) fun _ => ?_
  · refine Sim.lift_bind fun m _ => Sim.lift_rel (setItem_rel h.maxes p m m) fun M M' hM => ?_
    exact Sim.modify_bind (fun _ _ h => h.with_maxes hM) (Core.touchIndex_sim _ _)
  refine Sim.ite Iff.rfl (fun _ => ?_) fun _ => ?_
  · refine Sim.get_bind fun s t h => ?_
    rw [h.lists]
    refine Sim.lift_bind fun _ _ => Sim.lift_bind fun _ _ => ?_
    refine Sim.modify_bind (fun _ _ h => by rw [h.lists]; exact h.with_lists _) ?_
    refine Sim.lift_bind fun m _ => Sim.lift_rel (setItem_rel h.maxes _ m m) fun M M' hM => ?_
    refine Sim.modify_bind (fun _ _ h => h.with_maxes hM) ?_
    refine Sim.get_bind fun s t h => ?_
    rw [h.lists]
    refine Sim.lift_bind fun _ _ => Sim.modify_bind (fun _ _ h => h.with_lists _) ?_
    refine Sim.lift_rel (delItem_rel h.maxes _) fun M M' hM => Sim.modify_bind (fun _ _ h => h.with_maxes hM) ?_
    exact Sim.modify_bind (fun _ _ h => h.with_index _) (expand_sim _)
  refine Sim.ite Iff.rfl (fun _ => ?_) fun _ => ?_
  · refine Sim.lift_bind fun m _ => Sim.lift_rel (setItem_rel h.maxes p m m) fun M M' hM => ?_
    exact Sim.modify (fun _ _ h => h.with_maxes hM)
  · refine Sim.get_bind fun s t h => ?_
    rw [h.lists]
    refine Sim.lift_bind fun _ _ => Sim.modify_bind (fun _ _ h => h.with_lists _) ?_
    refine Sim.lift_rel (delItem_rel h.maxes _) fun M M' hM => Sim.modify_bind (fun _ _ h => h.with_maxes hM) ?_
    exact Sim.modify (fun _ _ h => h.with_index _)

end SL

namespace SKL

theorem expand_sim (p : Nat) : Sim (expand p : Py (St α κ) Unit) (expand p : Py (St α κ') Unit) := by
  refine Sim.get_bind fun s t h => ?_
  rw [h.lists, h.load]
  refine Sim.lift_rel (getItem_lens_rel h.keys p) fun K K' hK => ?_
  refine Sim.ite (by rw [hK]) (fun _ => ?_) (fun _ => Core.touchIndex_sim _ _)
  refine Sim.lift_bind fun l _ => Sim.modify_bind (fun _ _ h => by rw [h.lists]; exact h.with_lists _) ?_
  have hT : (K.take t.load).length = (K'.take t.load).length := by simp [hK]
  have hD : (K.drop t.load).length = (K'.drop t.load).length := by simp [hK]
  refine Sim.modify_bind (fun _ _ h => h.with_keys (set_lens_rel h.keys _ hT)) ?_
  refine Sim.lift_rel (lastItem_rel hT) fun m m' _ => Sim.lift_rel (setItem_rel h.maxes p m m') fun M M' hM => ?_
  refine Sim.modify_bind (fun _ _ h => h.with_maxes hM) ?_
  refine Sim.modify_bind (fun _ _ h => by rw [h.lists]; exact h.with_lists _) ?_
  refine Sim.modify_bind (fun _ _ h => h.with_keys (insertAt_lens_rel h.keys _ hD)) ?_
  refine Sim.lift_rel (lastItem_rel hD) fun m m' _ =>
    Sim.modify_bind (fun _ _ h => h.with_maxes (insertAt_length_rel h.maxes _ _ _)) ?_
  exact Sim.modify fun _ _ h => h.with_index _

theorem delete_sim (p i : Nat) : Sim (delete p i : Py (St α κ) Unit) (delete p i : Py (St α κ') Unit) := by
  refine Sim.get_bind fun s t h => ?_
  have hkl : s.keys.length = t.keys.length := by simpa using congrArg List.length h.keys
  rw [h.lists, h.load, h.len, hkl]
  refine Sim.lift_rel (getItem_lens_rel h.keys p) fun K K' hK => Sim.lift_bind fun _ _ => ?_
  refine Sim.lift_rel (delItem_rel hK i) fun K K' hK => ?_
  refine Sim.modify_bind (fun _ _ h => h.with_keys (set_lens_rel h.keys _ hK)) ?_
  refine Sim.lift_bind fun _ _ => Sim.modify_bind (fun _ _ h => by rw [h.lists]; exact h.with_lists _) ?_
  refine Sim.lift_bind fun _ _ => Sim.modify_bind (fun _ _ h => h.with_len _) ?_
  refine Sim.ite (by rw [hK]) (fun _ => ?_) fun _ => ?_
  · refine Sim.lift_rel (lastItem_rel hK) fun m m' _ => Sim.lift_rel (setItem_rel h.maxes p m m') fun M M' hM => ?_
    exact Sim.modify_bind (fun _ _ h => h.with_maxes hM) (Core.touchIndex_sim _ _)
  refine Sim.ite Iff.rfl (fun _ => ?_) fun _ => ?_
  · refine Sim.get_bind fun s t h => ?_
    rw [h.lists]
    refine Sim.lift_rel (getItem_lens_rel h.keys _) fun ka ka' ha => Sim.lift_rel (getItem_lens_rel h.keys _) fun kb kb' hb => ?_
    have hab : (ka ++ kb).length = (ka' ++ kb').length := by simp [ha, hb]
    refine Sim.modify_bind (fun _ _ h => h.with_keys (set_lens_rel h.keys _ hab)) ?_
    refine Sim.lift_bind fun _ _ => Sim.lift_bind fun _ _ => ?_
    refine Sim.modify_bind (fun _ _ h => by rw [h.lists]; exact h.with_lists _) ?_
    refine Sim.lift_rel (lastItem_rel hab) fun m m' _ => Sim.lift_rel (setItem_rel h.maxes _ m m') fun M M' hM => ?_
    refine Sim.modify_bind (fun _ _ h => h.with_maxes hM) ?_
    refine Sim.get_bind fun s t h => ?_
    rw [h.lists]
    refine Sim.lift_bind fun _ _ => Sim.modify_bind (fun _ _ h => h.with_lists _) ?_
    refine Sim.lift_rel (delItem_lens_rel h.keys _) fun L L' hL => Sim.modify_bind (fun _ _ h => h.with_keys hL) ?_
    refine Sim.lift_rel (delItem_rel h.maxes _) fun M M' hM => Sim.modify_bind (fun _ _ h => h.with_maxes hM) ?_
    exact Sim.modify_bind (fun _ _ h => h.with_index _) (expand_sim _)
  refine Sim.ite (by rw [hK]) (fun _ => ?_) fun _ => ?_
  · refine Sim.lift_rel (lastItem_rel hK) fun m m' _ => Sim.lift_rel (setItem_rel h.maxes p m m') fun M M' hM => ?_
    exact Sim.modify (fun _ _ h => h.with_maxes hM)
  · refine Sim.get_bind fun s t h => ?_
    rw [h.lists]
    refine Sim.lift_bind fun _ _ => Sim.modify_bind (fun _ _ h => h.with_lists _) ?_
    refine Sim.lift_rel (delItem_lens_rel h.keys _) fun L L' hL => Sim.modify_bind (fun _ _ h => h.with_keys hL) ?_
    refine Sim.lift_rel (delItem_rel h.maxes _) fun M M' hM => Sim.modify_bind (fun _ _ h => h.with_maxes hM) ?_
    exact Sim.modify (fun _ _ h => h.with_index _)

end SKL
end Verif
