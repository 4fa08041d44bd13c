import Verif.Proofs.RaceCrowd
import Verif.Proofs.API
/-!
# A thread that runs alone

The programs of `Model/Race.lean`, run without interruption, do what the methods of `Model/SortedList.lean` and `Model/SortedKeyList.lean` do.
-/

namespace Verif
variable {α κ β γ δ : Type}

namespace Task
variable {σ : Type}

theorem alone_bind (m : Task σ β) (k : β → Task σ γ) (s : σ) : (m.bind k).alone s =
    match m.alone s with
    | some (.ok b, s') => (k b).alone s'
    | some (.error e, s') => some (.error e, s')
    | none => none := by
  induction m generalizing s with
  | ret x => cases x <;> rfl
  | act f g ih => exact ih s (f s)
  | spin => rfl

@[simp] theorem alone_bind' (m : Task σ β) (k : β → Task σ γ) (s : σ) : (m >>= k).alone s =
    match m.alone s with
    | some (.ok b, s') => (k b).alone s'
    | some (.error e, s') => some (.error e, s')
    | none => none := alone_bind m k s

@[simp] theorem alone_pure (b : β) (s : σ) : (pure b : Task σ β).alone s = some (.ok b, s) := rfl
@[simp] theorem alone_lift (x : Except PyErr β) (s : σ) : (lift x : Task σ β).alone s = some (x, s) := rfl
@[simp] theorem alone_raise (e : PyErr) (s : σ) : (raise e : Task σ β).alone s = some (.error e, s) := rfl
@[simp] theorem alone_see (f : σ → Except PyErr β) (s : σ) : (see f).alone s = some (f s, s) := rfl
theorem alone_map (f : β → γ) (m : Task σ β) (s : σ) : (f <$> m).alone s = (m.alone s).map fun r => (r.1.map f, r.2) := by
  show (m.bind fun b => .ret (.ok (f b))).alone s = _
  rw [alone_bind]
  rcases m.alone s with _ | ⟨_ | _, _⟩ <;> rfl

theorem alone_change (f : σ → Except PyErr σ) (s : σ) : (change f).alone s = some (match f s with | .ok s' => (.ok (), s') | .error e => (.error e, s)) := by
  simp only [change, alone]
  cases f s <;> rfl
end Task

namespace Race

@[simp] theorem alone_see (f : Shared α κ → β) (s : Shared α κ) : (see f).alone s = some (.ok (f s), s) := rfl
@[simp] theorem alone_assign (f : Shared α κ → Shared α κ) (s : Shared α κ) : (assign f).alone s = some (.ok (), f s) := rfl
@[simp] theorem alone_alloc (f : Shared α κ → List α) (s : Shared α κ) : (alloc f).alone s = some (.ok s.cells.length, { s with cells := s.cells ++ [f s] }) := rfl
@[simp] theorem alone_kalloc (f : Shared α κ → List κ) (s : Shared α κ) : (kalloc f).alone s = some (.ok s.kcells.length, { s with kcells := s.kcells ++ [f s] }) := rfl

theorem place_nat (n i : Nat) : place n i = if i < n then .ok i else .error .indexError := by
  unfold place
  by_cases h : i < n
  · rw [if_pos (by omega), if_pos h]; rfl
  · rw [if_neg (by omega), if_neg (by omega), if_neg h]

theorem place_last (n : Nat) : place n (-1) = if 0 < n then .ok (n - 1) else .error .indexError := by
  unfold place
  rw [if_neg (by omega)]
  by_cases h : 0 < n
  · rw [if_pos (by omega), if_pos h]; congr 1; omega
  · rw [if_neg (by omega), if_neg h]

theorem fetch_nat (l : List β) (i : Nat) : fetch l i = getItem l i := by
  unfold fetch
  rw [place_nat]
  split
  · rfl
  · rename_i h
    simp [getItem, List.getElem?_eq_none (Nat.le_of_not_lt h), bind, Except.bind]

theorem fetch_last (l : List β) : fetch l (-1) = lastItem l := by
  unfold fetch
  rw [place_last]
  split
  · rename_i h
    simp only [bind, Except.bind, getItem, lastItem, List.getLast?_eq_getElem?]
  · rename_i h
    have : l = [] := List.length_eq_zero_iff.1 (by omega)
    subst this; rfl

theorem store_nat (l : List β) (i : Nat) (x : β) : store l i x = setItem l i x := by
  unfold store setItem
  rw [place_nat]
  split <;> rfl

theorem remove_nat (l : List β) (i : Nat) : Race.remove l i = delItem l i := by
  unfold Race.remove delItem
  rw [place_nat]
  split <;> rfl

theorem insertAt_min (l : List β) (i : Nat) (x : β) : insertAt l (min i l.length) x = insertAt l i x := by
  unfold insertAt
  rcases Nat.le_total i l.length with h | h
  · rw [Nat.min_eq_left h]
  · rw [Nat.min_eq_right h, List.take_of_length_le h, List.drop_of_length_le h]; simp

theorem insert_nat (l : List β) (i : Nat) (x : β) : insert l i x = insertAt l i x := by
  unfold insert
  rw [if_neg (by omega)]
  exact insertAt_min l i x

/-! ## The object seen from outside -/

/-- The object `s` in memory is the object `t` of the other modules. -/
structure Mirrors (s : Shared α κ) (t : St α κ) : Prop where
  nodup : s.lists.Nodup
  valid : ∀ a ∈ s.lists, a < s.cells.length
  knodup : s.keys.Nodup
  kvalid : ∀ a ∈ s.keys, a < s.kcells.length
  lists : t.lists = s.lists.map s.cell
  keys : t.keys = s.keys.map s.kcell
  maxes : t.maxes = s.maxes
  index : s.index = t.index.map Int.ofNat
  offset : t.offset = s.offset
  len : s.len = t.len
  load : t.load = s.load

namespace Mirrors
variable {s : Shared α κ} {t : St α κ}

theorem of (t : St α κ) : Mirrors (Shared.of t) t where
  nodup := List.nodup_range
  valid := fun a h => by simpa [Shared.of] using h
  knodup := List.nodup_range
  kvalid := fun a h => by simpa [Shared.of] using h
  lists := by
    refine List.ext_getElem (by simp [Shared.of]) fun i h1 h2 => ?_
    simp [Shared.of, Shared.cell, List.getD_eq_getElem?_getD, h1]
  keys := by
    refine List.ext_getElem (by simp [Shared.of]) fun i h1 h2 => ?_
    simp [Shared.of, Shared.kcell, List.getD_eq_getElem?_getD, h1]
  maxes := rfl
  index := rfl
  offset := rfl
  len := rfl
  load := rfl

theorem contents (h : Mirrors s t) : s.contents = Core.iter t := by
  unfold Shared.contents Core.iter
  rw [h.lists, List.flatMap_def]

theorem getItem_lists (h : Mirrors s t) (p : Nat) : getItem t.lists p = (getItem s.lists p).map s.cell := by
  unfold getItem
  rw [h.lists, List.getElem?_map]
  cases s.lists[p]? <;> rfl

theorem getItem_keys (h : Mirrors s t) (p : Nat) : getItem t.keys p = (getItem s.keys p).map s.kcell := by
  unfold getItem
  rw [h.keys, List.getElem?_map]
  cases s.keys[p]? <;> rfl

theorem lastItem_lists (h : Mirrors s t) : lastItem t.lists = (lastItem s.lists).map s.cell := by
  unfold lastItem
  rw [h.lists, List.getLast?_map]
  cases s.lists.getLast? <;> rfl

theorem lists_length (h : Mirrors s t) : t.lists.length = s.lists.length := by rw [h.lists]; simp
theorem keys_length (h : Mirrors s t) : t.keys.length = s.keys.length := by rw [h.keys]; simp
theorem index_length (h : Mirrors s t) : s.index.length = t.index.length := by rw [h.index]; simp
theorem index_nil (h : Mirrors s t) : s.index = [] ↔ t.index = [] := by rw [h.index]; simp

end Mirrors

theorem map_put {cells : List (List β)} {addrs : List Nat} (hn : addrs.Nodup) {a p : Nat} (ha : addrs[p]? = some a) (hv : a < cells.length) (l : List β) :
    addrs.map (fun b => (cells.set a l).getD b []) = (addrs.map fun b => cells.getD b []).set p l := by
  refine List.ext_getElem? fun i => ?_
  have hp : p < addrs.length := (List.getElem?_eq_some_iff.1 ha).1
  rw [List.getElem?_map, List.getElem?_set]
  by_cases h : p = i
  · subst h
    rw [if_pos rfl, if_pos (by simpa using hp), ha]
    simp [List.getD_eq_getElem?_getD, hv]
  · rw [if_neg h, List.getElem?_map]
    cases hb : addrs[i]? with
    | none => rfl
    | some b =>
      have hab : a ≠ b := by
        rintro rfl
        obtain ⟨h1, e1⟩ := List.getElem?_eq_some_iff.1 ha
        obtain ⟨h2, e2⟩ := List.getElem?_eq_some_iff.1 hb
        exact h ((List.getElem_inj hn).1 (e1.trans e2.symm))
      simp [List.getD_eq_getElem?_getD, List.getElem?_set_ne hab]

theorem map_more {cells : List (List β)} {addrs : List Nat} (hv : ∀ a ∈ addrs, a < cells.length) (l : List β) :
    addrs.map (fun b => (cells ++ [l]).getD b []) = addrs.map fun b => cells.getD b [] :=
  List.map_congr_left fun a ha => by simp [List.getD_eq_getElem?_getD, List.getElem?_append_left (hv a ha)]

namespace Mirrors
variable {s : Shared α κ} {t : St α κ}

theorem put (h : Mirrors s t) {p a : Nat} (ha : s.lists[p]? = some a) (l : List α) : Mirrors (s.put a l) { t with lists := t.lists.set p l } where
  nodup := h.nodup
  valid := fun b hb => by simpa [Shared.put] using h.valid b hb
  knodup := h.knodup
  kvalid := h.kvalid
  lists := by
    show t.lists.set p l = s.lists.map fun b => (s.cells.set a l).getD b []
    rw [map_put h.nodup ha (h.valid a (List.mem_of_getElem? ha)), h.lists]; rfl
  keys := h.keys
  maxes := h.maxes
  index := h.index
  offset := h.offset
  len := h.len
  load := h.load

theorem kput (h : Mirrors s t) {p a : Nat} (ha : s.keys[p]? = some a) (l : List κ) : Mirrors (s.kput a l) { t with keys := t.keys.set p l } where
  nodup := h.nodup
  valid := h.valid
  knodup := h.knodup
  kvalid := fun b hb => by simpa [Shared.kput] using h.kvalid b hb
  lists := h.lists
  keys := by
    show t.keys.set p l = s.keys.map fun b => (s.kcells.set a l).getD b []
    rw [map_put h.knodup ha (h.kvalid a (List.mem_of_getElem? ha)), h.keys]; rfl
  maxes := h.maxes
  index := h.index
  offset := h.offset
  len := h.len
  load := h.load

theorem alloc (h : Mirrors s t) (l : List α) : Mirrors { s with cells := s.cells ++ [l] } t where
  nodup := h.nodup
  valid := fun b hb => by have := h.valid b hb; simp; omega
  knodup := h.knodup
  kvalid := h.kvalid
  lists := h.lists.trans (map_more h.valid l).symm
  keys := h.keys
  maxes := h.maxes
  index := h.index
  offset := h.offset
  len := h.len
  load := h.load

theorem kalloc (h : Mirrors s t) (l : List κ) : Mirrors { s with kcells := s.kcells ++ [l] } t where
  nodup := h.nodup
  valid := h.valid
  knodup := h.knodup
  kvalid := fun b hb => by have := h.kvalid b hb; simp; omega
  lists := h.lists
  keys := h.keys.trans (map_more h.kvalid l).symm
  maxes := h.maxes
  index := h.index
  offset := h.offset
  len := h.len
  load := h.load

theorem insertAt_perm (l : List β) (i : Nat) (x : β) : (insertAt l i x).Perm (x :: l) := by
  unfold insertAt
  conv => rhs; rw [← List.take_append_drop i l]
  exact List.perm_middle

theorem insertList (h : Mirrors s t) (p : Nat) {a : Nat} (hn : a ∉ s.lists) (hv : a < s.cells.length) :
    Mirrors { s with lists := insertAt s.lists p a } { t with lists := insertAt t.lists p (s.cell a) } where
  nodup := (insertAt_perm _ _ _).nodup_iff.2 (List.nodup_cons.2 ⟨hn, h.nodup⟩)
  valid := fun b hb => by
    rcases List.mem_cons.1 ((insertAt_perm _ _ _).mem_iff.1 hb) with rfl | hb
    · exact hv
    · exact h.valid b hb
  knodup := h.knodup
  kvalid := h.kvalid
  lists := by
    show insertAt t.lists p (s.cell a) = (insertAt s.lists p a).map s.cell
    rw [h.lists]; simp [insertAt]
  keys := h.keys
  maxes := h.maxes
  index := h.index
  offset := h.offset
  len := h.len
  load := h.load

theorem insertKeys (h : Mirrors s t) (p : Nat) {a : Nat} (hn : a ∉ s.keys) (hv : a < s.kcells.length) :
    Mirrors { s with keys := insertAt s.keys p a } { t with keys := insertAt t.keys p (s.kcell a) } where
  nodup := h.nodup
  valid := h.valid
  knodup := (insertAt_perm _ _ _).nodup_iff.2 (List.nodup_cons.2 ⟨hn, h.knodup⟩)
  kvalid := fun b hb => by
    rcases List.mem_cons.1 ((insertAt_perm _ _ _).mem_iff.1 hb) with rfl | hb
    · exact hv
    · exact h.kvalid b hb
  lists := h.lists
  keys := by
    show insertAt t.keys p (s.kcell a) = (insertAt s.keys p a).map s.kcell
    rw [h.keys]; simp [insertAt]
  maxes := h.maxes
  index := h.index
  offset := h.offset
  len := h.len
  load := h.load

theorem setMaxes (h : Mirrors s t) (m : List κ) : Mirrors { s with maxes := m } { t with maxes := m } := { h with maxes := rfl }
theorem setLen (h : Mirrors s t) {n : Int} {m : Nat} (e : n = m) : Mirrors { s with len := n } { t with len := m } := { h with len := e }
theorem setIndex (h : Mirrors s t) (i : List Nat) : Mirrors { s with index := i.map Int.ofNat } { t with index := i } := { h with index := rfl }
theorem setOffset (h : Mirrors s t) (o : Nat) : Mirrors { s with offset := o } { t with offset := o } := { h with offset := rfl }
theorem dropIndex (h : Mirrors s t) : Mirrors { s with index := [] } { t with index := [] } := { h with index := rfl }

theorem eraseList (h : Mirrors s t) (p : Nat) : Mirrors { s with lists := s.lists.eraseIdx p } { t with lists := t.lists.eraseIdx p } :=
  { h with
    nodup := h.nodup.sublist (List.eraseIdx_sublist ..)
    valid := fun b hb => h.valid b ((List.eraseIdx_sublist ..).subset hb)
    lists := by
      show t.lists.eraseIdx p = (s.lists.eraseIdx p).map s.cell
      rw [h.lists]; simp [List.eraseIdx_eq_take_drop_succ] }

theorem eraseKeys (h : Mirrors s t) (p : Nat) : Mirrors { s with keys := s.keys.eraseIdx p } { t with keys := t.keys.eraseIdx p } :=
  { h with
    knodup := h.knodup.sublist (List.eraseIdx_sublist ..)
    kvalid := fun b hb => h.kvalid b ((List.eraseIdx_sublist ..).subset hb)
    keys := by
      show t.keys.eraseIdx p = (s.keys.eraseIdx p).map s.kcell
      rw [h.keys]; simp [List.eraseIdx_eq_take_drop_succ] }

theorem noLists (h : Mirrors s t) : Mirrors { s with lists := [] } { t with lists := [] } :=
  { h with nodup := List.nodup_nil, valid := by simp, lists := rfl }
theorem noKeys (h : Mirrors s t) : Mirrors { s with keys := [] } { t with keys := [] } :=
  { h with knodup := List.nodup_nil, kvalid := by simp, keys := rfl }

end Mirrors

/-! ## Both sides step by step -/

/-- The program `m` from `s`, alone, ends with the same result and the same object as `p` from `t`. -/
def Agrees (f : γ → β) (m : Run α κ β) (s : Shared α κ) (p : Py (St α κ) γ) (t : St α κ) : Prop :=
  (p t).1 = .error .modelGap ∨ ∃ s', m.alone s = some ((p t).1.map f, s') ∧ Mirrors s' (p t).2

namespace Agrees
variable {s : Shared α κ} {t : St α κ} {f : γ → β} {ε : Type}

theorem bind {g : ε → δ} {m : Run α κ β} {p : Py (St α κ) γ} {k : β → Run α κ δ} {q : γ → Py (St α κ) ε} (h : Agrees f m s p t)
    (hk : ∀ c s' t', p t = (.ok c, t') → m.alone s = some (.ok (f c), s') → Mirrors s' t' → Agrees g (k (f c)) s' (q c) t') : Agrees g (m >>= k) s (p >>= q) t := by
  unfold Agrees at *
  rcases hp : p t with ⟨_ | c, t'⟩
  · rw [Py.bind_error hp]
    rw [hp] at h
    rcases h with h | ⟨s', e, hm⟩
    · exact .inl (by cases h; rfl)
    · refine .inr ⟨s', ?_, hm⟩
      rw [Task.alone_bind', e]; rfl
  · rw [Py.bind_ok hp]
    rw [hp] at h
    rcases h with h | ⟨s', e, hm⟩
    · cases h
    · have := hk c s' t' hp e hm
      rw [Task.alone_bind', e]
      exact this

theorem ret {m : Run α κ β} {p : Py (St α κ) γ} {c : γ} {s' : Shared α κ} {t' : St α κ} (e : m.alone s = some (.ok (f c), s')) (e' : p t = (.ok c, t')) (h : Mirrors s' t') :
    Agrees f m s p t := .inr ⟨s', by rw [e', e]; rfl, by rw [e']; exact h⟩

theorem pure {b : β} {c : γ} (h : Mirrors s t) (e : b = f c) : Agrees f (Pure.pure b) s (Pure.pure c) t := .inr ⟨s, by subst e; rfl, h⟩

theorem raise {e : PyErr} (h : Mirrors s t) : Agrees f (Task.raise e) s (Py.raise e) t := .inr ⟨s, rfl, h⟩

variable {g : ε → δ} {p : Py (St α κ) ε}

theorem left {m : Run α κ β} {k : β → Run α κ δ} {b : β} {s' : Shared α κ} (e : m.alone s = some (.ok b, s')) (h : Agrees g (k b) s' p t) : Agrees g (m >>= k) s p t := by
  unfold Agrees at *
  rw [Task.alone_bind', e]
  exact h

theorem see {φ : Shared α κ → β} {k : β → Run α κ δ} (h : Agrees g (k (φ s)) s p t) : Agrees g (Race.see φ >>= k) s p t := h
theorem assign {φ : Shared α κ → Shared α κ} {k : Unit → Run α κ δ} (h : Agrees g (k ()) (φ s) p t) : Agrees g (Race.assign φ >>= k) s p t := h
theorem alter {a : Nat} {φ : List α → List α} {k : Unit → Run α κ δ} (h : Agrees g (k ()) (s.put a (φ (s.cell a))) p t) : Agrees g (Race.alter a φ >>= k) s p t := h
theorem kalter {a : Nat} {φ : List κ → List κ} {k : Unit → Run α κ δ} (h : Agrees g (k ()) (s.kput a (φ (s.kcell a))) p t) : Agrees g (Race.kalter a φ >>= k) s p t := h
theorem dropIndex {k : Unit → Run α κ δ} (h : Agrees g (k ()) { s with index := [] } p t) : Agrees g (Race.dropIndex >>= k) s p t := h
theorem addLen {d : Int} {k : Unit → Run α κ δ} (h : Agrees g (k ()) { s with len := s.len + d } p t) : Agrees g (Race.addLen d >>= k) s p t := h
theorem alloc {φ : Shared α κ → List α} {k : Nat → Run α κ δ} (h : Agrees g (k s.cells.length) { s with cells := s.cells ++ [φ s] } p t) : Agrees g (Race.alloc φ >>= k) s p t := h
theorem kalloc {φ : Shared α κ → List κ} {k : Nat → Run α κ δ} (h : Agrees g (k s.kcells.length) { s with kcells := s.kcells ++ [φ s] } p t) : Agrees g (Race.kalloc φ >>= k) s p t := h

theorem get {m : Run α κ δ} {q : St α κ → Py (St α κ) ε} (h : Agrees g m s (q t) t) : Agrees g m s (Py.get >>= q) t := h
theorem modify {m : Run α κ δ} {φ : St α κ → St α κ} {q : Unit → Py (St α κ) ε} (h : Agrees g m s (q ()) (φ t)) : Agrees g m s (Py.modify φ >>= q) t := h

theorem reads {m : Run α κ β} {k : β → Run α κ δ} {q : γ → Py (St α κ) ε} {x : Except PyErr β} {y : Except PyErr γ} (φ : β → γ) (hx : m.alone s = some (x, s)) (hy : y = x.map φ)
    (hM : Mirrors s t) (hk : ∀ b, x = .ok b → Agrees g (k b) s (q (φ b)) t) : Agrees g (m >>= k) s (Py.lift y >>= q) t := by
  cases x with
  | error e => subst hy; exact .inr ⟨s, by rw [Task.alone_bind', hx]; rfl, hM⟩
  | ok b =>
    subst hy
    exact left hx (hk b rfl)

/-- A read that `p` makes as well; what it yields is the same. -/
theorem reads' {m : Run α κ β} {k : β → Run α κ δ} {q : β → Py (St α κ) ε} {x : Except PyErr β} (hx : m.alone s = some (x, s))
    (hM : Mirrors s t) (hk : ∀ b, x = .ok b → Agrees g (k b) s (q b) t) : Agrees g (m >>= k) s (Py.lift x >>= q) t :=
  reads id hx (by cases x <;> rfl) hM hk

theorem lift {k : β → Run α κ δ} {q : β → Py (St α κ) ε} {x : Except PyErr β} (hM : Mirrors s t) (hk : ∀ b, x = .ok b → Agrees g (k b) s (q b) t) :
    Agrees g (Task.lift x >>= k) s (Py.lift x >>= q) t := reads' rfl hM hk

theorem sublist {k : Nat → Run α κ δ} {q : List α → Py (St α κ) ε} {i : Nat} (hM : Mirrors s t) (hk : ∀ a, s.lists[i]? = some a → Agrees g (k a) s (q (s.cell a)) t) :
    Agrees g (Race.sublist i >>= k) s (Py.lift (getItem t.lists i) >>= q) t :=
  reads s.cell (x := getItem s.lists i) (by simp [Race.sublist, fetch_nat]) (hM.getItem_lists i) hM fun a ha => hk a (getItem_ok_iff.1 ha)

theorem subkeys {k : Nat → Run α κ δ} {q : List κ → Py (St α κ) ε} {i : Nat} (hM : Mirrors s t) (hk : ∀ a, s.keys[i]? = some a → Agrees g (k a) s (q (s.kcell a)) t) :
    Agrees g (Race.subkeys i >>= k) s (Py.lift (getItem t.keys i) >>= q) t :=
  reads s.kcell (x := getItem s.keys i) (by simp [Race.subkeys, fetch_nat]) (hM.getItem_keys i) hM fun a ha => hk a (getItem_ok_iff.1 ha)

/-- A sublist that is fetched again -/
theorem again {k : Nat → Run α κ δ} {i a : Nat} (ha : s.lists[i]? = some a) (h : Agrees g (k a) s p t) : Agrees g (Race.sublist i >>= k) s p t :=
  left (b := a) (s' := s) (by simp [Race.sublist, fetch_nat, getItem, ha]) h

theorem kagain {k : Nat → Run α κ δ} {i a : Nat} (ha : s.keys[i]? = some a) (h : Agrees g (k a) s p t) : Agrees g (Race.subkeys i >>= k) s p t :=
  left (b := a) (s' := s) (by simp [Race.subkeys, fetch_nat, getItem, ha]) h

theorem sublist_last {k : Nat → Run α κ δ} {q : List α → Py (St α κ) ε} (hM : Mirrors s t) (hk : ∀ a, s.lists.getLast? = some a → Agrees g (k a) s (q (s.cell a)) t) :
    Agrees g (Race.sublist (-1) >>= k) s (Py.lift (lastItem t.lists) >>= q) t :=
  reads s.cell (x := lastItem s.lists) (by simp [Race.sublist, fetch_last]) hM.lastItem_lists hM fun a ha => hk a (by
    unfold lastItem at ha
    split at ha
    · cases ha; assumption
    · cases ha)

theorem entry {k : α → Run α κ δ} {q : α → Py (St α κ) ε} {a i : Nat} {l : List α} (hl : s.cell a = l) (hM : Mirrors s t) (hk : ∀ x, getItem l i = .ok x → Agrees g (k x) s (q x) t) :
    Agrees g (Race.entry a i >>= k) s (Py.lift (getItem l i) >>= q) t :=
  reads' (by simp [Race.entry, fetch_nat, hl]) hM hk

theorem entry_last {k : α → Run α κ δ} {q : α → Py (St α κ) ε} {a : Nat} {l : List α} (hl : s.cell a = l) (hM : Mirrors s t) (hk : ∀ x, lastItem l = .ok x → Agrees g (k x) s (q x) t) :
    Agrees g (Race.entry a (-1) >>= k) s (Py.lift (lastItem l) >>= q) t :=
  reads' (by simp [Race.entry, fetch_last, hl]) hM hk

theorem kentry_last {k : κ → Run α κ δ} {q : κ → Py (St α κ) ε} {a : Nat} {l : List κ} (hl : s.kcell a = l) (hM : Mirrors s t) (hk : ∀ x, lastItem l = .ok x → Agrees g (k x) s (q x) t) :
    Agrees g (Race.kentry a (-1) >>= k) s (Py.lift (lastItem l) >>= q) t :=
  reads' (by simp [Race.kentry, fetch_last, hl]) hM hk

/-- A change that may fail, made of a read and an assignment in `p` -/
theorem writes {φ : Shared α κ → Except PyErr (Shared α κ)} {put : γ → Shared α κ} {k : Unit → Run α κ δ} {q : γ → Py (St α κ) ε} {x : Except PyErr γ} (hx : φ s = put <$> x)
    (hM : Mirrors s t) (hk : ∀ c, x = .ok c → Agrees g (k ()) (put c) (q c) t) : Agrees g (Task.change φ >>= k) s (Py.lift x >>= q) t := by
  cases x with
  | error e => exact .inr ⟨s, by rw [Task.alone_bind', Task.alone_change, hx]; rfl, hM⟩
  | ok c => exact left (by rw [Task.alone_change, hx]; rfl) (hk c rfl)

theorem setMax {k : Unit → Run α κ δ} {q : List κ → Py (St α κ) ε} {i : Nat} {m : κ} {ms : List κ} (e : ms = s.maxes) (hM : Mirrors s t)
    (hk : ∀ x, setItem ms i m = .ok x → Agrees g (k ()) { s with maxes := x } (q x) t) : Agrees g (Race.setMax i m >>= k) s (Py.lift (setItem ms i m) >>= q) t := by
  subst e; exact writes (put := fun x => { s with maxes := x }) (by rw [store_nat]) hM hk

theorem dropMax {k : Unit → Run α κ δ} {q : List κ → Py (St α κ) ε} {i : Nat} {ms : List κ} (e : ms = s.maxes) (hM : Mirrors s t)
    (hk : ∀ x, delItem ms i = .ok x → Agrees g (k ()) { s with maxes := x } (q x) t) : Agrees g (Race.dropMax i >>= k) s (Py.lift (delItem ms i) >>= q) t := by
  subst e; exact writes (put := fun x => { s with maxes := x }) (by rw [remove_nat]) hM hk

theorem dropList {k : Unit → Run α κ δ} {q : List (List α) → Py (St α κ) ε} {i : Nat} {l : List (List α)} (e : l = t.lists) (hM : Mirrors s t)
    (hk : i < s.lists.length → Agrees g (k ()) { s with lists := s.lists.eraseIdx i } (q (l.eraseIdx i)) t) : Agrees g (Race.dropList i >>= k) s (Py.lift (delItem l i) >>= q) t := by
  subst e
  have := hM.lists_length
  by_cases h : i < s.lists.length
  · rw [show delItem t.lists i = .ok (t.lists.eraseIdx i) by unfold delItem; rw [if_pos (by omega)]]
    exact left (by rw [Race.dropList, Task.alone_change, remove_nat, show delItem s.lists i = .ok (s.lists.eraseIdx i) by unfold delItem; rw [if_pos h]]; rfl) (hk h)
  · rw [show delItem t.lists i = .error .indexError by unfold delItem; rw [if_neg (by omega)]]
    exact .inr ⟨s, by rw [Task.alone_bind', Race.dropList, Task.alone_change, remove_nat, show delItem s.lists i = .error .indexError by unfold delItem; rw [if_neg h]]; rfl, hM⟩

theorem dropKeys {k : Unit → Run α κ δ} {q : List (List κ) → Py (St α κ) ε} {i : Nat} {l : List (List κ)} (e : l = t.keys) (hM : Mirrors s t)
    (hk : i < s.keys.length → Agrees g (k ()) { s with keys := s.keys.eraseIdx i } (q (l.eraseIdx i)) t) : Agrees g (Race.dropKeys i >>= k) s (Py.lift (delItem l i) >>= q) t := by
  subst e
  have := hM.keys_length
  by_cases h : i < s.keys.length
  · rw [show delItem t.keys i = .ok (t.keys.eraseIdx i) by unfold delItem; rw [if_pos (by omega)]]
    exact left (by rw [Race.dropKeys, Task.alone_change, remove_nat, show delItem s.keys i = .ok (s.keys.eraseIdx i) by unfold delItem; rw [if_pos h]]; rfl) (hk h)
  · rw [show delItem t.keys i = .error .indexError by unfold delItem; rw [if_neg (by omega)]]
    exact .inr ⟨s, by rw [Task.alone_bind', Race.dropKeys, Task.alone_change, remove_nat, show delItem s.keys i = .error .indexError by unfold delItem; rw [if_neg h]]; rfl, hM⟩

theorem ite {c c' : Prop} [Decidable c] [Decidable c'] (hc : c ↔ c') {m m' : Run α κ δ} {q q' : Py (St α κ) ε} (h1 : c → Agrees g m s q t) (h2 : ¬ c → Agrees g m' s q' t) :
    Agrees g (if c then m else m') s (if c' then q else q') t := by
  by_cases h : c
  · rw [if_pos h, if_pos (hc.1 h)]; exact h1 h
  · rw [if_neg h, if_neg (fun h' => h (hc.2 h'))]; exact h2 h

end Agrees
/-! ## Loops -/

theorem alone_bisectLoop {lt : κ → κ → Except PyErr Bool} {right : Bool} {get : Nat → Run α κ κ} {a : List κ} {x : κ} {s : Shared α κ} (hget : ∀ i, (get i).alone s = some (getItem a i, s)) :
    ∀ rounds lo hi, hi - lo ≤ rounds → (bisectLoop lt right get x rounds lo hi).alone s = some (if right then bisectRightLoop lt a x lo hi else bisectLeftLoop lt a x lo hi, s) := by
  intro rounds
  induction rounds with
  | zero =>
    intro lo hi h
    cases right
    · rw [bisectLeftLoop, dif_neg (by omega)]; rfl
    · rw [bisectRightLoop, dif_neg (by omega)]; rfl
  | succ n ih =>
    intro lo hi h
    unfold bisectLoop
    by_cases hlt : lo < hi
    · rw [if_pos hlt, Task.alone_bind', hget]
      cases right
      · rw [bisectLeftLoop, dif_pos hlt]
        cases getItem a ((lo + hi) / 2) with
        | error e => rfl
        | ok y =>
          simp only [Task.alone_bind', Task.alone_lift, Bool.false_eq_true, if_false]
          cases lt y x with
          | error e => rfl
          | ok b =>
            cases b
            · simpa using ih lo ((lo + hi) / 2) (by omega)
            · simpa using ih ((lo + hi) / 2 + 1) hi (by omega)
      · rw [bisectRightLoop, dif_pos hlt]
        cases getItem a ((lo + hi) / 2) with
        | error e => rfl
        | ok y =>
          simp only [Task.alone_bind', Task.alone_lift, if_true]
          cases lt x y with
          | error e => rfl
          | ok b =>
            cases b
            · simpa using ih ((lo + hi) / 2 + 1) hi (by omega)
            · simpa using ih lo ((lo + hi) / 2) (by omega)
    · rw [if_neg hlt]
      cases right
      · rw [bisectLeftLoop, dif_neg hlt]; rfl
      · rw [bisectRightLoop, dif_neg hlt]; rfl

theorem alone_bisectMaxes (lt : κ → κ → Except PyErr Bool) (right : Bool) (x : κ) (s : Shared α κ) :
    (bisectMaxes lt right x).alone s = some (if right then bisectRight lt s.maxes x else bisectLeft lt s.maxes x, s) := by
  show (bisectLoop lt right (fun i => Task.see fun s => fetch s.maxes i) x s.maxes.length 0 s.maxes.length).alone s = _
  rw [alone_bisectLoop (a := s.maxes) (fun i => by simp [fetch_nat]) _ _ _ (by omega)]
  rfl

theorem alone_SL_bisectCell (E : Env α) (right : Bool) (a : Nat) (x : α) (s : Shared α α) :
    (SL.bisectCell E right a x).alone s = some (if right then bisectRight E.lt (s.cell a) x else bisectLeft E.lt (s.cell a) x, s) := by
  show (bisectLoop E.lt right (fun i => entry a i) x (s.cell a).length 0 (s.cell a).length).alone s = _
  rw [alone_bisectLoop (a := s.cell a) (fun i => by simp [entry, fetch_nat]) _ _ _ (by omega)]
  rfl

theorem alone_SKL_bisectCell (K : KEnv α κ) (right : Bool) (a : Nat) (x : κ) (s : Shared α κ) :
    (SKL.bisectCell K right a x).alone s = some (if right then bisectRight K.lt (s.kcell a) x else bisectLeft K.lt (s.kcell a) x, s) := by
  show (bisectLoop K.lt right (fun i => kentry a i) x (s.kcell a).length 0 (s.kcell a).length).alone s = _
  rw [alone_bisectLoop (a := s.kcell a) (fun i => by simp [kentry, fetch_nat]) _ _ _ (by omega)]
  rfl

theorem getItem_map (φ : β → γ) (l : List β) (i : Nat) : getItem (l.map φ) i = (getItem l i).map φ := by
  unfold getItem
  rw [List.getElem?_map]
  cases l[i]? <;> rfl

theorem alone_locLoop {s : Shared α κ} {index : List Nat} (hi : s.index = index.map Int.ofNat) :
    ∀ rounds pos (total : Nat), pos ≤ rounds → (locLoop rounds pos total).alone s = some ((Core.locLoop index pos total).map Int.ofNat, s) := by
  intro rounds
  induction rounds with
  | zero =>
    intro pos total h
    rw [Core.locLoop, dif_pos (by omega)]; rfl
  | succ n ih =>
    intro pos total h
    unfold locLoop
    rw [Core.locLoop]
    by_cases h0 : pos = 0
    · rw [if_pos h0, dif_pos h0]; rfl
    · rw [if_neg h0, dif_neg h0]
      by_cases h2 : pos % 2 = 0
      · rw [if_pos h2, if_pos h2, Task.alone_bind', Task.alone_see, fetch_nat, hi, getItem_map]
        cases getItem index (pos - 1) with
        | error e => rfl
        | ok x => exact ih ((pos - 1) / 2) (total + x) (by omega)
      · rw [if_neg h2, if_neg h2]
        exact ih ((pos - 1) / 2) total (by omega)

theorem alone_posLoop {s : Shared α κ} {index : List Nat} (hi : s.index = index.map Int.ofNat) :
    ∀ rounds pos child (idx : Nat), index.length ≤ rounds + child →
      (posLoop index.length rounds pos child idx).alone s = some (.ok ((Core.posLoop index pos child idx).1, ((Core.posLoop index pos child idx).2 : Int)), s) := by
  intro rounds
  induction rounds with
  | zero =>
    intro pos child idx h
    rw [Core.posLoop, dif_neg (by omega)]; rfl
  | succ n ih =>
    intro pos child idx h
    unfold posLoop
    rw [Core.posLoop]
    by_cases h0 : child < index.length
    · rw [if_pos h0, dif_pos h0, Task.alone_bind', Task.alone_see, fetch_nat, hi, getItem_map, show getItem index child = .ok index[child] by simp [getItem, h0]]
      show Task.alone (if (idx : Int) < (index[child] : Nat) then _ else _) s = _
      by_cases h1 : idx < index[child]
      · rw [if_pos (by omega), if_pos h1]
        have := ih child (2 * child + 1) idx (by omega)
        rw [Nat.mul_comm 2] at this ⊢
        exact this
      · rw [if_neg (by omega), if_neg h1]
        have := ih (child + 1) (2 * (child + 1) + 1) (idx - index[child]) (by omega)
        rw [Nat.mul_comm 2, Int.ofNat_sub (by omega)] at this
        rw [Nat.mul_comm 2]
        exact this
    · rw [if_neg h0, dif_neg h0]; rfl

theorem alone_bump {s : Shared α κ} {index : List Nat} (hi : s.index = index.map Int.ofNat) {d : Int} {child y : Nat} (h : child < index.length) (hy : (index[child] : Int) + d = y) :
    (bump d child).alone s = some (.ok (), { s with index := (index.set child y).map Int.ofNat }) := by
  unfold bump
  rw [Task.alone_bind', Task.alone_see, fetch_nat, hi, getItem_map, show getItem index child = .ok index[child] by simp [getItem, h]]
  show Task.alone (Task.change _) s = _
  rw [Task.alone_change, store_nat, hi, setItem, if_pos (by simpa using h), List.map_set]
  show some (Except.ok (), _) = _
  rw [show (Int.ofNat index[child]) + d = Int.ofNat y from hy]

theorem alone_climb {f : Nat → Except PyErr Nat} {d : Int} (hf : ∀ x y, f x = .ok y → (x : Int) + d = y) : ∀ rounds child (index index' : List Nat) (s : Shared α κ), child ≤ rounds →
    s.index = index.map Int.ofNat → child < index.length → Core.bumpPath f index child = .ok index' →
    (climb d rounds child >>= fun _ => bump d 0).alone s = some (.ok (), { s with index := index'.map Int.ofNat }) := by
  intro rounds
  induction rounds with
  | zero =>
    intro child index index' s h hi hc e
    have h0 : child = 0 := by omega
    subst h0
    rw [Core.bumpPath, show getItem index 0 = .ok index[0] by simp [getItem, hc]] at e
    cases hy : f index[0] with
    | error e' => simp [hy] at e
    | ok y =>
      simp only [hy, dif_pos] at e
      cases e
      exact alone_bump hi hc (hf _ _ hy)
  | succ n ih =>
    intro child index index' s h hi hc e
    rw [Core.bumpPath, show getItem index child = .ok index[child] by simp [getItem, hc]] at e
    cases hy : f index[child] with
    | error e' => simp [hy] at e
    | ok y =>
      by_cases h0 : child = 0
      · subst h0
        simp only [hy, dif_pos] at e
        cases e
        exact alone_bump hi hc (hf _ _ hy)
      · simp only [hy, dif_neg h0] at e
        have hb := alone_bump (s := s) hi hc (hf _ _ hy)
        have := ih ((child - 1) / 2) _ index' { s with index := (index.set child y).map Int.ofNat } (by omega) rfl (by simp; omega) e
        unfold climb
        rw [if_pos (by omega), Task.alone_bind', Task.alone_bind', hb]
        rw [Task.alone_bind'] at this
        rw [show (((child : Int) - 1) / 2) = (((child - 1) / 2 : Nat) : Int) by omega]
        exact this

end Race
end Verif
