import Verif.Model.Heap
import Verif.Proofs.Basic
import Verif.Proofs.Iter
/-!
# The methods on list objects do what the methods on values do, and touch nothing else
-/

namespace Verif
namespace Heap

/-! ## One kind of list objects -/

section Part
variable {β : Type} {m m0 m1 : List (List β)} {as as0 as1 : List Nat} {ls : List (List β)}

/-- The list objects at `as` are the lists `ls` of one owner: different objects, all of them there.  Compared with an
earlier time (`m0`, `as0`), the owner has changed only its own objects, and owns only objects that it owned then or that
are new. -/
structure Part (m0 : List (List β)) (as0 : List Nat) (m : List (List β)) (as : List Nat) (ls : List (List β)) : Prop where
  nodup : as.Nodup
  bound : ∀ a ∈ as, a < m.length
  len : m0.length ≤ m.length
  keep : ∀ a, a < m0.length → a ∉ as0 → m.getD a [] = m0.getD a []
  own : ∀ a ∈ as, a ∈ as0 ∨ m0.length ≤ a
  eq : ls = as.map fun a => m.getD a []

/-- A list object that is new and that the owner does not own. -/
structure Fresh (m0 m : List (List β)) (as : List Nat) (b : Nat) : Prop where
  new : m0.length ≤ b
  bound : b < m.length
  free : b ∉ as

theorem getD_set_self {a : Nat} {l : List β} (h : a < m.length) : (m.set a l).getD a [] = l := by
  simp [h]

theorem getD_set_ne {a b : Nat} {l : List β} (h : a ≠ b) : (m.set a l).getD b [] = m.getD b [] := by
  simp [List.getElem?_set, h]

theorem getD_push_lt {b : Nat} {l : List β} (h : b < m.length) : (m ++ [l]).getD b [] = m.getD b [] := by
  simp [List.getElem?_append_left h]

theorem getD_push_self {l : List β} : (m ++ [l]).getD m.length [] = l := by simp

namespace Part

theorem refl (hn : as.Nodup) (hb : ∀ a ∈ as, a < m.length) : Part m as m as (as.map fun a => m.getD a []) :=
  ⟨hn, hb, Nat.le_refl _, fun _ _ _ => rfl, fun _ h => .inl h, rfl⟩

theorem trans {ls1 : List (List β)} (h : Part m0 as0 m1 as1 ls1) (h' : Part m1 as1 m as ls) : Part m0 as0 m as ls where
  nodup := h'.nodup
  bound := h'.bound
  len := Nat.le_trans h.len h'.len
  keep a ha hn := by
    have : a ∉ as1 := fun hm => (h.own a hm).elim hn (by omega)
    rw [h'.keep a (Nat.lt_of_lt_of_le ha h.len) this, h.keep a ha hn]
  own a ha := by
    rcases h'.own a ha with h1 | h1
    · exact h.own a h1
    · exact .inr (Nat.le_trans h.len h1)
  eq := h'.eq

theorem length_eq (h : Part m0 as0 m as ls) : ls.length = as.length := by rw [h.eq, List.length_map]

theorem getElem? (h : Part m0 as0 m as ls) {p : Nat} {a : Nat} (ha : as[p]? = some a) : ls[p]? = some (m.getD a []) := by
  rw [h.eq, List.getElem?_map, ha]; rfl

/-- Change one of the owner's objects in place. -/
theorem put (h : Part m0 as0 m as ls) {p : Nat} {a : Nat} (ha : as[p]? = some a) (l : List β) :
    Part m0 as0 (m.set a l) as (ls.set p l) where
  nodup := h.nodup
  bound b hb := by rw [List.length_set]; exact h.bound b hb
  len := by rw [List.length_set]; exact h.len
  keep b hb hn := by
    have hne : a ≠ b := fun e => by
      rcases h.own a (List.mem_of_getElem? ha) with h1 | h1
      · exact hn (e ▸ h1)
      · omega
    rw [getD_set_ne hne, h.keep b hb hn]
  own := h.own
  eq := by
    have hp : p < as.length := (List.getElem?_eq_some_iff.1 ha).1
    apply List.ext_getElem?
    intro i
    rw [List.getElem?_set, h.eq, List.length_map]
    by_cases hi : p = i
    · subst hi
      rw [if_pos rfl, if_pos hp, List.getElem?_map, ha, Option.map_some, getD_set_self (h.bound a (List.mem_of_getElem? ha))]
    · rw [if_neg hi, List.getElem?_map, List.getElem?_map]
      cases hb : as[i]? with
      | none => rfl
      | some b =>
        have hne : a ≠ b := fun e => by
          subst e
          exact hi ((List.getElem?_inj hp h.nodup).1 (ha.trans hb.symm))
        rw [Option.map_some, Option.map_some, getD_set_ne hne]

/-- Change an object that is new and not one of the owner's. -/
theorem putFresh (h : Part m0 as0 m as ls) {b : Nat} (hb : Fresh m0 m as b) (l : List β) :
    Part m0 as0 (m.set b l) as ls where
  nodup := h.nodup
  bound a ha := by rw [List.length_set]; exact h.bound a ha
  len := by rw [List.length_set]; exact h.len
  keep a ha hn := by
    rw [getD_set_ne (fun e => by have := hb.new; omega), h.keep a ha hn]
  own := h.own
  eq := by
    rw [h.eq]
    apply List.map_congr_left
    intro a ha
    have hne : b ≠ a := fun e => hb.free (e ▸ ha)
    rw [getD_set_ne hne]

/-- A new object. -/
theorem push (h : Part m0 as0 m as ls) (l : List β) : Part m0 as0 (m ++ [l]) as ls where
  nodup := h.nodup
  bound a ha := by have := h.bound a ha; simp; omega
  len := by have := h.len; simp; omega
  keep a ha hn := by rw [getD_push_lt (Nat.lt_of_lt_of_le ha h.len), h.keep a ha hn]
  own := h.own
  eq := by
    rw [h.eq]
    apply List.map_congr_left
    intro a ha
    rw [getD_push_lt (h.bound a ha)]

theorem fresh_push (h : Part m0 as0 m as ls) (l : List β) : Fresh m0 (m ++ [l]) as m.length where
  new := h.len
  bound := by rw [List.length_append]; simp
  free ha := Nat.lt_irrefl _ (h.bound _ ha)

/-- Take a new object over. -/
theorem insert (h : Part m0 as0 m as ls) {b : Nat} (hb : Fresh m0 m as b) {l : List β} (hl : m.getD b [] = l) (p : Nat) :
    Part m0 as0 m (insertAt as p b) (insertAt ls p l) where
  nodup := by
    have hp : (insertAt as p b).Perm (b :: as) := by
      unfold insertAt
      exact List.perm_middle.trans (by rw [List.take_append_drop])
    exact hp.nodup_iff.2 (List.nodup_cons.2 ⟨hb.free, h.nodup⟩)
  bound a ha := by
    have : a ∈ b :: as := by
      unfold insertAt at ha
      have := List.perm_middle.mem_iff.1 ha
      rwa [List.take_append_drop] at this
    rcases List.mem_cons.1 this with rfl | h1
    · exact hb.bound
    · exact h.bound a h1
  len := h.len
  keep := h.keep
  own a ha := by
    have : a ∈ b :: as := by
      unfold insertAt at ha
      have := List.perm_middle.mem_iff.1 ha
      rwa [List.take_append_drop] at this
    rcases List.mem_cons.1 this with rfl | h1
    · exact .inr hb.new
    · exact h.own a h1
  eq := by rw [h.eq, ← hl]; simp [insertAt, List.map_take, List.map_drop]

theorem insertAt_length {γ : Type} (l : List γ) (x : γ) : insertAt l l.length x = l ++ [x] := by simp [insertAt]

theorem append (h : Part m0 as0 m as ls) {b : Nat} (hb : Fresh m0 m as b) {l : List β} (hl : m.getD b [] = l) :
    Part m0 as0 m (as ++ [b]) (ls ++ [l]) := by
  have := h.insert hb hl as.length
  rw [insertAt_length, ← h.length_eq, insertAt_length] at this
  exact this

/-- Give an object up. -/
theorem erase (h : Part m0 as0 m as ls) (p : Nat) : Part m0 as0 m (as.eraseIdx p) (ls.eraseIdx p) where
  nodup := h.nodup.sublist (List.eraseIdx_sublist _ _)
  bound a ha := h.bound a (List.mem_of_mem_eraseIdx ha)
  len := h.len
  keep := h.keep
  own a ha := h.own a (List.mem_of_mem_eraseIdx ha)
  eq := by
    rw [h.eq]
    apply List.ext_getElem?
    intro i
    simp only [List.getElem?_eraseIdx, List.getElem?_map]
    split <;> rfl

theorem clear (h : Part m0 as0 m as ls) : Part m0 as0 m [] [] where
  nodup := List.nodup_nil
  bound a ha := by simp at ha
  len := h.len
  keep := h.keep
  own a ha := by simp at ha
  eq := rfl

end Part

namespace Fresh

theorem push {b : Nat} (h : Fresh m0 m as b) (l : List β) : Fresh m0 (m ++ [l]) as b :=
  ⟨h.new, by have := h.bound; simp; omega, h.free⟩

theorem set {a b : Nat} (h : Fresh m0 m as b) (l : List β) : Fresh m0 (m.set a l) as b :=
  ⟨h.new, by rw [List.length_set]; exact h.bound, h.free⟩

theorem clear {b : Nat} (h : Fresh m0 m as b) : Fresh m0 m [] b := ⟨h.new, h.bound, by simp⟩

/-- A call of the owner leaves it alone. -/
theorem across {b : Nat} (h : Fresh m0 m1 as1 b) (hp : Part m1 as1 m as ls) :
    Fresh m0 m as b ∧ m.getD b [] = m1.getD b [] :=
  ⟨⟨h.new, Nat.lt_of_lt_of_le h.bound hp.len, fun hb => (hp.own b hb).elim h.free (by have := h.bound; omega)⟩,
    hp.keep b h.bound h.free⟩

end Fresh
end Part

/-! ## Objects -/

variable {α κ : Type} {c c0 c1 c2 : Ctx α κ} {s s1 : St α κ}

/-- The attributes other than the sublists. -/
structure Same (o : Obj κ) (s : St α κ) : Prop where
  len : s.len = o.len
  load : s.load = o.load
  maxes : s.maxes = o.maxes
  index : s.index = o.index
  offset : s.offset = o.offset

/-- The object in `c` is the object `s` of the other modules, and since `c0` its methods have touched nothing but its own
list objects. -/
structure Rel (c0 c : Ctx α κ) (s : St α κ) : Prop where
  lists : Part c0.mem.vals c0.self.lists c.mem.vals c.self.lists s.lists
  keys : Part c0.mem.keys c0.self.keys c.mem.keys c.self.keys s.keys
  attrs : Same c.self s

/-- The object owns its sublists. -/
structure Own (c : Ctx α κ) : Prop where
  nodup : c.self.lists.Nodup
  bound : ∀ a ∈ c.self.lists, a < c.mem.vals.length
  knodup : c.self.keys.Nodup
  kbound : ∀ a ∈ c.self.keys, a < c.mem.keys.length

theorem Own.rel (h : Own c) : Rel c c c.view :=
  ⟨Part.refl h.nodup h.bound, Part.refl h.knodup h.kbound, ⟨rfl, rfl, rfl, rfl, rfl⟩⟩

theorem Rel.own (h : Rel c0 c s) : Own c := ⟨h.lists.nodup, h.lists.bound, h.keys.nodup, h.keys.bound⟩

theorem Rel.view (h : Rel c0 c s) : s = c.view := by
  obtain ⟨h1, h2, h3⟩ := h
  obtain ⟨a1, a2, a3, a4, a5⟩ := h3
  cases s
  simp only [Ctx.view, St.mk.injEq]
  exact ⟨a1, a2, h1.eq, h2.eq, a3, a4, a5⟩

theorem Rel.here (h : Rel c0 c s) : Rel c c s := h.view ▸ h.own.rel

theorem Rel.trans (h : Rel c0 c1 s1) (h' : Rel c1 c s) : Rel c0 c s :=
  ⟨h.lists.trans h'.lists, h.keys.trans h'.keys, h'.attrs⟩

/-- The call on list objects gave the answer of the call on values. -/
def Out {β γ : Type} (c0 : Ctx α κ) (x : Except PyErr β × Ctx α κ) (y : Except PyErr γ × St α κ)
    (R : Ctx α κ → Ctx α κ → β → γ → Prop) : Prop :=
  Rel c0 x.2 y.2 ∧
    match x.1, y.1 with
    | .ok b, .ok d => R c0 x.2 b d
    | .error e, .error e' => e = e'
    | _, _ => False

/-- The method on list objects does what the method on values does. -/
def Sim {β γ : Type} (m : Run α κ β) (f : Py (St α κ) γ) (R : Ctx α κ → Ctx α κ → β → γ → Prop) : Prop :=
  ∀ c, Own c → Out c (m c) (f c.view) R

/-- The same answer. -/
abbrev Eq' {β : Type} : Ctx α κ → Ctx α κ → β → β → Prop := fun _ _ b d => b = d

/-- A new list object with the given values, that the container does not own. -/
def NewList (c0 c : Ctx α κ) (b : Addr) (l : List α) : Prop :=
  Fresh c0.mem.vals c.mem.vals c.self.lists b ∧ c.cell b = l

section Out
variable {β γ δ ε : Type} {R R' : Ctx α κ → Ctx α κ → β → γ → Prop} {S : Ctx α κ → Ctx α κ → δ → ε → Prop}

theorem Out.bind {m : Run α κ β} {f : Py (St α κ) γ} {g : β → Run α κ δ} {k : γ → Py (St α κ) ε}
    (hr : Rel c0 c s) (hm : Out c (m c) (f s) R)
    (hk : ∀ c1 s1 b d, Rel c0 c1 s1 → Rel c c1 s1 → R c c1 b d → Out c0 (g b c1) (k d s1) S) :
    Out c0 ((m >>= g) c) ((f >>= k) s) S := by
  rw [Py.bind_apply, Py.bind_apply]
  obtain ⟨h1, h2⟩ := hm
  rcases hx : m c with ⟨_ | b, c1⟩ <;> rcases hy : f s with ⟨_ | d, s1⟩ <;> rw [hx, hy] at h1 h2
  · exact ⟨hr.trans h1, h2⟩
  · exact h2.elim
  · exact h2.elim
  · exact hk c1 s1 b d (hr.trans h1) h1 h2

theorem Out.bind_eq {m : Run α κ β} {f : Py (St α κ) γ} {g : β → Run α κ δ} {k : γ → Py (St α κ) ε}
    (hr : Rel c0 c s) (hm : Out c (m c) (f s) R)
    (hk : ∀ c1 s1 b d, m c = (.ok b, c1) → Rel c0 c1 s1 → R c c1 b d → Out c0 (g b c1) (k d s1) S) :
    Out c0 ((m >>= g) c) ((f >>= k) s) S := by
  rw [Py.bind_apply, Py.bind_apply]
  obtain ⟨h1, h2⟩ := hm
  rcases hx : m c with ⟨_ | b, c1⟩ <;> rcases hy : f s with ⟨_ | d, s1⟩ <;> rw [hx, hy] at h1 h2
  · exact ⟨hr.trans h1, h2⟩
  · exact h2.elim
  · exact h2.elim
  · exact hk c1 s1 b d hx (hr.trans h1) h2

/-- A call in tail position. -/
theorem Out.tail {x : Except PyErr β × Ctx α κ} {y : Except PyErr γ × St α κ} (hr : Rel c0 c s) (h : Out c x y R)
    (hR : ∀ b d, Rel c x.2 y.2 → R c x.2 b d → R' c0 x.2 b d) : Out c0 x y R' := by
  obtain ⟨h1, h2⟩ := h
  refine ⟨hr.trans h1, ?_⟩
  rcases x with ⟨_ | b, c1⟩ <;> rcases y with ⟨_ | d, s1⟩
  · exact h2
  · exact h2.elim
  · exact h2.elim
  · exact hR b d h1 h2

theorem Out.ok {b : β} {d : γ} (hr : Rel c0 c s) (h : R c0 c b d) : Out c0 (.ok b, c) (.ok d, s) R := ⟨hr, h⟩

theorem Out.error {e : PyErr} (hr : Rel c0 c s) : Out c0 ((.error e, c) : Except PyErr β × _) (.error e, s) R := ⟨hr, rfl⟩

/-- The same expression on both sides. -/
theorem Out.lift {x y : Except PyErr β} (e : x = y) {g : β → Run α κ δ} {k : β → Py (St α κ) ε} (hr : Rel c0 c s)
    (h : ∀ b, y = .ok b → Out c0 (g b c) (k b s) S) : Out c0 ((Py.lift x >>= g) c) ((Py.lift y >>= k) s) S := by
  subst e
  cases x with
  | error e => exact ⟨hr, rfl⟩
  | ok b => exact h b rfl

/-- `_lists[p]` -/
theorem Out.item {p : Nat} {as : List Addr} {ls : List (List α)} {g : Addr → Run α κ δ} {k : List α → Py (St α κ) ε} (ea : as = c.self.lists) (el : ls = s.lists)
    (hr : Rel c0 c s) (h : ∀ a, c.self.lists[p]? = some a → s.lists[p]? = some (c.cell a) → Out c0 (g a c) (k (c.cell a) s) S) :
    Out c0 ((Py.lift (getItem as p) >>= g) c) ((Py.lift (getItem ls p) >>= k) s) S := by
  subst ea el
  cases ha : c.self.lists[p]? with
  | none =>
    have h1 : c.self.lists.length ≤ p := List.getElem?_eq_none_iff.1 ha
    rw [getItem_error h1, getItem_error (by rw [hr.lists.length_eq]; exact h1)]
    exact ⟨hr, rfl⟩
  | some a =>
    have h1 : s.lists[p]? = some (c.cell a) := hr.lists.getElem? ha
    rw [getItem_ok_iff.2 ha, getItem_ok_iff.2 h1]
    exact h a ha h1

/-- `_keys[p]` -/
theorem Out.kitem {p : Nat} {as : List Addr} {ls : List (List κ)} {g : Addr → Run α κ δ} {k : List κ → Py (St α κ) ε} (ea : as = c.self.keys) (el : ls = s.keys)
    (hr : Rel c0 c s) (h : ∀ a, c.self.keys[p]? = some a → s.keys[p]? = some (c.kcell a) → Out c0 (g a c) (k (c.kcell a) s) S) :
    Out c0 ((Py.lift (getItem as p) >>= g) c) ((Py.lift (getItem ls p) >>= k) s) S := by
  subst ea el
  cases ha : c.self.keys[p]? with
  | none =>
    have h1 : c.self.keys.length ≤ p := List.getElem?_eq_none_iff.1 ha
    rw [getItem_error h1, getItem_error (by rw [hr.keys.length_eq]; exact h1)]
    exact ⟨hr, rfl⟩
  | some a =>
    have h1 : s.keys[p]? = some (c.kcell a) := hr.keys.getElem? ha
    rw [getItem_ok_iff.2 ha, getItem_ok_iff.2 h1]
    exact h a ha h1

/-- `_lists[-1]` -/
theorem Out.last {as : List Addr} {ls : List (List α)} {g : Addr → Run α κ δ} {k : List α → Py (St α κ) ε}
    (ea : as = c.self.lists) (el : ls = s.lists) (hr : Rel c0 c s)
    (h : ∀ a, c.self.lists.getLast? = some a → s.lists.getLast? = some (c.cell a) → Out c0 (g a c) (k (c.cell a) s) S) :
    Out c0 ((Py.lift (lastItem as) >>= g) c) ((Py.lift (lastItem ls) >>= k) s) S := by
  subst ea el
  have e := hr.lists.eq
  cases ha : c.self.lists.getLast? with
  | none =>
    rw [List.getLast?_eq_none_iff] at ha
    rw [ha, List.map_nil] at e
    rw [ha, e]
    exact ⟨hr, rfl⟩
  | some a =>
    have h1 : s.lists.getLast? = some (c.cell a) := by rw [e, List.getLast?_map, ha]; rfl
    rw [lastItem_of_getLast? ha, lastItem_of_getLast? h1]
    exact h a ha h1

/-- `del _lists[p]` -/
theorem Out.del {p : Nat} {as : List Addr} {ls : List (List α)} {g : List Addr → Run α κ δ} {k : List (List α) → Py (St α κ) ε} (ea : as = c.self.lists) (el : ls = s.lists)
    (hr : Rel c0 c s)
    (h : Out c0 (g (c.self.lists.eraseIdx p) c) (k (s.lists.eraseIdx p) s) S) :
    Out c0 ((Py.lift (delItem as p) >>= g) c) ((Py.lift (delItem ls p) >>= k) s) S := by
  subst ea el
  unfold delItem
  rw [hr.lists.length_eq]
  by_cases hp : p < c.self.lists.length
  · rw [if_pos hp, if_pos hp]; exact h
  · rw [if_neg hp, if_neg hp]; exact ⟨hr, rfl⟩

/-- `del _keys[p]` -/
theorem Out.kdel {p : Nat} {as : List Addr} {ls : List (List κ)} {g : List Addr → Run α κ δ} {k : List (List κ) → Py (St α κ) ε} (ea : as = c.self.keys) (el : ls = s.keys)
    (hr : Rel c0 c s)
    (h : Out c0 (g (c.self.keys.eraseIdx p) c) (k (s.keys.eraseIdx p) s) S) :
    Out c0 ((Py.lift (delItem as p) >>= g) c) ((Py.lift (delItem ls p) >>= k) s) S := by
  subst ea el
  unfold delItem
  rw [hr.keys.length_eq]
  by_cases hp : p < c.self.keys.length
  · rw [if_pos hp, if_pos hp]; exact h
  · rw [if_neg hp, if_neg hp]; exact ⟨hr, rfl⟩

theorem Out.ite {p q : Prop} [Decidable p] [Decidable q] (e : p ↔ q) {m m' : Run α κ β} {f f' : Py (St α κ) γ}
    (h1 : q → Out c0 (m c) (f s) R) (h2 : ¬ q → Out c0 (m' c) (f' s) R) :
    Out c0 ((if p then m else m') c) ((if q then f else f') s) R := by
  by_cases h : q
  · rw [if_pos (e.2 h), if_pos h]; exact h1 h
  · rw [if_neg (fun hp => h (e.1 hp)), if_neg h]; exact h2 h

end Out

/-! ## Running statements -/

section Run
variable {β : Type}

@[simp] theorem self_bind (f : Obj κ → Run α κ β) (c : Ctx α κ) : (self >>= f) c = f c.self c := rfl
@[simp] theorem assign_bind (g : Obj κ → Obj κ) (f : Unit → Run α κ β) (c : Ctx α κ) :
    (assign g >>= f) c = f () { c with self := g c.self } := rfl
@[simp] theorem assign_apply (g : Obj κ → Obj κ) (c : Ctx α κ) : assign g c = (.ok (), { c with self := g c.self }) := rfl
@[simp] theorem read_bind (a : Addr) (f : List α → Run α κ β) (c : Ctx α κ) : (read a >>= f) c = f (c.cell a) c := rfl
@[simp] theorem write_bind (a : Addr) (l : List α) (f : Unit → Run α κ β) (c : Ctx α κ) :
    (write a l >>= f) c = f () (c.put a l) := rfl
@[simp] theorem write_apply (a : Addr) (l : List α) (c : Ctx α κ) : write a l c = (.ok (), c.put a l) := rfl
@[simp] theorem alloc_bind (l : List α) (f : Addr → Run α κ β) (c : Ctx α κ) :
    (alloc l >>= f) c = f c.mem.vals.length (c.new l) := rfl
@[simp] theorem alloc_apply (l : List α) (c : Ctx α κ) : alloc l c = (.ok c.mem.vals.length, c.new l) := rfl
@[simp] theorem readK_bind (a : Addr) (f : List κ → Run α κ β) (c : Ctx α κ) : (readK a >>= f) c = f (c.kcell a) c := rfl
@[simp] theorem writeK_bind (a : Addr) (l : List κ) (f : Unit → Run α κ β) (c : Ctx α κ) :
    (writeK a l >>= f) c = f () (c.kput a l) := rfl
@[simp] theorem allocK_bind (l : List κ) (f : Addr → Run α κ β) (c : Ctx α κ) :
    (allocK l >>= f) c = f c.mem.keys.length (c.knew l) := rfl

end Run

/-- A method that changes the positional index at most. -/
theorem reading_out {β : Type} {m : Py (St α κ) β} (hm : Quiet m) (hr : Rel c0 c s) : Out c (reading m c) (m s) Eq' := by
  have hv := hr.view
  subst hv
  obtain ⟨i, o, e⟩ := hm.reindexed c.view
  have h := hr.own.rel
  refine ⟨⟨?_, ?_, ?_⟩, ?_⟩
  · show Part _ _ _ _ (m c.view).2.lists
    rw [e]; exact h.lists
  · show Part _ _ _ _ (m c.view).2.keys
    rw [e]; exact h.keys
  · show Same ({ c.self with index := (m c.view).2.index, offset := (m c.view).2.offset } : Obj κ) (m c.view).2
    rw [e]; exact ⟨rfl, rfl, rfl, rfl, rfl⟩
  · have h1 : (reading m c).1 = (m c.view).1 := rfl
    rw [h1]
    cases (m c.view).1 <;> rfl

theorem Rel.item_lt (h : Rel c0 c s) {p : Nat} {a : Addr} (ha : c.self.lists[p]? = some a) : a < c.mem.vals.length :=
  h.lists.bound a (List.mem_of_getElem? ha)

theorem Rel.kitem_lt (h : Rel c0 c s) {p : Nat} {a : Addr} (ha : c.self.keys[p]? = some a) : a < c.mem.keys.length :=
  h.keys.bound a (List.mem_of_getElem? ha)

theorem cell_put {a : Addr} {l : List α} (h : a < c.mem.vals.length) : (c.put a l).cell a = l := getD_set_self h
theorem kcell_kput {a : Addr} {l : List κ} (h : a < c.mem.keys.length) : (c.kput a l).kcell a = l := getD_set_self h
theorem cell_put_ne {a b : Addr} {l : List α} (h : a ≠ b) : (c.put a l).cell b = c.cell b := getD_set_ne h
theorem kcell_kput_ne {a b : Addr} {l : List κ} (h : a ≠ b) : (c.kput a l).kcell b = c.kcell b := getD_set_ne h
theorem cell_new_lt {b : Addr} {l : List α} (h : b < c.mem.vals.length) : (c.new l).cell b = c.cell b := getD_push_lt h
theorem kcell_knew_lt {b : Addr} {l : List κ} (h : b < c.mem.keys.length) : (c.knew l).kcell b = c.kcell b := getD_push_lt h
theorem cell_new {l : List α} : (c.new l).cell c.mem.vals.length = l := getD_push_self
theorem kcell_knew {l : List κ} : (c.knew l).kcell c.mem.keys.length = l := getD_push_self

/-- Run the statements up to the next one that may raise. -/
macro "hrun" : tactic => `(tactic| simp only [self_bind, assign_bind, assign_apply, read_bind, write_bind, write_apply,
  alloc_bind, alloc_apply, readK_bind, writeK_bind, allocK_bind, Py.get_bind, Py.modify_bind, Py.modify_apply, Py.pure_bind',
  Py.pure_apply, Py.raise_apply, Py.bind_assoc'])

theorem Core.touchIndex_quiet (f : Nat → Except PyErr Nat) (p : Nat) : Quiet (Verif.Core.touchIndex f p : Py (St α κ) Unit) := by
  unfold Verif.Core.touchIndex; quiet

theorem ite_bind {σ β γ : Type} (p : Prop) [Decidable p] (m m' : Py σ β) (f : β → Py σ γ) :
    (if p then m else m') >>= f = if p then m >>= f else m' >>= f := by split <;> rfl

theorem pure_bind'' {σ β γ : Type} (b : β) (f : β → Py σ γ) : (pure b : Py σ β) >>= f = f b := rfl

/-! ## Loops over list objects -/

theorem put_self {a : Addr} (h : a < c.mem.vals.length) : c.put a (c.cell a) = c := by
  have : c.mem.vals.set a (c.mem.vals.getD a []) = c.mem.vals := by
    rw [List.getD_eq_getElem?_getD, List.getElem?_eq_getElem h, Option.getD_some, List.set_getElem_self]
  unfold Ctx.put Ctx.cell
  rw [this]

theorem put_put {a : Addr} {l l' : List α} : (c.put a l).put a l' = c.put a l' := by
  simp [Ctx.put]

theorem new_put {l l' : List α} : (c.new l).put c.mem.vals.length l' = c.new l' := by
  simp [Ctx.new, Ctx.put]

theorem reduceIadd_eq (acc : Addr) : ∀ (as : List Addr) (c : Ctx α κ), acc < c.mem.vals.length → acc ∉ as →
    reduceIadd as acc c = (.ok (), c.put acc (c.cell acc ++ (as.map c.cell).flatten))
  | [], c, h, _ => by
    rw [List.map_nil, List.flatten_nil, List.append_nil, put_self h]; rfl
  | a :: as, c, h, hn => by
    have hne : acc ≠ a := fun e => hn (e ▸ List.mem_cons_self ..)
    have hn' : acc ∉ as := fun e => hn (List.mem_cons_of_mem _ e)
    have h1 : acc < (c.put acc (c.cell acc ++ c.cell a)).mem.vals.length := by
      show acc < (c.mem.vals.set _ _).length
      rw [List.length_set]; exact h
    have := reduceIadd_eq acc as (c.put acc (c.cell acc ++ c.cell a)) h1 hn'
    show reduceIadd as acc (c.put acc (c.cell acc ++ c.cell a)) = _
    rw [this, put_put, cell_put h]
    have e : as.map (c.put acc (c.cell acc ++ c.cell a)).cell = as.map c.cell := by
      apply List.map_congr_left
      intro b hb
      exact cell_put_ne fun e => hn' (e ▸ hb)
    rw [e, List.map_cons, List.flatten_cons, List.append_assoc]

theorem flatten_eq (h : Own c) : flatten c = (.ok c.mem.vals.length, c.new (Verif.Core.iter c.view)) := by
  unfold flatten
  hrun
  have hn : c.mem.vals.length ∉ c.self.lists := fun e => Nat.lt_irrefl _ (h.bound _ e)
  have hb : c.mem.vals.length < (c.new []).mem.vals.length := by simp [Ctx.new]
  rw [Py.bind_apply]
  have hs : (c.new []).self.lists = c.self.lists := rfl
  rw [hs, reduceIadd_eq _ _ _ hb hn, new_put, cell_new, List.nil_append]
  have e : c.self.lists.map (c.new []).cell = c.self.lists.map c.cell := by
    apply List.map_congr_left
    intro b hb
    exact cell_new_lt (h.bound b hb)
  rw [e]
  rfl

/-- More list objects. -/
def Ctx.news (c : Ctx α κ) (ls : List (List α)) : Ctx α κ := { c with mem := { c.mem with vals := c.mem.vals ++ ls } }

theorem news_cons {l : List α} {ls : List (List α)} : (c.new l).news ls = c.news (l :: ls) := by
  simp [Ctx.new, Ctx.news]

theorem mapEach_alloc : ∀ (ls : List (List α)) (c : Ctx α κ),
    Py.mapEach alloc ls c = (.ok (List.range' c.mem.vals.length ls.length), c.news ls)
  | [], c => by simp [Py.mapEach, Ctx.news]
  | l :: ls, c => by
    rw [Py.mapEach]
    hrun
    rw [Py.bind_apply, mapEach_alloc ls, news_cons]
    simp [Ctx.new, List.range'_succ]

theorem mapEach_read : ∀ (as : List Addr) (c : Ctx α κ), Py.mapEach read as c = (.ok (as.map c.cell), c)
  | [], c => by simp [Py.mapEach]
  | a :: as, c => by
    rw [Py.mapEach]
    hrun
    rw [Py.bind_apply, mapEach_read as]
    simp

theorem mapEach_readK : ∀ (as : List Addr) (c : Ctx α κ), Py.mapEach readK as c = (.ok (as.map c.kcell), c)
  | [], c => by simp [Py.mapEach]
  | a :: as, c => by
    rw [Py.mapEach]
    hrun
    rw [Py.bind_apply, mapEach_readK as]
    simp

theorem Part.pushAll {β : Type} {m0 : List (List β)} {as0 : List Nat} : ∀ (xs : List (List β)) {m : List (List β)}
    {as : List Nat} {ls : List (List β)}, Part m0 as0 m as ls →
    Part m0 as0 (m ++ xs) (as ++ List.range' m.length xs.length) (ls ++ xs)
  | [], m, as, ls, h => by simpa using h
  | x :: xs, m, as, ls, h => by
    have := Part.pushAll xs ((h.push x).append (h.fresh_push x) getD_push_self)
    simpa [List.range'_succ] using this

theorem Out.forEach {β : Type} {g : β → Run α κ Unit} {k : β → Py (St α κ) Unit} {c0 : Ctx α κ}
    (h : ∀ x c s, Rel c0 c s → Out c0 (g x c) (k x s) Eq') : ∀ (xs : List β) (c : Ctx α κ) (s : St α κ), Rel c0 c s →
    Out c0 (Py.forEach g xs c) (Py.forEach k xs s) Eq'
  | [], _, _, hr => Out.ok hr rfl
  | x :: xs, c, s, hr => by
    have h1 := h x c s hr
    rw [Py.forEach, Py.forEach, Py.bind_apply, Py.bind_apply]
    obtain ⟨h2, h3⟩ := h1
    rcases hx : g x c with ⟨_ | b, c1⟩ <;> rcases hy : k x s with ⟨_ | d, s1⟩ <;> rw [hx, hy] at h2 h3
    · exact ⟨h2, h3⟩
    · exact h3.elim
    · exact h3.elim
    · exact Out.forEach h xs c1 s1 h2

/-- The values that an argument yields. -/
def Yields (c : Ctx α κ) : Source α → List α → Prop
  | .list a, xs => c.cell a = xs
  | .values ys, xs => ys = xs

theorem consume_bind {β : Type} {src : Source α} {xs : List α} (h : Yields c src xs) (g : List α → Run α κ β) :
    (consume src >>= g) c = g xs c := by
  cases src with
  | list a => cases h; rfl
  | values ys => cases h; rfl

/-! ## SortedList -/

namespace SL
variable {c c0 : Ctx α α} {s : St α α}

theorem expand_out (hr : Rel c0 c s) (pos : Nat) : Out c0 (expand pos c) (Verif.SL.expand pos s) Eq' := by
  obtain rfl := hr.view
  unfold expand Verif.SL.expand
  hrun
  refine Out.item rfl rfl hr fun a ha hs => ?_
  hrun
  refine Out.ite Iff.rfl (fun hlen => ?_) fun _ => ?_
  · hrun
    have p1 := (hr.lists.push ((c.cell a).drop c.self.load)).put ha ((c.cell a).take c.self.load)
    have f1 := (hr.lists.fresh_push ((c.cell a).drop c.self.load)).set (a := a) ((c.cell a).take c.self.load)
    have e1 := cell_put (c := c.new ((c.cell a).drop c.self.load)) (l := (c.cell a).take c.self.load)
      ((hr.lists.push _).bound a (List.mem_of_getElem? ha))
    have e2 : ((c.new ((c.cell a).drop c.self.load)).put a ((c.cell a).take c.self.load)).cell c.mem.vals.length
        = (c.cell a).drop c.self.load :=
      (cell_put_ne (Nat.ne_of_lt (hr.item_lt ha))).trans cell_new
    have p2 := p1.insert f1 e2 (pos + 1)
    refine Out.lift (by rw [e1]; rfl) ⟨p1, hr.keys, rfl, rfl, rfl, rfl, rfl⟩ fun m hm => ?_
    refine Out.lift rfl ⟨p1, hr.keys, rfl, rfl, rfl, rfl, rfl⟩ fun maxes hmaxes => ?_
    hrun
    refine Out.lift (congrArg lastItem e2) ⟨p2, hr.keys, rfl, rfl, rfl, rfl, rfl⟩ fun m hm => ?_
    hrun
    exact Out.ok ⟨p2, hr.keys, rfl, rfl, rfl, rfl, rfl⟩ rfl
  · exact Out.tail hr (reading_out (Core.touchIndex_quiet _ _) hr) fun _ _ _ h => h

theorem expand_incr_out (hr : Rel c0 c s) (pos : Nat) :
    Out c0 ((expand pos >>= fun _ => assign fun o => { o with len := o.len + 1 }) c)
      ((Verif.SL.expand pos >>= fun _ => Py.modify fun s => { s with len := s.len + 1 }) s) Eq' := by
  obtain rfl := hr.view
  refine Out.bind hr (expand_out hr.own.rel pos) fun c1 s1 _ _ h1 _ _ => ?_
  obtain rfl := h1.view
  exact Out.ok ⟨h1.lists, h1.keys, rfl, rfl, rfl, rfl, rfl⟩ rfl

theorem add_out (E : Env α) (hr : Rel c0 c s) (v : α) : Out c0 (add E v c) (Verif.SL.add E v s) Eq' := by
  obtain rfl := hr.view
  unfold add Verif.SL.add
  hrun
  refine Out.ite Iff.rfl (fun hlen => ?_) fun _ => ?_
  · refine Out.lift rfl hr fun pos hpos => ?_
    refine Out.ite Iff.rfl (fun hlen => ?_) fun _ => ?_
    · refine Out.item rfl rfl hr fun a ha hs => ?_
      hrun
      refine expand_incr_out ?_ _
      exact ⟨hr.lists.put ha _, hr.keys, rfl, rfl, rfl, rfl, rfl⟩
    · refine Out.item rfl rfl hr fun a ha hs => ?_
      hrun
      refine Out.lift rfl hr fun l hl => ?_
      hrun
      refine expand_incr_out ?_ _
      exact ⟨hr.lists.put ha _, hr.keys, rfl, rfl, rfl, rfl, rfl⟩
  · hrun
    exact Out.ok ⟨(hr.lists.push _).append (hr.lists.fresh_push _) cell_new, hr.keys, rfl, rfl, rfl, rfl, rfl⟩ rfl

theorem fill_out (hr : Rel c0 c s) {v : Addr} {l : List α} (hv : v < c.mem.vals.length) (hl : c.cell v = l) :
    Out c0 (fill v c) (Verif.SL.fill l s) Eq' := by
  obtain rfl := hr.view
  subst hl
  unfold fill Verif.SL.fill
  hrun
  refine Out.lift rfl hr fun subs hsubs => ?_
  have p1 := hr.lists.pushAll subs
  rw [Py.bind_apply, mapEach_alloc]
  hrun
  rw [Py.bind_apply, mapEach_read]
  have e1 := p1.eq
  refine Out.lift (congrArg (mapE lastItem) e1.symm) ⟨p1, hr.keys, rfl, rfl, rfl, rfl, rfl⟩ fun ms hms => ?_
  hrun
  have e2 : ∀ o, Ctx.cell { (c.news subs) with self := o } v = c.cell v := fun o => by
    show (c.mem.vals ++ subs).getD v [] = c.mem.vals.getD v []
    simp [List.getElem?_append_left hv]
  rw [e2]
  exact Out.ok ⟨p1, hr.keys, rfl, rfl, rfl, rfl, rfl⟩ rfl

theorem update_out (E : Env α) (hr : Rel c0 c s) {src : Source α} {xs : List α} (hx : Yields c src xs) :
    Out c0 (update E src c) (Verif.SL.update E xs s) Eq' := by
  obtain rfl := hr.view
  unfold update Verif.SL.update
  rw [consume_bind hx]
  refine Out.lift rfl hr fun ys hys => ?_
  hrun
  have p1 := hr.lists.push ys
  have f1 := hr.lists.fresh_push ys
  have r1 : Rel c0 (c.new ys) c.view := ⟨p1, hr.keys, rfl, rfl, rfl, rfl, rfl⟩
  refine Out.ite Iff.rfl (fun hm => ?_) fun _ => ?_
  · hrun
    rw [cell_new]
    refine Out.ite Iff.rfl (fun hm => ?_) fun _ => ?_
    · hrun
      have p2 := p1.append f1 getD_push_self
      have r2 : Rel c0 { (c.new ys) with self := { (c.new ys).self with lists := (c.new ys).self.lists ++ [c.mem.vals.length] } }
        { c.view with lists := c.view.lists ++ [ys] } := ⟨p2, hr.keys, rfl, rfl, rfl, rfl, rfl⟩
      rw [Py.bind_apply, flatten_eq r2.own, ← r2.view]
      hrun
      rw [cell_new]
      refine Out.lift rfl ⟨p2.push _, hr.keys, rfl, rfl, rfl, rfl, rfl⟩ fun zs hzs => ?_
      unfold clear Verif.SL.clear
      hrun
      rw [new_put]
      refine fill_out ?_ (p2.fresh_push zs).bound getD_push_self
      exact ⟨(p2.push _).clear, hr.keys, rfl, rfl, rfl, rfl, rfl⟩
    · hrun
      rw [cell_new]
      exact Out.forEach (fun x c s h => add_out E h x) ys _ _ r1
  · exact fill_out r1 f1.bound cell_new

theorem delete_out (hr : Rel c0 c s) (pos idx : Nat) : Out c0 (delete pos idx c) (Verif.SL.delete pos idx s) Eq' := by
  obtain rfl := hr.view
  unfold delete Verif.SL.delete
  hrun
  refine Out.item rfl rfl hr fun a ha hs => ?_
  hrun
  refine Out.lift rfl hr fun l hl => ?_
  hrun
  have p1 := hr.lists.put ha l
  have e1 : (c.put a l).cell a = l := cell_put (hr.item_lt ha)
  refine Out.lift rfl ⟨p1, hr.keys, rfl, rfl, rfl, rfl, rfl⟩ fun n hn => ?_
  hrun
  have e1' : ∀ o, Ctx.cell { (c.put a l) with self := o } a = l := fun o => e1
  rw [e1']
  refine Out.ite Iff.rfl (fun hlen => ?_) fun _ => ?_
  · refine Out.lift rfl ⟨p1, hr.keys, rfl, rfl, rfl, rfl, rfl⟩ fun m hm => ?_
    refine Out.lift rfl ⟨p1, hr.keys, rfl, rfl, rfl, rfl, rfl⟩ fun maxes hmaxes => ?_
    hrun
    have r1 : Rel c0 { (c.put a l) with self := { c.self with len := n, maxes := maxes } }
      { c.view with lists := c.view.lists.set pos l, len := n, maxes := maxes } := ⟨p1, hr.keys, rfl, rfl, rfl, rfl, rfl⟩
    exact Out.tail r1 (reading_out (Core.touchIndex_quiet _ _) r1) fun _ _ _ h => h
  refine Out.ite (by rw [hr.lists.length_eq]) (fun hlen => ?_) fun _ => ?_
  · hrun
    generalize (if pos = 0 then pos + 1 else pos) = q
    have r1 : Rel c0 { (c.put a l) with self := { (c.put a l).self with len := n } }
      { c.view with lists := c.view.lists.set pos l, len := n } := ⟨p1, hr.keys, rfl, rfl, rfl, rfl, rfl⟩
    refine Out.item rfl rfl r1 fun x hx hsx => ?_
    refine Out.item rfl rfl r1 fun y hy hsy => ?_
    unfold extend
    hrun
    have p2 := p1.put hx (Ctx.cell { (c.put a l) with self := { (c.put a l).self with len := n } } x ++
      Ctx.cell { (c.put a l) with self := { (c.put a l).self with len := n } } y)
    refine Out.lift (congrArg lastItem (cell_put (r1.item_lt hx))) ⟨p2, hr.keys, rfl, rfl, rfl, rfl, rfl⟩ fun m hm => ?_
    refine Out.lift rfl ⟨p2, hr.keys, rfl, rfl, rfl, rfl, rfl⟩ fun maxes hmaxes => ?_
    hrun
    refine Out.del rfl rfl ⟨p2, hr.keys, rfl, rfl, rfl, rfl, rfl⟩ ?_
    hrun
    have p3 := p2.erase q
    refine Out.lift rfl ⟨p3, hr.keys, rfl, rfl, rfl, rfl, rfl⟩ fun maxes' hmaxes' => ?_
    hrun
    refine expand_out ?_ _
    exact ⟨p3, hr.keys, rfl, rfl, rfl, rfl, rfl⟩
  refine Out.ite Iff.rfl (fun hlen => ?_) fun _ => ?_
  · refine Out.lift rfl ⟨p1, hr.keys, rfl, rfl, rfl, rfl, rfl⟩ fun m hm => ?_
    refine Out.lift rfl ⟨p1, hr.keys, rfl, rfl, rfl, rfl, rfl⟩ fun maxes hmaxes => ?_
    hrun
    exact Out.ok ⟨p1, hr.keys, rfl, rfl, rfl, rfl, rfl⟩ rfl
  · hrun
    refine Out.del rfl rfl ⟨p1, hr.keys, rfl, rfl, rfl, rfl, rfl⟩ ?_
    hrun
    have p3 := p1.erase pos
    refine Out.lift rfl ⟨p3, hr.keys, rfl, rfl, rfl, rfl, rfl⟩ fun maxes' hmaxes' => ?_
    hrun
    exact Out.ok ⟨p3, hr.keys, rfl, rfl, rfl, rfl, rfl⟩ rfl

theorem discard_eq (E : Env α) (v : α) : Verif.SL.discard E v = (do
    match ← locate E v with
    | some (pos, idx) => Verif.SL.delete pos idx
    | none => pure ()) := by
  unfold Verif.SL.discard locate
  simp only [Py.bind_assoc', ite_bind, pure_bind'']

theorem remove_eq (E : Env α) (v : α) : Verif.SL.remove E v = (do
    match ← locate E v with
    | some (pos, idx) => Verif.SL.delete pos idx
    | none => Py.raise .valueError) := by
  unfold Verif.SL.remove locate
  simp only [Py.bind_assoc', ite_bind, pure_bind'']

theorem locate_quiet (E : Env α) (v : α) : Quiet (locate E v) := by unfold locate; quiet

theorem discard_out (E : Env α) (hr : Rel c0 c s) (v : α) : Out c0 (discard E v c) (Verif.SL.discard E v s) Eq' := by
  rw [discard_eq]
  unfold discard
  refine Out.bind hr (reading_out (locate_quiet E v) hr) fun c1 s1 b d h1 _ hbd => ?_
  cases hbd
  cases b with
  | none => exact Out.ok h1 rfl
  | some q => exact delete_out h1 _ _

theorem remove_out (E : Env α) (hr : Rel c0 c s) (v : α) : Out c0 (remove E v c) (Verif.SL.remove E v s) Eq' := by
  rw [remove_eq]
  unfold remove
  refine Out.bind hr (reading_out (locate_quiet E v) hr) fun c1 s1 b d h1 _ hbd => ?_
  cases hbd
  cases b with
  | none => exact Out.error h1
  | some q => exact delete_out h1 _ _

end SL

/-! ## SortedKeyList -/

namespace SKL

theorem expand_out (hr : Rel c0 c s) (pos : Nat) : Out c0 (expand pos c) (Verif.SKL.expand pos s) Eq' := by
  obtain rfl := hr.view
  unfold expand Verif.SKL.expand
  hrun
  refine Out.kitem rfl rfl hr fun k hk hsk => ?_
  hrun
  refine Out.ite Iff.rfl (fun hlen => ?_) fun _ => ?_
  · refine Out.item rfl rfl hr fun a ha hs => ?_
    hrun
    have p1 := (hr.lists.push ((c.cell a).drop c.self.load)).put ha ((c.cell a).take c.self.load)
    have f1 := (hr.lists.fresh_push ((c.cell a).drop c.self.load)).set (a := a) ((c.cell a).take c.self.load)
    have e2 : ((c.mem.vals ++ [(c.cell a).drop c.self.load]).set a ((c.cell a).take c.self.load)).getD c.mem.vals.length []
        = (c.cell a).drop c.self.load :=
      (getD_set_ne (Nat.ne_of_lt (hr.item_lt ha))).trans getD_push_self
    have p2 := p1.insert f1 e2 (pos + 1)
    have q1 := (hr.keys.push ((c.kcell k).drop c.self.load)).put hk ((c.kcell k).take c.self.load)
    have g1 := (hr.keys.fresh_push ((c.kcell k).drop c.self.load)).set (a := k) ((c.kcell k).take c.self.load)
    have d1 : ((c.mem.keys ++ [(c.kcell k).drop c.self.load]).set k ((c.kcell k).take c.self.load)).getD k []
        = (c.kcell k).take c.self.load := getD_set_self ((hr.keys.push _).bound k (List.mem_of_getElem? hk))
    have d2 : ((c.mem.keys ++ [(c.kcell k).drop c.self.load]).set k ((c.kcell k).take c.self.load)).getD c.mem.keys.length []
        = (c.kcell k).drop c.self.load :=
      (getD_set_ne (Nat.ne_of_lt (hr.kitem_lt hk))).trans getD_push_self
    have q2 := q1.insert g1 d2 (pos + 1)
    refine Out.lift (congrArg lastItem d1) ⟨p1, q1, rfl, rfl, rfl, rfl, rfl⟩ fun m hm => ?_
    refine Out.lift rfl ⟨p1, q1, rfl, rfl, rfl, rfl, rfl⟩ fun maxes hmaxes => ?_
    hrun
    refine Out.lift (congrArg lastItem d2) ⟨p2, q2, rfl, rfl, rfl, rfl, rfl⟩ fun m hm => ?_
    hrun
    exact Out.ok ⟨p2, q2, rfl, rfl, rfl, rfl, rfl⟩ rfl
  · exact Out.tail hr (reading_out (Core.touchIndex_quiet _ _) hr) fun _ _ _ h => h

theorem expand_incr_out (hr : Rel c0 c s) (pos : Nat) :
    Out c0 ((expand pos >>= fun _ => assign fun o => { o with len := o.len + 1 }) c)
      ((Verif.SKL.expand pos >>= fun _ => Py.modify fun s => { s with len := s.len + 1 }) s) Eq' := by
  obtain rfl := hr.view
  refine Out.bind hr (expand_out hr.own.rel pos) fun c1 s1 _ _ h1 _ _ => ?_
  obtain rfl := h1.view
  exact Out.ok ⟨h1.lists, h1.keys, rfl, rfl, rfl, rfl, rfl⟩ rfl

theorem add_out (K : KEnv α κ) (hr : Rel c0 c s) (v : α) : Out c0 (add K v c) (Verif.SKL.add K v s) Eq' := by
  obtain rfl := hr.view
  unfold add Verif.SKL.add
  hrun
  refine Out.lift rfl hr fun key hkey => ?_
  refine Out.ite Iff.rfl (fun hlen => ?_) fun _ => ?_
  · refine Out.lift rfl hr fun pos hpos => ?_
    refine Out.ite Iff.rfl (fun hlen => ?_) fun _ => ?_
    · refine Out.item rfl rfl hr fun a ha hs => ?_
      hrun
      have p1 := hr.lists.put ha (c.cell a ++ [v])
      refine Out.kitem rfl rfl ⟨p1, hr.keys, rfl, rfl, rfl, rfl, rfl⟩ fun b hb hsb => ?_
      hrun
      refine expand_incr_out ?_ _
      exact ⟨p1, hr.keys.put hb _, rfl, rfl, rfl, rfl, rfl⟩
    · refine Out.kitem rfl rfl hr fun b hb hsb => ?_
      hrun
      refine Out.lift rfl hr fun idx hidx => ?_
      refine Out.item rfl rfl hr fun a ha hs => ?_
      hrun
      refine expand_incr_out ?_ _
      exact ⟨hr.lists.put ha _, hr.keys.put hb _, rfl, rfl, rfl, rfl, rfl⟩
  · hrun
    exact Out.ok ⟨(hr.lists.push _).append (hr.lists.fresh_push _) cell_new,
      (hr.keys.push _).append (hr.keys.fresh_push _) kcell_knew, rfl, rfl, rfl, rfl, rfl⟩ rfl

theorem keys_out (K : KEnv α κ) : ∀ (as : List Addr) (c : Ctx α κ) (s : St α κ), Rel c0 c s →
    Out c0 (Py.forEach (fun a => do
      let l ← read a
      let ks ← Py.lift (mapE K.key l)
      let b ← allocK ks
      assign fun o => { o with keys := o.keys ++ [b] }) as c)
      (Py.forEach (fun l => do
        let ks ← Py.lift (mapE K.key l)
        Py.modify fun s => { s with keys := s.keys ++ [ks] }) (as.map c.cell) s) Eq'
  | [], _, _, hr => Out.ok hr rfl
  | a :: as, c, s, hr => by
    obtain rfl := hr.view
    rw [List.map_cons, Py.forEach, Py.forEach]
    hrun
    refine Out.lift rfl hr fun ks hks => ?_
    hrun
    exact keys_out K as _ _ ⟨hr.lists, (hr.keys.push ks).append (hr.keys.fresh_push ks) kcell_knew, rfl, rfl, rfl, rfl, rfl⟩

theorem keys_vals (K : KEnv α κ) : ∀ (as : List Addr) (c : Ctx α κ), (Py.forEach (fun a => do
      let l ← read a
      let ks ← Py.lift (mapE K.key l)
      let b ← allocK ks
      assign fun o => { o with keys := o.keys ++ [b] }) as c).2.mem.vals = c.mem.vals
  | [], _ => rfl
  | a :: as, c => by
    rw [Py.forEach]
    hrun
    cases mapE K.key (c.cell a) with
    | error e => rfl
    | ok ks => rw [Py.lift_ok_bind]; hrun; exact keys_vals K as _

theorem fill_out (K : KEnv α κ) (hr : Rel c0 c s) {v : Addr} {l : List α} (hv : v < c.mem.vals.length) (hl : c.cell v = l) :
    Out c0 (fill K v c) (Verif.SKL.fill K l s) Eq' := by
  obtain rfl := hr.view
  subst hl
  unfold fill Verif.SKL.fill
  hrun
  refine Out.lift rfl hr fun subs hsubs => ?_
  have p1 := hr.lists.pushAll subs
  rw [Py.bind_apply, mapEach_alloc]
  hrun
  have r1 : Rel c0 { (c.news subs) with self := { (c.news subs).self with
        lists := (c.news subs).self.lists ++ List.range' c.mem.vals.length subs.length } }
      { c.view with lists := c.view.lists ++ subs } := ⟨p1, hr.keys, rfl, rfl, rfl, rfl, rfl⟩
  have k1 := keys_out K (c.self.lists ++ List.range' c.mem.vals.length subs.length) _ _ r1.own.rel
  have e1 : c.view.lists ++ subs = (c.self.lists ++ List.range' c.mem.vals.length subs.length).map (c.news subs).cell := p1.eq
  rw [← r1.view] at k1
  refine Out.bind_eq (R := Eq') r1 ?_ fun c1 s1 _ _ h1 hr1 _ => ?_
  · rw [e1] at k1 ⊢
    exact k1
  obtain rfl := hr1.view
  have v1 : c1.mem.vals = (c.news subs).mem.vals := (congrArg (fun r => r.2.mem.vals) h1).symm.trans (keys_vals K _ _)
  hrun
  rw [Py.bind_apply, mapEach_readK]
  refine Out.lift (congrArg (mapE lastItem) rfl) ⟨hr1.lists, hr1.keys, rfl, rfl, rfl, rfl, rfl⟩ fun ms hms => ?_
  hrun
  have e2 : ∀ o, Ctx.cell { c1 with self := o } v = c.cell v := fun o => by
    show c1.mem.vals.getD v [] = c.mem.vals.getD v []
    rw [v1]
    show (c.mem.vals ++ subs).getD v [] = c.mem.vals.getD v []
    simp [List.getElem?_append_left hv]
  rw [e2]
  exact Out.ok ⟨hr1.lists, hr1.keys, rfl, rfl, rfl, rfl, rfl⟩ rfl

theorem update_out (K : KEnv α κ) (hr : Rel c0 c s) {src : Source α} {xs : List α} (hx : Yields c src xs) :
    Out c0 (update K src c) (Verif.SKL.update K xs s) Eq' := by
  obtain rfl := hr.view
  unfold update Verif.SKL.update
  rw [consume_bind hx]
  refine Out.lift rfl hr fun ys hys => ?_
  hrun
  have p1 := hr.lists.push ys
  have f1 := hr.lists.fresh_push ys
  have r1 : Rel c0 (c.new ys) c.view := ⟨p1, hr.keys, rfl, rfl, rfl, rfl, rfl⟩
  refine Out.ite Iff.rfl (fun hm => ?_) fun _ => ?_
  · hrun
    rw [cell_new]
    refine Out.ite Iff.rfl (fun hm => ?_) fun _ => ?_
    · hrun
      have p2 := p1.append f1 getD_push_self
      have r2 : Rel c0 { (c.new ys) with self := { (c.new ys).self with lists := (c.new ys).self.lists ++ [c.mem.vals.length] } }
        { c.view with lists := c.view.lists ++ [ys] } := ⟨p2, hr.keys, rfl, rfl, rfl, rfl, rfl⟩
      rw [Py.bind_apply, flatten_eq r2.own, ← r2.view]
      hrun
      rw [cell_new]
      refine Out.lift rfl ⟨p2.push _, hr.keys, rfl, rfl, rfl, rfl, rfl⟩ fun zs hzs => ?_
      unfold clear Verif.SKL.clear
      hrun
      rw [new_put]
      refine fill_out K ?_ (p2.fresh_push zs).bound getD_push_self
      exact ⟨(p2.push _).clear, hr.keys.clear, rfl, rfl, rfl, rfl, rfl⟩
    · hrun
      rw [cell_new]
      exact Out.forEach (fun x c s h => add_out K h x) ys _ _ r1
  · exact fill_out K r1 f1.bound cell_new

theorem delete_out (hr : Rel c0 c s) (pos idx : Nat) : Out c0 (delete pos idx c) (Verif.SKL.delete pos idx s) Eq' := by
  obtain rfl := hr.view
  unfold delete Verif.SKL.delete
  hrun
  refine Out.kitem rfl rfl hr fun k hk hsk => ?_
  refine Out.item rfl rfl hr fun a ha hs => ?_
  hrun
  refine Out.lift rfl hr fun ks hks => ?_
  hrun
  have q1 := hr.keys.put hk ks
  refine Out.lift rfl ⟨hr.lists, q1, rfl, rfl, rfl, rfl, rfl⟩ fun l hl => ?_
  hrun
  have p1 := hr.lists.put ha l
  have d1 : ∀ o, Ctx.kcell { ((c.kput k ks).put a l) with self := o } k = ks := fun o => kcell_kput (hr.kitem_lt hk)
  refine Out.lift rfl ⟨p1, q1, rfl, rfl, rfl, rfl, rfl⟩ fun n hn => ?_
  hrun
  rw [d1]
  refine Out.ite Iff.rfl (fun hlen => ?_) fun _ => ?_
  · refine Out.lift rfl ⟨p1, q1, rfl, rfl, rfl, rfl, rfl⟩ fun m hm => ?_
    refine Out.lift rfl ⟨p1, q1, rfl, rfl, rfl, rfl, rfl⟩ fun maxes hmaxes => ?_
    hrun
    have r1 : Rel c0 { ((c.kput k ks).put a l) with self := { c.self with len := n, maxes := maxes } }
      { c.view with lists := c.view.lists.set pos l, keys := c.view.keys.set pos ks, len := n, maxes := maxes } :=
      ⟨p1, q1, rfl, rfl, rfl, rfl, rfl⟩
    exact Out.tail r1 (reading_out (Core.touchIndex_quiet _ _) r1) fun _ _ _ h => h
  refine Out.ite (by rw [hr.keys.length_eq]) (fun hlen => ?_) fun _ => ?_
  · hrun
    generalize (if pos = 0 then pos + 1 else pos) = q
    refine Out.kitem rfl rfl ⟨p1, q1, rfl, rfl, rfl, rfl, rfl⟩ fun kx hkx hskx => ?_
    refine Out.kitem rfl rfl ⟨p1, q1, rfl, rfl, rfl, rfl, rfl⟩ fun ky hky hsky => ?_
    unfold extend
    hrun
    have q2 := q1.put hkx ((c.mem.keys.set k ks).getD kx [] ++ (c.mem.keys.set k ks).getD ky [])
    refine Out.item rfl rfl ⟨p1, q2, rfl, rfl, rfl, rfl, rfl⟩ fun x hx hsx => ?_
    refine Out.item rfl rfl ⟨p1, q2, rfl, rfl, rfl, rfl, rfl⟩ fun y hy hsy => ?_
    hrun
    have p2 := p1.put hx ((c.mem.vals.set a l).getD x [] ++ (c.mem.vals.set a l).getD y [])
    refine Out.lift (congrArg lastItem (kcell_kput (q1.bound kx (List.mem_of_getElem? hkx))))
      ⟨p2, q2, rfl, rfl, rfl, rfl, rfl⟩ fun m hm => ?_
    refine Out.lift rfl ⟨p2, q2, rfl, rfl, rfl, rfl, rfl⟩ fun maxes hmaxes => ?_
    hrun
    have p3 := p2.erase q
    have q3 := q2.erase q
    refine Out.del rfl rfl ⟨p2, q2, rfl, rfl, rfl, rfl, rfl⟩ ?_
    hrun
    refine Out.kdel rfl rfl ⟨p3, q2, rfl, rfl, rfl, rfl, rfl⟩ ?_
    hrun
    refine Out.lift rfl ⟨p3, q3, rfl, rfl, rfl, rfl, rfl⟩ fun maxes' hmaxes' => ?_
    hrun
    refine expand_out ?_ _
    exact ⟨p3, q3, rfl, rfl, rfl, rfl, rfl⟩
  refine Out.ite Iff.rfl (fun hlen => ?_) fun _ => ?_
  · refine Out.lift rfl ⟨p1, q1, rfl, rfl, rfl, rfl, rfl⟩ fun m hm => ?_
    refine Out.lift rfl ⟨p1, q1, rfl, rfl, rfl, rfl, rfl⟩ fun maxes hmaxes => ?_
    hrun
    exact Out.ok ⟨p1, q1, rfl, rfl, rfl, rfl, rfl⟩ rfl
  · hrun
    have p3 := p1.erase pos
    have q3 := q1.erase pos
    refine Out.del rfl rfl ⟨p1, q1, rfl, rfl, rfl, rfl, rfl⟩ ?_
    hrun
    refine Out.kdel rfl rfl ⟨p3, q1, rfl, rfl, rfl, rfl, rfl⟩ ?_
    hrun
    refine Out.lift rfl ⟨p3, q3, rfl, rfl, rfl, rfl, rfl⟩ fun maxes' hmaxes' => ?_
    hrun
    exact Out.ok ⟨p3, q3, rfl, rfl, rfl, rfl, rfl⟩ rfl

theorem discard_out (K : KEnv α κ) (hr : Rel c0 c s) (v : α) : Out c0 (discard K v c) (Verif.SKL.discard K v s) Eq' := by
  unfold discard Verif.SKL.discard
  refine Out.bind hr (reading_out (Verif.SKL.find_quiet K v) hr) fun c1 s1 b d h1 _ hbd => ?_
  cases hbd
  cases b with
  | none => exact Out.ok h1 rfl
  | some q => exact delete_out h1 _ _

theorem remove_out (K : KEnv α κ) (hr : Rel c0 c s) (v : α) : Out c0 (remove K v c) (Verif.SKL.remove K v s) Eq' := by
  unfold remove Verif.SKL.remove
  refine Out.bind hr (reading_out (Verif.SKL.find_quiet K v) hr) fun c1 s1 b d h1 _ hbd => ?_
  cases hbd
  cases b with
  | none => exact Out.error h1
  | some q => exact delete_out h1 _ _

end SKL

/-! ## Shared methods -/

theorem NewList.mono {b : Addr} {l : List α} (hr : Rel c0 c s) (h : NewList c c1 b l) : NewList c0 c1 b l :=
  ⟨⟨Nat.le_trans hr.lists.len h.1.new, h.1.bound, h.1.free⟩, h.2⟩

theorem NewList.across {b : Addr} {l : List α} (h : NewList c0 c b l) (hr : Rel c c1 s) : NewList c0 c1 b l :=
  have := h.1.across hr.lists
  ⟨this.1, this.2.trans h.2⟩

theorem new_out {l : List α} (hr : Rel c0 c s) :
    Out c0 (((.ok c.mem.vals.length : Except PyErr Addr), c.new l)) ((.ok l : Except PyErr (List α)), s) NewList := by
  obtain rfl := hr.view
  exact Out.ok ⟨hr.lists.push _, hr.keys, rfl, rfl, rfl, rfl, rfl⟩ ⟨hr.lists.fresh_push _, cell_new⟩

theorem Out.reading {β δ ε : Type} {S : Ctx α κ → Ctx α κ → δ → ε → Prop} {m : Py (St α κ) β} (hm : Quiet m)
    {g : β → Run α κ δ} {k : β → Py (St α κ) ε} (hr : Rel c0 c s)
    (h : ∀ b i o, Rel c0 { c with self := { c.self with index := i, offset := o } } { s with index := i, offset := o } →
      Out c0 (g b { c with self := { c.self with index := i, offset := o } }) (k b { s with index := i, offset := o }) S) :
    Out c0 ((reading m >>= g) c) ((m >>= k) s) S := by
  obtain rfl := hr.view
  obtain ⟨i, o, e⟩ := hm.reindexed c.view
  have r1 : Rel c0 { c with self := { c.self with index := i, offset := o } } { c.view with index := i, offset := o } :=
    ⟨hr.lists, hr.keys, rfl, rfl, rfl, rfl, rfl⟩
  have e1 : Heap.reading m c = ((m c.view).1, { c with self := { c.self with index := i, offset := o } }) := by
    show ((m c.view).1, ({ c with self := { c.self with index := (m c.view).2.index, offset := (m c.view).2.offset } } : Ctx α κ)) = _
    rw [e]
  rw [Py.bind_apply, Py.bind_apply, e1]
  rcases hx : m c.view with ⟨x, s'⟩
  rw [hx] at e
  subst e
  cases x with
  | error e => exact ⟨r1, rfl⟩
  | ok b => exact h b i o r1

theorem Out.mapEach {β γ : Type} {g : β → Run α κ γ} {k : β → Py (St α κ) γ} {c0 : Ctx α κ}
    (h : ∀ x c s, Rel c0 c s → Out c0 (g x c) (k x s) Eq') : ∀ (xs : List β) (c : Ctx α κ) (s : St α κ), Rel c0 c s →
    Out c0 (Py.mapEach g xs c) (Py.mapEach k xs s) Eq'
  | [], _, _, hr => Out.ok hr rfl
  | x :: xs, c, s, hr => by
    have h1 := h x c s hr
    rw [Py.mapEach, Py.mapEach, Py.bind_apply, Py.bind_apply]
    obtain ⟨h2, h3⟩ := h1
    rcases hx : g x c with ⟨_ | b, c1⟩ <;> rcases hy : k x s with ⟨_ | d, s1⟩ <;> rw [hx, hy] at h2 h3
    · exact ⟨h2, h3⟩
    · exact h3.elim
    · exact h3.elim
    · cases h3
      obtain ⟨h4, h5⟩ := Out.mapEach h xs c1 s1 h2
      simp only [Py.bind_apply]
      rcases hx : Py.mapEach g xs c1 with ⟨_ | bs, c2⟩ <;> rcases hy : Py.mapEach k xs s1 with ⟨_ | ds, s2⟩ <;> rw [hx, hy] at h4 h5
      · exact ⟨h4, h5⟩
      · exact h5.elim
      · exact h5.elim
      · cases h5; exact ⟨h4, rfl⟩

theorem bind_pure' {σ β : Type} (m : Py σ β) : m = m >>= pure := by
  funext s
  rw [Py.bind_apply]
  rcases m s with ⟨_ | _, _⟩ <;> rfl

namespace Core

theorem mapGet_out (ilog2 : Nat → Nat) (is : List Int) (hr : Rel c0 c s) :
    Out c0 ((Py.mapEach (fun i => reading (Verif.Core.getInt ilog2 i)) is >>= alloc) c)
      (Py.mapEach (Verif.Core.getInt ilog2) is s) NewList := by
  obtain rfl := hr.view
  rw [bind_pure' (Py.mapEach (Verif.Core.getInt ilog2) is)]
  refine Out.bind hr (R := Eq') (Out.mapEach (fun x c1 s1 h1 => ?_) _ _ _ hr.own.rel) fun c1 s1 b d h1 _ hbd => ?_
  · exact Out.tail h1 (reading_out (Verif.Core.getInt_quiet ilog2 x) h1) fun _ _ _ h => h
  · cases hbd
    exact new_out h1

theorem sliceTail_out (hr : Rel c0 c s) (l : List α) (startPos stopPos stopIdx : Nat) :
    Out c0 ((alloc l >>= fun pre => reduceIadd (subList c.self.lists (startPos + 1) stopPos) pre >>= fun _ =>
        Py.lift (getItem c.self.lists stopPos) >>= fun b => read b >>= fun l => alloc (l.take stopIdx) >>= fun tmp =>
        extend pre tmp >>= fun _ => pure pre) c)
      ((Py.lift (getItem s.lists stopPos) >>= fun lastList =>
        (pure (l ++ (subList s.lists (startPos + 1) stopPos).flatten ++ lastList.take stopIdx) : Py (St α κ) (List α))) s)
      NewList := by
  obtain rfl := hr.view
  hrun
  have hsub : ∀ x, x ∈ subList c.self.lists (startPos + 1) stopPos → x ∈ c.self.lists := fun x e =>
    List.mem_of_mem_take (List.mem_of_mem_drop e)
  have hn : c.mem.vals.length ∉ subList c.self.lists (startPos + 1) stopPos := fun e =>
    Nat.lt_irrefl _ (hr.lists.bound _ (hsub _ e))
  have hb : c.mem.vals.length < (c.new l).mem.vals.length := by simp [Ctx.new]
  have e1 : (subList c.self.lists (startPos + 1) stopPos).map (c.new l).cell = subList c.view.lists (startPos + 1) stopPos := by
    show _ = subList (c.self.lists.map c.cell) _ _
    rw [subList, subList, ← List.map_take, ← List.map_drop]
    apply List.map_congr_left
    intro x hx
    exact cell_new_lt (hr.lists.bound x (hsub x hx))
  rw [Py.bind_apply, reduceIadd_eq _ _ _ hb hn, new_put, cell_new, e1]
  generalize l ++ (subList c.view.lists (startPos + 1) stopPos).flatten = x
  have p1 := hr.lists.push x
  refine Out.item rfl rfl ⟨p1, hr.keys, rfl, rfl, rfl, rfl, rfl⟩ fun b hb hsb => ?_
  unfold extend
  hrun
  have e2 : (c.new x).cell b = c.cell b := cell_new_lt (hr.item_lt hb)
  generalize ((c.new x).cell b).take stopIdx = t
  have e3 : ((c.new x).new t).cell c.mem.vals.length = x := by
    rw [cell_new_lt (by simp [Ctx.new]), cell_new]
  have e4 : ((c.new x).new t).cell (c.new x).mem.vals.length = t := cell_new
  rw [e3, e4]
  have f2 := (hr.lists.fresh_push x).push t
  exact Out.ok ⟨(p1.push t).putFresh f2 (x ++ t), hr.keys, rfl, rfl, rfl, rfl, rfl⟩ ⟨f2.set _, cell_put f2.bound⟩

theorem getSliceFwd_out (ilog2 : Nat → Nat) (start stop : Int) (hr : Rel c0 c s) :
    Out c0 (getSliceFwd ilog2 start stop c) (Verif.Core.getSliceFwd ilog2 start stop s) NewList := by
  obtain rfl := hr.view
  unfold getSliceFwd Verif.Core.getSliceFwd
  hrun
  refine Out.ite Iff.rfl (fun _ => ?_) fun _ => ?_
  · rw [flatten_eq hr.own]
    exact new_out hr
  refine Out.reading (Verif.Core.pos_quiet ilog2 start) hr fun ⟨startPos, startIdx⟩ i o r1 => ?_
  refine Out.item rfl rfl r1 fun a ha hs => ?_
  hrun
  refine Out.ite Iff.rfl (fun _ => ?_) fun _ => ?_
  · exact new_out r1
  refine Out.ite Iff.rfl (fun _ => ?_) fun _ => ?_
  · rw [show c.view.lists.length = c.self.lists.length from hr.lists.length_eq]
    refine Out.item rfl rfl r1 fun b hb hsb => ?_
    hrun
    exact sliceTail_out r1 _ _ _ _
  · refine Out.reading (Verif.Core.pos_quiet ilog2 stop) r1 fun ⟨stopPos, stopIdx⟩ i o r2 => ?_
    exact sliceTail_out r2 _ _ _ _

theorem getSliceStep1_out (ilog2 : Nat → Nat) (start stop : Option Int) (hr : Rel c0 c s) :
    Out c0 (getSliceStep1 ilog2 start stop c) (Verif.Core.getSliceStep1 ilog2 start stop s) NewList := by
  obtain rfl := hr.view
  unfold getSliceStep1 Verif.Core.getSliceStep1
  hrun
  refine Out.lift rfl hr fun ⟨start, stop, step⟩ _ => ?_
  refine Out.ite Iff.rfl (fun _ => ?_) fun _ => ?_
  · exact getSliceFwd_out ilog2 start stop hr
  · exact mapGet_out ilog2 _ hr

theorem getSlice_out (ilog2 : Nat → Nat) (sl : PySlice) (hr : Rel c0 c s) :
    Out c0 (getSlice ilog2 sl c) (Verif.Core.getSlice ilog2 sl s) NewList := by
  obtain rfl := hr.view
  unfold getSlice Verif.Core.getSlice
  hrun
  refine Out.lift rfl hr fun ⟨start, stop, step⟩ _ => ?_
  refine Out.ite Iff.rfl (fun _ => ?_) fun _ => ?_
  · exact getSliceFwd_out ilog2 start stop hr
  refine Out.ite Iff.rfl (fun _ => ?_) fun _ => ?_
  · refine Out.bind hr (getSliceStep1_out ilog2 _ _ hr.own.rel) fun c1 s1 b l h1 _ hb => ?_
    obtain rfl := h1.view
    hrun
    have hb := hb.mono hr
    rw [hb.2]
    exact Out.ok ⟨h1.lists.putFresh hb.1 _, h1.keys, rfl, rfl, rfl, rfl, rfl⟩ ⟨hb.1.set _, cell_put hb.1.bound⟩
  · exact mapGet_out ilog2 _ hr

/-- The overridden methods agree. -/
structure MethodsSim (M : Methods α κ) (V : Verif.Methods α κ) : Prop where
  clear : ∀ {c0 c : Ctx α κ} {s}, Rel c0 c s → Out c0 (M.clear c) (V.clear s) Eq'
  update : ∀ {c0 c : Ctx α κ} {s} {src xs}, Rel c0 c s → Yields c src xs → Out c0 (M.update src c) (V.update xs s) Eq'
  delete : ∀ {c0 c : Ctx α κ} {s} (p i), Rel c0 c s → Out c0 (M.delete p i c) (V.delete p i s) Eq'
  ilog2 : M.ilog2 = V.ilog2

variable {M : Methods α κ} {V : Verif.Methods α κ}

theorem reset_out (hM : MethodsSim M V) (load : Nat) (hr : Rel c0 c s) :
    Out c0 (reset M load c) (Verif.Core.reset V load s) Eq' := by
  obtain rfl := hr.view
  unfold reset Verif.Core.reset
  rw [Py.bind_apply, flatten_eq hr.own]
  hrun
  obtain ⟨hn, hl⟩ := new_out (l := Verif.Core.iter c.view) hr
  refine Out.bind hn (hM.clear hn.here) fun c1 s1 _ _ h1 h2 _ => ?_
  obtain rfl := h1.view
  have hl := NewList.across hl h2
  hrun
  exact hM.update ⟨h1.lists, h1.keys, rfl, rfl, rfl, rfl, rfl⟩ hl.2

theorem delInt_out (hM : MethodsSim M V) (index : Int) (hr : Rel c0 c s) :
    Out c0 (delInt M index c) (Verif.Core.delInt V index s) Eq' := by
  unfold delInt Verif.Core.delInt
  rw [hM.ilog2]
  exact Out.reading (Verif.Core.pos_quiet _ _) hr fun ⟨p, i⟩ _ _ r1 => hM.delete p i r1

theorem clearUpdate_out (hM : MethodsSim M V) (hr : Rel c0 c s) {b : Addr} {l : List α} (hl : NewList c0 c b l) :
    Out c0 ((M.clear >>= fun _ => M.update (.list b)) c) ((V.clear >>= fun _ => V.update l) s) Eq' := by
  refine Out.bind hr (hM.clear hr.here) fun c1 s1 _ _ h1 h2 _ => ?_
  exact hM.update h1 (hl.across h2).2

theorem delSlice_out (hM : MethodsSim M V) (sl : PySlice) (hr : Rel c0 c s) :
    Out c0 (delSlice M sl c) (Verif.Core.delSlice V sl s) Eq' := by
  obtain rfl := hr.view
  unfold delSlice Verif.Core.delSlice
  rw [hM.ilog2]
  hrun
  refine Out.lift rfl hr fun ⟨start, stop, step⟩ _ => ?_
  refine Out.ite Iff.rfl (fun _ => ?_) fun _ => ?_
  · exact hM.clear hr
  refine Out.ite Iff.rfl (fun _ => ?_) fun _ => ?_
  · refine Out.bind hr (getSliceStep1_out _ _ _ hr.here) fun c1 s1 b l h1 _ hb => ?_
    have hb := hb.mono hr
    refine Out.ite Iff.rfl (fun _ => ?_) fun _ => ?_
    · hrun
      refine Out.bind h1 (getSliceStep1_out _ _ _ h1.here) fun c2 s2 t l' h2 h3 ht => ?_
      obtain rfl := h2.view
      have hb := hb.across h3
      unfold extend
      hrun
      rw [hb.2, ht.2]
      refine clearUpdate_out hM ?_ ?_
      · exact ⟨h2.lists.putFresh hb.1 _, h2.keys, rfl, rfl, rfl, rfl, rfl⟩
      · exact ⟨hb.1.set _, cell_put hb.1.bound⟩
    · hrun
      exact clearUpdate_out hM h1 hb
  · exact Out.forEach (fun x c s h => delInt_out hM x h) _ _ _ hr

theorem deleteVal_out (hM : MethodsSim M V) (hr : Rel c0 c s) (p i : Nat) (v : α) :
    Out c0 ((M.delete p i >>= fun _ => pure v) c) ((V.delete p i >>= fun _ => pure v) s) Eq' :=
  Out.bind hr (hM.delete p i hr.here) fun _ _ _ _ h1 _ _ => Out.ok h1 rfl

theorem pop_out (hM : MethodsSim M V) (index : Int) (hr : Rel c0 c s) :
    Out c0 (pop M index c) (Verif.Core.pop V index s) Eq' := by
  obtain rfl := hr.view
  unfold pop Verif.Core.pop
  rw [hM.ilog2]
  hrun
  have e1 : c.view.lists.length = c.self.lists.length := hr.lists.length_eq
  rw [e1]
  refine Out.ite Iff.rfl (fun _ => ?_) fun _ => ?_
  · exact Out.error hr
  refine Out.ite Iff.rfl (fun _ => ?_) fun _ => ?_
  · refine Out.item rfl rfl hr fun a _ _ => ?_
    hrun
    refine Out.lift rfl hr fun v _ => ?_
    exact deleteVal_out hM hr _ _ _
  refine Out.ite Iff.rfl (fun _ => ?_) fun _ => ?_
  · refine Out.item rfl rfl hr fun a _ _ => ?_
    hrun
    refine Out.lift rfl hr fun v _ => ?_
    exact deleteVal_out hM hr _ _ _
  refine Out.item rfl rfl hr fun a _ _ => ?_
  hrun
  refine Out.ite Iff.rfl (fun _ => ?_) fun _ => ?_
  · refine Out.lift rfl hr fun v _ => ?_
    exact deleteVal_out hM hr _ _ _
  refine Out.last rfl rfl hr fun b _ _ => ?_
  hrun
  refine Out.ite Iff.rfl (fun _ => ?_) fun _ => ?_
  · refine Out.item rfl rfl hr fun a _ _ => ?_
    hrun
    refine Out.lift rfl hr fun v _ => ?_
    exact deleteVal_out hM hr _ _ _
  refine Out.reading (Verif.Core.pos_quiet _ _) hr fun ⟨p, i⟩ _ _ r1 => ?_
  refine Out.item rfl rfl r1 fun a _ _ => ?_
  hrun
  refine Out.lift rfl r1 fun v _ => ?_
  exact deleteVal_out hM r1 _ _ _

theorem repeated_out (num : Int) (hr : Rel c0 c s) :
    Out c0 (repeated num c) (.ok (repeatList (Verif.Core.iter s) num), s) NewList := by
  obtain rfl := hr.view
  unfold repeated
  rw [Py.bind_apply, flatten_eq hr.own]
  hrun
  obtain ⟨hn, hl⟩ := new_out (l := Verif.Core.iter c.view) hr
  rw [cell_new]
  exact new_out (l := repeatList (Verif.Core.iter c.view) num) hn

theorem imul_out (hM : MethodsSim M V) (num : Int) (hr : Rel c0 c s) :
    Out c0 (imul M num c) (Verif.Core.imul V num s) Eq' := by
  unfold imul Verif.Core.imul
  hrun
  refine Out.bind (f := pure (repeatList (Verif.Core.iter s) num)) (k := fun l => V.clear >>= fun _ => V.update l) hr
    (repeated_out num hr.here) fun c1 s1 b l h1 _ hb => ?_
  exact clearUpdate_out hM h1 (hb.mono hr)

theorem concatArg_out (hr : Rel c0 c s) {src : Source α} {xs : List α} (hx : Yields c src xs)
    (hb : ∀ a, src = .list a → a < c.mem.vals.length) :
    Out c0 (concatArg src c) (.ok (Verif.Core.iter s ++ xs), s) NewList := by
  obtain rfl := hr.view
  unfold concatArg
  rw [Py.bind_apply, flatten_eq hr.own]
  have hx' : Yields (c.new (Verif.Core.iter c.view)) src xs := by
    cases src with
    | list a => exact (cell_new_lt (hb a rfl)).trans hx
    | values ys => exact hx
  show Out _ ((consume src >>= _) _) _ _
  rw [consume_bind hx']
  hrun
  obtain ⟨hn, hl⟩ := new_out (l := Verif.Core.iter c.view) hr
  rw [cell_new]
  exact Out.ok ⟨hn.lists.putFresh hl.1 _, hn.keys, rfl, rfl, rfl, rfl, rfl⟩ ⟨hl.1.set _, cell_put hl.1.bound⟩

end Core

theorem SL.methods_sim (E : Env α) : Core.MethodsSim (SL.methods E) (Verif.SL.methods E) where
  clear hr := by
    obtain rfl := hr.view
    exact Out.ok ⟨hr.lists.clear, hr.keys, rfl, rfl, rfl, rfl, rfl⟩ rfl
  update hr hx := SL.update_out E hr hx
  delete p i hr := SL.delete_out hr p i
  ilog2 := rfl

theorem SKL.methods_sim (K : KEnv α κ) : Core.MethodsSim (SKL.methods K) (Verif.SKL.methods K) where
  clear hr := by
    obtain rfl := hr.view
    exact Out.ok ⟨hr.lists.clear, hr.keys.clear, rfl, rfl, rfl, rfl, rfl⟩ rfl
  update hr hx := SKL.update_out K hr hx
  delete p i hr := SKL.delete_out hr p i
  ilog2 := rfl

end Heap
end Verif
