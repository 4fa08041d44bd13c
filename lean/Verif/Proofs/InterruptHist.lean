import Verif.Proofs.InterruptCall
/-!
# Interrupted calls: histories with any number of interruptions
-/

namespace Verif
variable {α κ β γ δ σ : Type}

/-- From objects with `P` on, the program passes only through objects with `P`; what it returns has `Q`. -/
def Thru (P : σ → Prop) (Q : β → Prop) (mt : IPy σ β) : Prop :=
  ∀ s h, P s → ∃ d, (mt (s, h)).2.2 = h ++ d ∧ (∀ x ∈ d, P x) ∧ P (mt (s, h)).2.1 ∧ ∀ b, (mt (s, h)).1 = .ok b → Q b

namespace Thru
variable {P : σ → Prop} {Q : β → Prop} {Q' : γ → Prop}

theorem pure {b : β} (hb : Q b) : Thru P Q (Pure.pure b : IPy σ β) := fun s h hs =>
  ⟨[], (List.append_nil _).symm, by simp, hs, fun _ e => by cases e; exact hb⟩

theorem raise (e : PyErr) : Thru P Q (IPy.raise e : IPy σ β) := fun s h hs =>
  ⟨[], (List.append_nil _).symm, by simp, hs, fun _ e => nomatch e⟩

theorem lift {x : Except PyErr β} (h : ∀ b, x = .ok b → Q b) : Thru P Q (IPy.lift x : IPy σ β) := fun s _ hs =>
  ⟨[], (List.append_nil _).symm, by simp, hs, h⟩

theorem bind {mt : IPy σ β} {ft : β → IPy σ γ} (h1 : Thru P Q mt) (h2 : ∀ b, Q b → Thru P Q' (ft b)) :
    Thru P Q' (mt >>= ft) := by
  intro s hh hs
  obtain ⟨d, e1, e2, e3, e4⟩ := h1 s hh hs
  have eq1 : (mt >>= ft) (s, hh) = Py.bind (σ := σ × List σ) mt ft (s, hh) := rfl
  rw [eq1]
  unfold Py.bind
  rcases hmt : mt (s, hh) with ⟨r, s1, l1⟩
  rw [hmt] at e1 e3 e4
  cases r with
  | error e => exact ⟨d, e1, e2, e3, fun _ hb => nomatch hb⟩
  | ok b =>
    obtain ⟨d', g1, g2, g3, g4⟩ := h2 b (e4 b rfl) s1 l1 e3
    have e1 : l1 = hh ++ d := e1
    subst e1
    refine ⟨d ++ d', by rw [← List.append_assoc]; exact g1, ?_, g3, g4⟩
    intro x hx
    rcases List.mem_append.1 hx with h | h
    · exact e2 x h
    · exact g2 x h

theorem get_bind {ft : σ → IPy σ γ} (h : ∀ s, P s → Thru P Q' (ft s)) : Thru P Q' (IPy.get >>= ft) := fun s hh hs =>
  h s hs s hh hs

theorem lift_bind {x : Except PyErr β} {ft : β → IPy σ γ} (h : ∀ b, x = .ok b → Thru P Q' (ft b)) :
    Thru P Q' (IPy.lift x >>= ft) :=
  bind (Q := fun b => x = .ok b) (lift fun _ e => e) h

theorem write {g : σ → σ} (h : ∀ s, P s → P (g s)) : Thru P (fun _ => True) (IPy.write g) := fun s _ hs =>
  ⟨[g s], rfl, fun x hx => by rw [List.mem_singleton.1 hx]; exact h s hs, h s hs, fun _ _ => trivial⟩

theorem write_bind {g : σ → σ} {ft : Unit → IPy σ γ} (h : ∀ s, P s → P (g s)) (h2 : Thru P Q' (ft ())) :
    Thru P Q' (IPy.write g >>= ft) := bind (write h) fun _ _ => h2

theorem ite {c : Prop} [Decidable c] {mt mt' : IPy σ β} (h1 : c → Thru P Q mt) (h2 : ¬ c → Thru P Q mt') :
    Thru P Q (if c then mt else mt') := by
  by_cases hc : c
  · rw [if_pos hc]; exact h1 hc
  · rw [if_neg hc]; exact h2 hc

theorem forEach {ft : β → IPy σ Unit} {xs : List β} (h : ∀ b ∈ xs, Thru P (fun _ => True) (ft b)) :
    Thru P (fun _ => True) (IPy.forEach ft xs) := by
  induction xs with
  | nil => exact pure trivial
  | cons x xs ih => exact bind (h x (by simp)) fun _ _ => ih fun b hb => h b (by simp [hb])

theorem mapEach {ft : β → IPy σ γ} (h : ∀ b, Thru P Q' (ft b)) (xs : List β) :
    Thru P (fun ys => ∀ y ∈ ys, Q' y) (IPy.mapEach ft xs) := by
  induction xs with
  | nil => exact pure (by simp)
  | cons x xs ih =>
    refine bind (h x) fun y hy => bind ih fun ys hys => pure ?_
    intro z hz
    rcases List.mem_cons.1 hz with rfl | hz
    · exact hy
    · exact hys z hz

theorem of_tr {P : St α κ → Prop} {mt : IPy (St α κ) β} {m : Py (St α κ) β} (h : ∀ s, Tr P mt m s) : Thru P (fun _ => True) mt := fun s hh hs => by
  obtain ⟨d, e1, e2, e3, -⟩ := h s hs hh
  exact ⟨d, e1, e2, e3, fun _ _ => trivial⟩

theorem out {mt : IPy σ β} (h : Thru P Q mt) (f : β → Out δ) : Thru P (fun _ => True) (Spec.out f mt) :=
  bind h fun b _ => pure (b := f b) trivial

theorem points {mt : IPy σ β} (h : Thru P Q mt) {s : σ} (hs : P s) : ∀ x ∈ mt.points s, P x := by
  obtain ⟨d, e1, e2, -⟩ := h s [] hs
  intro x hx
  rcases List.mem_cons.1 hx with rfl | hx
  · exact hs
  · rw [e1] at hx; exact e2 x (by simpa using hx)

theorem run {mt : IPy σ β} (h : Thru P Q mt) {s : σ} (hs : P s) : P (mt.run s).2 := (h s [] hs).choose_spec.2.2.1

end Thru

/-- The sublists hold only values with `V`. -/
def Vals (V : α → Prop) (L : List (List α)) : Prop := ∀ l ∈ L, ∀ v ∈ l, V v

/-- The load factor is positive, and the sublists hold only values with `V`. -/
def Holds (V : α → Prop) (s : St α κ) : Prop := 1 ≤ s.load ∧ Vals V s.lists

theorem Holds.noIndex (V : α → Prop) : NoIndex (Holds V : St α κ → Prop) := fun _ _ _ h => h

namespace Vals
variable {V : α → Prop} {L : List (List α)}

theorem flatten (h : Vals V L) : ∀ v ∈ L.flatten, V v := by
  intro v hv
  obtain ⟨l, hl, hv⟩ := List.mem_flatten.1 hv
  exact h l hl v hv

theorem getItem (h : Vals V L) {p : Nat} {l : List α} (e : Verif.getItem L p = .ok l) : ∀ v ∈ l, V v := by
  rw [getItem_ok_iff] at e
  exact h l (List.mem_of_getElem? e)

theorem lastItem (h : Vals V L) {l : List α} (e : Verif.lastItem L = .ok l) : ∀ v ∈ l, V v := by
  unfold Verif.lastItem at e
  split at e
  · rename_i e'; cases e; exact h _ (List.mem_of_getLast? e')
  · cases e

theorem set (h : Vals V L) (p : Nat) {l : List α} (hl : ∀ v ∈ l, V v) : Vals V (L.set p l) := by
  intro x hx
  rcases List.mem_or_eq_of_mem_set hx with hx | rfl
  · exact h x hx
  · exact hl

theorem append {L' : List (List α)} (h : Vals V L) (h' : Vals V L') : Vals V (L ++ L') := by
  intro x hx
  rcases List.mem_append.1 hx with hx | hx
  · exact h x hx
  · exact h' x hx

theorem insertAt (h : Vals V L) (p : Nat) {l : List α} (hl : ∀ v ∈ l, V v) : Vals V (Verif.insertAt L p l) := by
  intro x hx
  unfold Verif.insertAt at hx
  rcases List.mem_append.1 hx with hx | hx
  · exact h x (List.mem_of_mem_take hx)
  · rcases List.mem_cons.1 hx with rfl | hx
    · exact hl
    · exact h x (List.mem_of_mem_drop hx)

theorem delItem (h : Vals V L) {p : Nat} {L' : List (List α)} (e : Verif.delItem L p = .ok L') : Vals V L' := by
  unfold Verif.delItem at e
  split at e
  · cases e; intro x hx; exact h x (List.mem_of_mem_eraseIdx hx)
  · cases e

theorem sub (h : Vals V L) (a b : Nat) : Vals V (subList L a b) := by
  intro x hx
  unfold subList at hx
  exact h x (List.mem_of_mem_take (List.mem_of_mem_drop hx))

end Vals

section Values
variable {V : α → Prop} {l : List α}

theorem val_getItem (h : ∀ v ∈ l, V v) {p : Nat} {x : α} (e : getItem l p = .ok x) : V x := by
  rw [getItem_ok_iff] at e
  exact h x (List.mem_of_getElem? e)

theorem val_lastItem (h : ∀ v ∈ l, V v) {x : α} (e : lastItem l = .ok x) : V x := by
  unfold lastItem at e
  split at e
  · rename_i e'; cases e; exact h _ (List.mem_of_getLast? e')
  · cases e

theorem val_delItem (h : ∀ v ∈ l, V v) {p : Nat} {l' : List α} (e : delItem l p = .ok l') : ∀ v ∈ l', V v := by
  unfold delItem at e
  split at e
  · cases e; intro x hx; exact h x (List.mem_of_mem_eraseIdx hx)
  · cases e

theorem val_insertAt (h : ∀ v ∈ l, V v) {x : α} (hx : V x) (p : Nat) : ∀ v ∈ insertAt l p x, V v := by
  intro v hv
  unfold insertAt at hv
  rcases List.mem_append.1 hv with hv | hv
  · exact h v (List.mem_of_mem_take hv)
  · rcases List.mem_cons.1 hv with rfl | hv
    · exact hx
    · exact h v (List.mem_of_mem_drop hv)

theorem val_append {l' : List α} (h : ∀ v ∈ l, V v) (h' : ∀ v ∈ l', V v) : ∀ v ∈ l ++ l', V v := by
  intro v hv
  rcases List.mem_append.1 hv with hv | hv
  · exact h v hv
  · exact h' v hv

theorem val_repeat (h : ∀ v ∈ l, V v) (n : Int) : ∀ v ∈ repeatList l n, V v := by
  intro v hv
  unfold repeatList at hv
  obtain ⟨l', hl', hv⟩ := List.mem_flatten.1 hv
  rw [List.eq_of_mem_replicate hl'] at hv
  exact h v hv

end Values

namespace Interrupt
variable {V : α → Prop} {ilog2 : Nat → Nat}

theorem pos_thru (i : Int) : Thru (Holds V) (fun _ => True) (pos ilog2 i : IPy (St α κ) _) :=
  Thru.of_tr fun _ => pos_tr (Holds.noIndex V) i

theorem getInt_thru (i : Int) : Thru (Holds V) V (getInt ilog2 i : IPy (St α κ) _) := by
  refine Thru.get_bind fun s hs => Thru.ite (fun _ => Thru.ite (fun _ => ?_) fun _ => Thru.ite (fun _ => ?_) fun _ => ?_) fun _ => Thru.raise _
  · exact Thru.lift_bind fun l hl => Thru.lift fun x hx => val_getItem (hs.2.getItem hl) hx
  · exact Thru.lift_bind fun l hl => Thru.lift fun x hx => val_lastItem (hs.2.lastItem hl) hx
  · refine Thru.lift_bind fun l hl => Thru.ite (fun _ => Thru.lift fun x hx => val_getItem (hs.2.getItem hl) hx) fun _ =>
      Thru.lift_bind fun l' hl' => Thru.ite (fun _ => Thru.lift fun x hx => val_getItem (hs.2.lastItem hl') hx) fun _ => ?_
    exact Thru.bind (pos_thru i) fun ⟨p, x⟩ _ => Thru.lift_bind fun l hl => Thru.lift fun x hx => val_getItem (hs.2.getItem hl) hx

theorem getSliceFwd_thru (i j : Int) : Thru (Holds V) (fun vs => ∀ v ∈ vs, V v) (getSliceFwd ilog2 i j : IPy (St α κ) _) := by
  refine Thru.get_bind fun s hs => Thru.ite (fun _ => Thru.pure hs.2.flatten) fun _ => Thru.bind (pos_thru i) fun ⟨p, x⟩ _ =>
    Thru.lift_bind fun l hl => Thru.ite (fun _ => Thru.pure ?_) fun _ => ?_
  · intro v hv
    exact hs.2.getItem hl v (List.mem_of_mem_take (List.mem_of_mem_drop hv))
  · have fin : ∀ q y, Thru (Holds V) (fun vs => ∀ v ∈ vs, V v) (do
        let lastList ← IPy.lift (getItem s.lists q)
        pure (l.drop x ++ (subList s.lists (p + 1) q).flatten ++ lastList.take y) : IPy (St α κ) (List α)) := by
      intro q y
      refine Thru.lift_bind fun l' hl' => Thru.pure (val_append (val_append ?_ ?_) ?_)
      · intro v hv; exact hs.2.getItem hl v (List.mem_of_mem_drop hv)
      · exact (hs.2.sub _ _).flatten
      · intro v hv; exact hs.2.getItem hl' v (List.mem_of_mem_take hv)
    refine Thru.ite (fun _ => Thru.lift_bind fun _ _ => Thru.bind (Q := fun _ => True) (Thru.pure trivial) fun ⟨q, y⟩ _ => fin q y) fun _ =>
      Thru.bind (pos_thru j) fun ⟨q, y⟩ _ => fin q y

theorem getSliceStep1_thru (i j : Option Int) :
    Thru (Holds V) (fun vs => ∀ v ∈ vs, V v) (getSliceStep1 ilog2 i j : IPy (St α κ) _) :=
  Thru.get_bind fun _ _ => Thru.lift_bind fun ⟨_, _, _⟩ _ => Thru.ite (fun _ => getSliceFwd_thru _ _) fun _ => Thru.mapEach getInt_thru _

/-- What the shared code needs to know. -/
structure ThruM (V : α → Prop) (M : IMethods α κ) : Prop where
  clear : Thru (Holds V) (fun _ => True) M.clear
  update : ∀ {xs}, (∀ v ∈ xs, V v) → Thru (Holds V) (fun _ => True) (M.update xs)
  delete : ∀ p i, Thru (Holds V) (fun _ => True) (M.delete p i)

namespace ThruM
variable {M : IMethods α κ} (h : ThruM V M)
include h

theorem reset {load : Nat} (hload : 1 ≤ load) : Thru (Holds V) (fun _ => True) (Interrupt.reset M load) :=
  Thru.get_bind fun _ hs => Thru.bind h.clear fun _ _ => Thru.write_bind (fun _ hs => ⟨hload, hs.2⟩) (h.update hs.2.flatten)

theorem delInt (i : Int) : Thru (Holds V) (fun _ => True) (Interrupt.delInt M i) :=
  Thru.bind (pos_thru i) fun ⟨_, _⟩ _ => h.delete _ _

theorem pop (i : Int) : Thru (Holds V) (fun _ => True) (Interrupt.pop M i) := by
  have fin : ∀ p x (v : α), Thru (Holds V) (fun _ => True) (do M.delete p x; pure v : IPy (St α κ) α) := fun p x v =>
    Thru.bind (h.delete p x) fun _ _ => Thru.pure trivial
  exact Thru.get_bind fun s hs => Thru.ite (fun _ => Thru.raise _) fun _ =>
    Thru.ite (fun _ => Thru.lift_bind fun _ _ => Thru.lift_bind fun _ _ => fin _ _ _) fun _ =>
    Thru.ite (fun _ => Thru.lift_bind fun _ _ => Thru.lift_bind fun _ _ => fin _ _ _) fun _ =>
    Thru.lift_bind fun _ _ => Thru.ite (fun _ => Thru.lift_bind fun _ _ => fin _ _ _) fun _ =>
    Thru.lift_bind fun _ _ => Thru.ite (fun _ => Thru.lift_bind fun _ _ => Thru.lift_bind fun _ _ => fin _ _ _) fun _ =>
    Thru.bind (pos_thru i) fun ⟨_, _⟩ _ => Thru.lift_bind fun _ _ => Thru.lift_bind fun _ _ => fin _ _ _

theorem imul (n : Int) : Thru (Holds V) (fun _ => True) (Interrupt.imul M n) :=
  Thru.get_bind fun _ hs => Thru.bind h.clear fun _ _ => h.update (val_repeat hs.2.flatten n)

theorem delSlice (sl : PySlice) : Thru (Holds V) (fun _ => True) (Interrupt.delSlice M sl) := by
  have fin : ∀ vs, (∀ v ∈ vs, V v) → Thru (Holds V) (fun _ => True) (do M.clear; M.update vs : IPy (St α κ) Unit) := fun vs hv =>
    Thru.bind h.clear fun _ _ => h.update hv
  refine Thru.get_bind fun s hs => Thru.lift_bind fun ⟨_, _, _⟩ _ => Thru.ite (fun _ => h.clear) fun _ => Thru.ite (fun _ => ?_) fun _ => ?_
  · refine Thru.bind (getSliceStep1_thru _ _) fun vs hv => Thru.ite (fun _ => ?_) fun _ => ?_
    · exact Thru.bind (getSliceStep1_thru _ _) fun tail ht => Thru.bind (Q := fun vs => ∀ v ∈ vs, V v) (Thru.pure (val_append hv ht)) fin
    · exact Thru.bind (Q := fun vs => ∀ v ∈ vs, V v) (Thru.pure hv) fin
  · exact Thru.forEach fun i _ => h.delInt i

end ThruM

namespace SL
variable {E : Env α}

theorem expand_thru (p : Nat) : Thru (Holds V) (fun _ => True) (expand p : IPy (St α α) Unit) := by
  refine Thru.get_bind fun s hs => Thru.lift_bind fun l hl => Thru.ite (fun _ => ?_) fun _ => Thru.of_tr fun _ => touchIndex_tr (Holds.noIndex V) _ _
  have hv := hs.2.getItem hl
  exact Thru.write_bind (fun _ h => ⟨h.1, h.2.set p fun v hm => hv v (List.mem_of_mem_take hm)⟩) (Thru.lift_bind fun _ _ => Thru.lift_bind fun _ _ =>
    Thru.write_bind (fun _ h => h) (Thru.write_bind (fun _ h => ⟨h.1, h.2.insertAt _ fun v hm => hv v (List.mem_of_mem_drop hm)⟩)
      (Thru.lift_bind fun _ _ => Thru.write_bind (fun _ h => h) (Thru.write fun _ h => h))))

theorem add_thru {v : α} (hv : V v) : Thru (Holds V) (fun _ => True) (add E v) := by
  have hvs : ∀ x ∈ [v], V x := by simpa using hv
  refine Thru.get_bind fun s hs => Thru.ite (fun _ => Thru.lift_bind fun p _ => Thru.ite (fun _ => ?_) fun _ => ?_) fun _ => ?_
  · exact Thru.lift_bind fun l hl => Thru.write_bind (fun _ h => ⟨h.1, h.2.set _ (val_append (hs.2.getItem hl) hvs)⟩)
      (Thru.write_bind (fun _ h => h) (Thru.bind (expand_thru _) fun _ _ => Thru.write fun _ h => h))
  · refine Thru.lift_bind fun l hl => Thru.lift_bind fun l' hl' => Thru.write_bind (fun _ h => ⟨h.1, h.2.set _ ?_⟩)
      (Thru.bind (expand_thru _) fun _ _ => Thru.write fun _ h => h)
    unfold insort at hl'
    cases ei : bisectRight E.lt l v with
    | error e => rw [ei] at hl'; cases hl'
    | ok i =>
      rw [ei] at hl'
      obtain rfl : insertAt l i v = l' := Except.ok.inj hl'
      exact val_insertAt (hs.2.getItem hl) hv i
  · exact Thru.write_bind (fun _ h => ⟨h.1, h.2.append (by simpa [Vals] using hv)⟩) (Thru.write_bind (fun _ h => h) (Thru.write fun _ h => h))

theorem clear_thru : Thru (Holds V) (fun _ => True) (clear : IPy (St α α) Unit) :=
  Thru.write_bind (fun _ h => h) (Thru.write_bind (fun _ h => ⟨h.1, nofun⟩) (Thru.write_bind (fun _ h => h) (Thru.write_bind (fun _ h => h)
    (Thru.write fun _ h => h))))

theorem fill_thru {vs : List α} (hv : ∀ v ∈ vs, V v) : Thru (Holds V) (fun _ => True) (fill vs) := by
  refine Thru.get_bind fun s hs => Thru.lift_bind fun cs hcs => ?_
  obtain ⟨cs', ec, h1, -⟩ := chunks_ok hs.1 vs
  obtain rfl : cs = cs' := Except.ok.inj (hcs.symm.trans ec)
  have hc : Vals V cs := fun l hl v hm => hv v (by rw [← h1]; exact List.mem_flatten.2 ⟨l, hl, hm⟩)
  refine Thru.bind (Thru.forEach fun l hl => Thru.write fun _ h => ⟨h.1, h.2.append fun l' hl' => ?_⟩) fun _ _ => Thru.get_bind fun _ _ =>
    Thru.bind (Thru.forEach fun l _ => Thru.lift_bind fun m _ => Thru.write fun _ h => h) fun _ _ =>
    Thru.write_bind (fun _ h => h) (Thru.write fun _ h => h)
  rw [List.mem_singleton.1 hl']; exact hc l hl

theorem update_thru (hE : E.Sane) {xs : List α} (hv : ∀ v ∈ xs, V v) : Thru (Holds V) (fun _ => True) (update E xs) := by
  refine Thru.lift_bind fun ys hys => ?_
  have hy : ∀ v ∈ ys, V v := fun v hm => hv v ((hE.perm _ _ hys).mem_iff.1 hm)
  refine Thru.get_bind fun s hs => Thru.ite (fun _ => Thru.ite (fun _ => ?_) fun _ => Thru.forEach fun v hm => add_thru (hy v hm)) fun _ => fill_thru hy
  refine Thru.write_bind (fun _ h => ⟨h.1, h.2.append fun l hl => ?_⟩) (Thru.get_bind fun s hs => Thru.lift_bind fun zs hzs =>
    Thru.bind clear_thru fun _ _ => fill_thru fun v hm => hs.2.flatten v ((hE.perm _ _ hzs).mem_iff.1 hm))
  rw [List.mem_singleton.1 hl]; exact hy

theorem delete_thru (p i : Nat) : Thru (Holds V) (fun _ => True) (delete p i : IPy (St α α) Unit) := by
  refine Thru.get_bind fun s hs => Thru.lift_bind fun l hl => Thru.lift_bind fun l' hl' =>
    Thru.write_bind (fun _ h => ⟨h.1, h.2.set _ (val_delItem (hs.2.getItem hl) hl')⟩) (Thru.lift_bind fun _ _ => Thru.write_bind (fun _ h => h)
    (Thru.ite (fun _ => ?_) fun _ => Thru.ite (fun _ => ?_) fun _ => Thru.ite (fun _ => ?_) fun _ => ?_))
  · exact Thru.lift_bind fun _ _ => Thru.lift_bind fun _ _ => Thru.write_bind (fun _ h => h) (Thru.of_tr fun _ => touchIndex_tr (Holds.noIndex V) _ _)
  · refine Thru.get_bind fun s hs => Thru.lift_bind fun a ha => Thru.lift_bind fun b hb =>
      Thru.write_bind (fun _ h => ⟨h.1, h.2.set _ (val_append (hs.2.getItem ha) (hs.2.getItem hb))⟩) (Thru.lift_bind fun _ _ =>
      Thru.lift_bind fun _ _ => Thru.write_bind (fun _ h => h) (Thru.get_bind fun s hs => Thru.lift_bind fun L hL =>
      Thru.write_bind (fun _ h => ⟨h.1, hs.2.delItem hL⟩) (Thru.lift_bind fun _ _ => Thru.write_bind (fun _ h => h) (Thru.write_bind (fun _ h => h)
      (expand_thru _)))))
  · exact Thru.lift_bind fun _ _ => Thru.lift_bind fun _ _ => Thru.write fun _ h => h
  · exact Thru.get_bind fun s hs => Thru.lift_bind fun L hL => Thru.write_bind (fun _ h => ⟨h.1, hs.2.delItem hL⟩)
      (Thru.lift_bind fun _ _ => Thru.write_bind (fun _ h => h) (Thru.write fun _ h => h))

theorem thruM (hE : E.Sane) : ThruM V (methods E) := ⟨clear_thru, fun h => update_thru hE h, delete_thru⟩

theorem discard_thru (v : α) : Thru (Holds V) (fun _ => True) (discard E v) :=
  Thru.get_bind fun _ _ => Thru.ite (fun _ => Thru.pure trivial) fun _ => Thru.lift_bind fun _ _ => Thru.ite (fun _ => Thru.pure trivial) fun _ =>
    Thru.lift_bind fun _ _ => Thru.lift_bind fun _ _ => Thru.lift_bind fun _ _ => Thru.lift_bind fun _ _ =>
    Thru.ite (fun _ => delete_thru _ _) fun _ => Thru.pure trivial

theorem remove_thru (v : α) : Thru (Holds V) (fun _ => True) (remove E v) :=
  Thru.get_bind fun _ _ => Thru.ite (fun _ => Thru.raise _) fun _ => Thru.lift_bind fun _ _ => Thru.ite (fun _ => Thru.raise _) fun _ =>
    Thru.lift_bind fun _ _ => Thru.lift_bind fun _ _ => Thru.lift_bind fun _ _ => Thru.lift_bind fun _ _ =>
    Thru.ite (fun _ => delete_thru _ _) fun _ => Thru.raise _

theorem step_thru (hE : E.Sane) (op : Op α) (hv : op.Valid) (hi : ∀ v ∈ op.inserted, V v) :
    Thru (Holds V) (fun _ => True) (step E op) := by
  have hM := thruM (V := V) hE
  cases op with
  | add v => exact (add_thru (hi v (by simp [Op.inserted]))).out _
  | update xs => exact (update_thru hE hi).out _
  | clear => exact clear_thru.out _
  | discard v => exact (discard_thru v).out _
  | remove v => exact (remove_thru v).out _
  | delInt i => exact (hM.delInt i).out _
  | delSlice sl => exact (hM.delSlice sl).out _
  | pop i => exact (hM.pop i).out _
  | iadd xs => exact (update_thru hE hi).out _
  | imul n => exact (hM.imul n).out _
  | reset load => exact (hM.reset hv).out _
  | unsupported u => exact Thru.of_tr fun _ => query_tr (Holds.noIndex V) (.inr ⟨u, rfl⟩)
  | _ => exact Thru.of_tr fun _ => query_tr (Holds.noIndex V) (.inl rfl)

end SL

namespace SKL
variable {K : KEnv α κ}

theorem expand_thru (p : Nat) : Thru (Holds V) (fun _ => True) (expand p : IPy (St α κ) Unit) := by
  refine Thru.get_bind fun s hs => Thru.lift_bind fun ks _ => Thru.ite (fun _ => Thru.lift_bind fun l hl => ?_) fun _ =>
    Thru.of_tr fun _ => touchIndex_tr (Holds.noIndex V) _ _
  have hv := hs.2.getItem hl
  exact Thru.write_bind (fun _ h => ⟨h.1, h.2.set p fun v hm => hv v (List.mem_of_mem_take hm)⟩) (Thru.write_bind (fun _ h => h)
    (Thru.lift_bind fun _ _ => Thru.lift_bind fun _ _ =>
    Thru.write_bind (fun _ h => h) (Thru.write_bind (fun _ h => ⟨h.1, h.2.insertAt _ fun v hm => hv v (List.mem_of_mem_drop hm)⟩)
      (Thru.write_bind (fun _ h => h) (Thru.lift_bind fun _ _ => Thru.write_bind (fun _ h => h) (Thru.write fun _ h => h))))))

theorem add_thru {v : α} (hv : V v) : Thru (Holds V) (fun _ => True) (add K v) := by
  have hvs : ∀ x ∈ [v], V x := by simpa using hv
  refine Thru.get_bind fun s hs => Thru.lift_bind fun _ _ => Thru.ite (fun _ => Thru.lift_bind fun p _ => Thru.ite (fun _ => ?_) fun _ => ?_) fun _ => ?_
  · exact Thru.lift_bind fun l hl => Thru.write_bind (fun _ h => ⟨h.1, h.2.set _ (val_append (hs.2.getItem hl) hvs)⟩)
      (Thru.lift_bind fun _ _ => Thru.write_bind (fun _ h => h) (Thru.write_bind (fun _ h => h) (Thru.bind (expand_thru _) fun _ _ => Thru.write fun _ h => h)))
  · exact Thru.lift_bind fun ks _ => Thru.lift_bind fun i _ => Thru.lift_bind fun l hl =>
      Thru.write_bind (fun _ h => ⟨h.1, h.2.set _ (val_insertAt (hs.2.getItem hl) hv i)⟩)
      (Thru.write_bind (fun _ h => h) (Thru.bind (expand_thru _) fun _ _ => Thru.write fun _ h => h))
  · exact Thru.write_bind (fun _ h => ⟨h.1, h.2.append (by simpa [Vals] using hv)⟩) (Thru.write_bind (fun _ h => h) (Thru.write_bind (fun _ h => h)
      (Thru.write fun _ h => h)))

theorem clear_thru : Thru (Holds V) (fun _ => True) (clear : IPy (St α κ) Unit) :=
  Thru.write_bind (fun _ h => h) (Thru.write_bind (fun _ h => ⟨h.1, nofun⟩) (Thru.write_bind (fun _ h => h) (Thru.write_bind (fun _ h => h)
    (Thru.write fun _ h => h))))

theorem fill_thru {vs : List α} (hv : ∀ v ∈ vs, V v) : Thru (Holds V) (fun _ => True) (fill K vs) := by
  refine Thru.get_bind fun s hs => Thru.lift_bind fun cs hcs => ?_
  obtain ⟨cs', ec, h1, -⟩ := chunks_ok hs.1 vs
  obtain rfl : cs = cs' := Except.ok.inj (hcs.symm.trans ec)
  have hc : Vals V cs := fun l hl v hm => hv v (by rw [← h1]; exact List.mem_flatten.2 ⟨l, hl, hm⟩)
  refine Thru.bind (Thru.forEach fun l hl => Thru.write fun _ h => ⟨h.1, h.2.append fun l' hl' => ?_⟩) fun _ _ => Thru.get_bind fun _ _ =>
    Thru.bind (Thru.forEach fun l _ => Thru.lift_bind fun m _ => Thru.write fun _ h => h) fun _ _ => Thru.get_bind fun _ _ =>
    Thru.bind (Thru.forEach fun l _ => Thru.lift_bind fun m _ => Thru.write fun _ h => h) fun _ _ =>
    Thru.write_bind (fun _ h => h) (Thru.write fun _ h => h)
  rw [List.mem_singleton.1 hl']; exact hc l hl

theorem update_thru (hK : K.Sane) {xs : List α} (hv : ∀ v ∈ xs, V v) : Thru (Holds V) (fun _ => True) (update K xs) := by
  refine Thru.lift_bind fun ys hys => ?_
  have hy : ∀ v ∈ ys, V v := fun v hm => hv v ((hK.perm _ _ hys).mem_iff.1 hm)
  refine Thru.get_bind fun s hs => Thru.ite (fun _ => Thru.ite (fun _ => ?_) fun _ => Thru.forEach fun v hm => add_thru (hy v hm)) fun _ => fill_thru hy
  refine Thru.write_bind (fun _ h => ⟨h.1, h.2.append fun l hl => ?_⟩) (Thru.get_bind fun s hs => Thru.lift_bind fun zs hzs =>
    Thru.bind clear_thru fun _ _ => fill_thru fun v hm => hs.2.flatten v ((hK.perm _ _ hzs).mem_iff.1 hm))
  rw [List.mem_singleton.1 hl]; exact hy

theorem delete_thru (p i : Nat) : Thru (Holds V) (fun _ => True) (delete p i : IPy (St α κ) Unit) := by
  refine Thru.get_bind fun s hs => Thru.lift_bind fun _ _ => Thru.lift_bind fun l hl => Thru.lift_bind fun _ _ => Thru.write_bind (fun _ h => h)
    (Thru.lift_bind fun l' hl' => Thru.write_bind (fun _ h => ⟨h.1, h.2.set _ (val_delItem (hs.2.getItem hl) hl')⟩) (Thru.lift_bind fun _ _ =>
    Thru.write_bind (fun _ h => h) (Thru.ite (fun _ => ?_) fun _ => Thru.ite (fun _ => ?_) fun _ => Thru.ite (fun _ => ?_) fun _ => ?_)))
  · exact Thru.lift_bind fun _ _ => Thru.lift_bind fun _ _ => Thru.write_bind (fun _ h => h) (Thru.of_tr fun _ => touchIndex_tr (Holds.noIndex V) _ _)
  · exact Thru.get_bind fun s hs => Thru.lift_bind fun _ _ => Thru.lift_bind fun _ _ => Thru.write_bind (fun _ h => h) (Thru.lift_bind fun a ha =>
      Thru.lift_bind fun b hb => Thru.write_bind (fun _ h => ⟨h.1, h.2.set _ (val_append (hs.2.getItem ha) (hs.2.getItem hb))⟩)
      (Thru.lift_bind fun _ _ => Thru.lift_bind fun _ _ => Thru.write_bind (fun _ h => h) (Thru.get_bind fun s hs => Thru.lift_bind fun L hL =>
      Thru.write_bind (fun _ h => ⟨h.1, hs.2.delItem hL⟩) (Thru.lift_bind fun _ _ => Thru.write_bind (fun _ h => h) (Thru.lift_bind fun _ _ =>
      Thru.write_bind (fun _ h => h) (Thru.write_bind (fun _ h => h) (expand_thru _)))))))
  · exact Thru.lift_bind fun _ _ => Thru.lift_bind fun _ _ => Thru.write fun _ h => h
  · exact Thru.get_bind fun s hs => Thru.lift_bind fun L hL => Thru.write_bind (fun _ h => ⟨h.1, hs.2.delItem hL⟩)
      (Thru.lift_bind fun _ _ => Thru.write_bind (fun _ h => h) (Thru.lift_bind fun _ _ => Thru.write_bind (fun _ h => h) (Thru.write fun _ h => h)))

theorem thruM (hK : K.Sane) : ThruM V (methods K) := ⟨clear_thru, fun h => update_thru hK h, delete_thru⟩

theorem find_thru (v : α) : Thru (Holds V) (fun _ => True) (IPy.still (Verif.SKL.find K v) : IPy (St α κ) _) :=
  Thru.of_tr fun s => Tr.of_still (Verif.SKL.find_stays K v s)

theorem discard_thru (v : α) : Thru (Holds V) (fun _ => True) (discard K v) :=
  Thru.bind (find_thru v) fun q _ => by
    rcases q with _ | ⟨p, i⟩
    · exact Thru.pure trivial
    · exact delete_thru p i

theorem remove_thru (v : α) : Thru (Holds V) (fun _ => True) (remove K v) :=
  Thru.bind (find_thru v) fun q _ => by
    rcases q with _ | ⟨p, i⟩
    · exact Thru.raise _
    · exact delete_thru p i

theorem step_thru (hK : K.Sane) (op : Op α) (hv : op.Valid) (hi : ∀ v ∈ op.inserted, V v) :
    Thru (Holds V) (fun _ => True) (step K op) := by
  have hM := thruM (V := V) hK
  cases op with
  | add v => exact (add_thru (hi v (by simp [Op.inserted]))).out _
  | update xs => exact (update_thru hK hi).out _
  | clear => exact clear_thru.out _
  | discard v => exact (discard_thru v).out _
  | remove v => exact (remove_thru v).out _
  | delInt i => exact (hM.delInt i).out _
  | delSlice sl => exact (hM.delSlice sl).out _
  | pop i => exact (hM.pop i).out _
  | iadd xs => exact (update_thru hK hi).out _
  | imul n => exact (hM.imul n).out _
  | reset load => exact (hM.reset hv).out _
  | unsupported u => exact Thru.of_tr fun _ => query_tr (Holds.noIndex V) (.inr ⟨u, rfl⟩)
  | _ => exact Thru.of_tr fun _ => query_tr (Holds.noIndex V) (.inl rfl)

theorem kstep_thru (hK : K.Sane) (op : KOp α κ) (hv : op.Valid) (hi : ∀ v ∈ op.inserted, V v) :
    Thru (Holds V) (fun _ => True) (kstep K op) := by
  cases op with
  | op o => exact step_thru hK o hv hi
  | _ => exact Thru.of_tr fun _ => kquery_tr (Holds.noIndex V) (.inl rfl)

end SKL
end Interrupt
end Verif
