import Verif.Proofs.IterHeap
/-!
# Iterators that hold list objects, while only queries are made
-/

namespace Verif
namespace Heap
variable {α κ : Type}

/-! ## An iterator that holds sublists yields what one that holds their positions yields -/

namespace HCursor
variable {as : List Addr} {cell : Addr → List α}

theorem resolve_cons {p : Verif.Part} {c : Cursor} {h : HCursor} (e : resolve as (p :: c) = .ok h) :
    ∃ q r, part as p = .ok q ∧ resolve as c = .ok r ∧ h = q :: r := by
  unfold resolve at e ⊢
  rw [mapE] at e
  cases hp : part as p with
  | error e' => rw [hp] at e; cases e
  | ok q =>
    cases hr : mapE (part as) c with
    | error e' => rw [hp, hr] at e; cases e
    | ok r => rw [hp, hr] at e; cases e; exact ⟨q, r, rfl, rfl, rfl⟩

theorem resolve_mk {p : Verif.Part} {c : Cursor} {q : HPart} {r : HCursor} (hp : part as p = .ok q) (hr : resolve as c = .ok r) :
    resolve as (p :: c) = .ok (q :: r) := by
  unfold resolve at hr ⊢
  rw [mapE, hp, hr]

theorem getItem_map {p : Nat} {l : List α} (h : getItem (as.map cell) p = .ok l) :
    ∃ a, as[p]? = some a ∧ cell a = l := by
  have := getItem_ok_iff.1 h
  rw [List.getElem?_map] at this
  cases ha : as[p]? with
  | none => rw [ha] at this; cases this
  | some a => rw [ha] at this; exact ⟨a, rfl, by simpa using this⟩

theorem part_map {i : Nat} {f : Addr → HPart} {q : HPart} (h : (getItem as i).map f = .ok q) :
    ∃ a, as[i]? = some a ∧ q = f a := by
  cases hg : getItem as i with
  | error e => rw [hg] at h; cases h
  | ok a => rw [hg] at h; cases h; exact ⟨a, getItem_ok_iff.1 hg, rfl⟩

/-- The two iterators stay in step. -/
theorem next_resolve (c : Cursor) {h : HCursor} (e : resolve as c = .ok h) {o : Option α} {c' : Cursor}
    (hn : c.next (as.map cell) = .ok (o, c')) :
    ∃ h', h.next as cell = (.ok o, h') ∧ resolve as c' = .ok h' := by
  induction c using Cursor.next.induct (as.map cell) generalizing h with
  | case1 =>
    cases e
    rw [Cursor.next] at hn
    cases hn
    exact ⟨[], by rw [next], rfl⟩
  | case2 p c ih =>
    obtain ⟨q, r, hp, hr, rfl⟩ := resolve_cons e
    obtain ⟨a, ha, rfl⟩ := part_map hp
    rw [Cursor.next] at hn
    rw [next]
    exact ih hr hn
  | case3 p i is c er h1 => rw [Cursor.next, h1] at hn; cases hn
  | case4 p i is c l h1 er h2 => rw [Cursor.next, h1] at hn; dsimp only at hn; rw [h2] at hn; cases hn
  | case5 p i is c l h1 v h2 =>
    rw [Cursor.next, h1] at hn
    dsimp only at hn
    rw [h2] at hn
    cases hn
    obtain ⟨q, r, hp, hr, rfl⟩ := resolve_cons e
    obtain ⟨a, ha, rfl⟩ := part_map hp
    obtain ⟨b, hb, rfl⟩ := getItem_map h1
    cases ha.symm.trans hb
    refine ⟨.items a is :: r, by rw [next, h2], resolve_mk ?_ hr⟩
    rw [part, getItem_ok_iff.2 ha]; rfl
  | case6 p i c v h1 =>
    rw [Cursor.next, h1] at hn
    cases hn
    obtain ⟨q, r, hp, hr, rfl⟩ := resolve_cons e
    obtain ⟨a, ha, rfl⟩ := part_map hp
    rw [List.getElem?_map, ha] at h1
    refine ⟨.sub a (i + 1) :: r, by rw [next, show (cell a)[i]? = some v from h1], resolve_mk ?_ hr⟩
    rw [part, getItem_ok_iff.2 ha]; rfl
  | case7 p i c h1 ih =>
    rw [Cursor.next, h1] at hn
    obtain ⟨q, r, hp, hr, rfl⟩ := resolve_cons e
    obtain ⟨a, ha, rfl⟩ := part_map hp
    rw [List.getElem?_map, ha] at h1
    rw [next, show (cell a)[i]? = none from h1]
    exact ih hr hn
  | case8 p c ih =>
    rw [Cursor.next] at hn
    obtain ⟨q, r, hp, hr, rfl⟩ := resolve_cons e
    obtain ⟨a, ha, rfl⟩ := part_map hp
    rw [next]
    exact ih hr hn
  | case9 p k c v h1 =>
    rw [Cursor.next, h1] at hn
    cases hn
    obtain ⟨q, r, hp, hr, rfl⟩ := resolve_cons e
    obtain ⟨a, ha, rfl⟩ := part_map hp
    rw [List.getElem?_map, ha] at h1
    refine ⟨.subRev a k :: r, by rw [next, show (cell a)[k]? = some v from h1], resolve_mk ?_ hr⟩
    rw [part, getItem_ok_iff.2 ha]; rfl
  | case10 p k c h1 ih =>
    rw [Cursor.next, h1] at hn
    obtain ⟨q, r, hp, hr, rfl⟩ := resolve_cons e
    obtain ⟨a, ha, rfl⟩ := part_map hp
    rw [List.getElem?_map, ha] at h1
    rw [next, show (cell a)[k]? = none from h1]
    exact ih hr hn
  | case11 rev c ih =>
    rw [Cursor.next] at hn
    obtain ⟨q, r, hp, hr, rfl⟩ := resolve_cons e
    cases hp
    rw [next]
    exact ih hr hn
  | case12 p ps rev c er h1 => rw [Cursor.next, h1] at hn; cases hn
  | case13 p ps rev c l h1 ih =>
    rw [Cursor.next, h1] at hn
    obtain ⟨q, r, hp, hr, rfl⟩ := resolve_cons e
    cases hp
    obtain ⟨a, ha, rfl⟩ := getItem_map h1
    rw [next, getItem_ok_iff.2 ha]
    refine ih (h := (if rev then .subRev a (cell a).length else .sub a 0) :: .subs ps rev :: r) (resolve_mk ?_ (resolve_mk rfl hr)) hn
    cases rev
    · show (getItem as p).map _ = _
      rw [getItem_ok_iff.2 ha]; rfl
    · show (getItem as p).map _ = _
      rw [getItem_ok_iff.2 ha]; rfl
  | case14 p c h1 ih =>
    rw [Cursor.next, if_pos h1] at hn
    obtain ⟨q, r, hp, hr, rfl⟩ := resolve_cons e
    cases hp
    have h2 : p < as.length := by rwa [List.length_map] at h1
    rw [next, dif_pos h2]
    refine ih (resolve_mk ?_ (resolve_mk rfl hr)) hn
    rw [part, getItem_ok_iff.2 (List.getElem?_eq_getElem h2)]; rfl
  | case15 p c h1 ih =>
    rw [Cursor.next, if_neg h1] at hn
    obtain ⟨q, r, hp, hr, rfl⟩ := resolve_cons e
    cases hp
    rw [List.length_map] at h1
    rw [next, dif_neg h1]
    exact ih hr hn
  | case16 c ih =>
    rw [Cursor.next] at hn
    obtain ⟨q, r, hp, hr, rfl⟩ := resolve_cons e
    cases hp
    rw [next]
    exact ih hr hn
  | case17 k c l h1 ih =>
    rw [Cursor.next, h1] at hn
    obtain ⟨q, r, hp, hr, rfl⟩ := resolve_cons e
    cases hp
    rw [List.getElem?_map] at h1
    cases ha : as[k]? with
    | none => rw [ha] at h1; cases h1
    | some a =>
      rw [ha] at h1
      have h1 : cell a = l := by simpa using h1
      subst h1
      rw [next, ha]
      refine ih (resolve_mk ?_ (resolve_mk rfl hr)) hn
      rw [part, getItem_ok_iff.2 ha]; rfl
  | case18 k c h1 ih =>
    rw [Cursor.next, h1] at hn
    obtain ⟨q, r, hp, hr, rfl⟩ := resolve_cons e
    cases hp
    rw [List.getElem?_map] at h1
    cases ha : as[k]? with
    | none =>
      rw [next, ha]
      exact ih hr hn
    | some a => rw [ha] at h1; cases h1

/-- The positions that a new iterator names are there. -/
def InBounds (n : Nat) (c : Cursor) : Prop := ∀ p ∈ c, match p with
  | .items i _ | .sub i _ | .subRev i _ => i < n
  | _ => True

theorem resolve_ok {c : Cursor} (h : InBounds as.length c) : ∃ h, resolve as c = .ok h := by
  induction c with
  | nil => exact ⟨[], rfl⟩
  | cons p c ih =>
    obtain ⟨r, hr⟩ := ih fun q hq => h q (List.mem_cons_of_mem _ hq)
    have hp := h p List.mem_cons_self
    have : ∃ q, part as p = .ok q := by
      cases p with
      | items i is => exact ⟨_, by rw [part, getItem_ok_iff.2 (List.getElem?_eq_getElem hp)]; rfl⟩
      | sub i k => exact ⟨_, by rw [part, getItem_ok_iff.2 (List.getElem?_eq_getElem hp)]; rfl⟩
      | subRev i k => exact ⟨_, by rw [part, getItem_ok_iff.2 (List.getElem?_eq_getElem hp)]; rfl⟩
      | _ => exact ⟨_, rfl⟩
    obtain ⟨q, hq⟩ := this
    exact ⟨_, resolve_mk hq hr⟩

theorem islicePos_inBounds {s : St α κ} {p x p' x' : Nat} {r : Bool} {c : Cursor}
    (h : Cursor.islicePos s p x p' x' r = .ok c) : InBounds s.lists.length c := by
  have hlt : ∀ {i l}, getItem s.lists i = .ok l → i < s.lists.length := fun h =>
    (List.getElem?_eq_some_iff.1 (getItem_ok_iff.1 h)).1
  unfold Cursor.islicePos at h
  split at h
  · cases h; intro q hq; simp at hq
  · split at h
    · rcases h1 : getItem s.lists p with _ | l
      · rw [h1] at h; cases h
      · rw [h1] at h
        have h : Except.ok _ = Except.ok c := h
        cases h
        intro q hq
        simp only [List.mem_singleton] at hq
        subst hq
        exact hlt h1
    · split at h <;>
      · rcases h1 : getItem s.lists p with _ | l
        · rw [h1] at h; cases h
        · rcases h2 : getItem s.lists p' with _ | l'
          · rw [h1, h2] at h; cases h
          · rw [h1, h2] at h
            replace h : (if r = true then Except.ok _ else Except.ok _ : Except PyErr Cursor) = Except.ok c := h
            split at h <;>
            · cases h
              intro q hq
              simp only [List.mem_cons, List.not_mem_nil, or_false] at hq
              rcases hq with rfl | rfl | rfl <;> first | exact hlt h1 | exact hlt h2 | trivial

end HCursor

section Open
open HCursor (InBounds)

theorem along_self {s : St α κ} {m : Py (St α κ) Cursor}
    (h : Along (fun c d => c = d ∧ InBounds s.lists.length c) (m s) (m s)) {c : Cursor} (e : (m s).1 = .ok c) :
    InBounds s.lists.length c := by
  obtain ⟨_, _, _, h2⟩ := h.2 c e
  exact h2

theorem nil_self (n : Nat) : ([] : Cursor) = [] ∧ InBounds n [] := ⟨rfl, fun _ h => by simp at h⟩

theorem SL.openIter_inBounds (E : Env α) (k : IterKind α) {s : St α α} {c : Cursor}
    (e : (Verif.SL.openIter E k s).1 = .ok c) : InBounds s.lists.length c := by
  cases k with
  | iter => cases e; intro q hq; rw [List.mem_singleton.1 hq]; trivial
  | reversed => cases e; intro q hq; rw [List.mem_singleton.1 hq]; trivial
  | islice a b r =>
    exact along_self (Core.isliceWith_along (R := fun c d => c = d ∧ InBounds s.lists.length c) (nil_self _) (fun _ _ _ _ _ c h => ⟨c, h, rfl, HCursor.islicePos_inBounds h⟩) _ _ _ _) e
  | irange lo hi a b r =>
    exact along_self (SL.irangeWith_along (R := fun c d => c = d ∧ InBounds s.lists.length c) (nil_self _) (fun _ _ _ _ _ c h => ⟨c, h, rfl, HCursor.islicePos_inBounds h⟩) _ _ _ _ _ _) e

theorem SKL.kopenIter_inBounds (K : KEnv α κ) (k : KIterKind α κ) {s : St α κ} {c : Cursor}
    (e : (Verif.SKL.kopenIter K k s).1 = .ok c) : InBounds s.lists.length c := by
  cases k with
  | kind k =>
    cases k with
    | iter => cases e; intro q hq; rw [List.mem_singleton.1 hq]; trivial
    | reversed => cases e; intro q hq; rw [List.mem_singleton.1 hq]; trivial
    | islice a b r =>
      exact along_self (Core.isliceWith_along (R := fun c d => c = d ∧ InBounds s.lists.length c) (nil_self _) (fun _ _ _ _ _ c h => ⟨c, h, rfl, HCursor.islicePos_inBounds h⟩) _ _ _ _) e
    | irange lo hi a b r =>
      replace e : (Verif.SKL.irangeWith Cursor.islicePos [] K lo hi a b r s).1 = .ok c := e
      unfold Verif.SKL.irangeWith at e
      cases h1 : Verif.SKL.keyOpt K lo with
      | error er => rw [h1] at e; cases e
      | ok kl =>
        cases h2 : Verif.SKL.keyOpt K hi with
        | error er => rw [h1, h2] at e; cases e
        | ok kh =>
          rw [h1, h2] at e
          exact along_self (SKL.irange_keyWith_along (R := fun c d => c = d ∧ InBounds s.lists.length c) (nil_self _) (fun _ _ _ _ _ c h => ⟨c, h, rfl, HCursor.islicePos_inBounds h⟩) _ _ _ _ _ _) e
  | irangeKey lo hi a b r =>
    exact along_self (SKL.irange_keyWith_along (R := fun c d => c = d ∧ InBounds s.lists.length c) (nil_self _) (fun _ _ _ _ _ c h => ⟨c, h, rfl, HCursor.islicePos_inBounds h⟩) _ _ _ _ _ _) e

end Open
/-! ## Queries leave the list of sublists alone -/

/-- The list object `self._lists` keeps its elements. -/
abbrev KeepsLists {β : Type} (m : Run α κ β) : Prop := ∀ as, Preserves (fun c => c.self.lists = as) m

theorem keeps_self : KeepsLists (self : Run α κ (Obj κ)) := fun _ _ h => h
theorem keeps_read (a : Addr) : KeepsLists (read a : Run α κ (List α)) := fun _ _ h => h
theorem keeps_write (a : Addr) (l : List α) : KeepsLists (write a l : Run α κ Unit) := fun _ _ h => h
theorem keeps_alloc (l : List α) : KeepsLists (alloc l : Run α κ Addr) := fun _ _ h => h
theorem keeps_reading {β : Type} (m : Py (St α κ) β) : KeepsLists (reading m) := fun _ _ h => h

local macro "keeps" : tactic => `(tactic| repeat' first
  | exact Preserves.pure _
  | exact Preserves.lift _
  | exact keeps_self _
  | exact keeps_read _ _
  | exact keeps_write _ _ _
  | exact keeps_alloc _ _
  | exact keeps_reading _ _
  | apply_assumption
  | refine Preserves.bind ?_ fun _ => ?_
  | refine Preserves.ite ?_ ?_
  | refine Preserves.forEach (fun _ => ?_) _
  | refine Preserves.mapEach (fun _ => ?_) _
  | intro _)

theorem keeps_extend (a b : Addr) : KeepsLists (extend a b : Run α κ Unit) := by unfold extend; keeps

theorem keeps_reduceIadd (as : List Addr) (acc : Addr) : KeepsLists (reduceIadd as acc : Run α κ Unit) := fun _ =>
  Preserves.forEach (fun _ => keeps_extend _ _ _) _

theorem keeps_flatten : KeepsLists (flatten : Run α κ Addr) := by
  have := @keeps_reduceIadd α κ
  unfold flatten; keeps

theorem keeps_consume (src : Source α) : KeepsLists (consume src : Run α κ (List α)) := by
  cases src <;> unfold consume <;> keeps

namespace Core

theorem keeps_getSliceFwd (ilog2 : Nat → Nat) (a b : Int) : KeepsLists (getSliceFwd ilog2 a b : Run α κ Addr) := by
  have := @keeps_reduceIadd α κ
  have := @keeps_extend α κ
  have := @keeps_flatten α κ
  unfold getSliceFwd; keeps

theorem keeps_getSliceStep1 (ilog2 : Nat → Nat) (a b : Option Int) : KeepsLists (getSliceStep1 ilog2 a b : Run α κ Addr) := by
  have := @keeps_getSliceFwd α κ
  unfold getSliceStep1; keeps

theorem keeps_getSlice (ilog2 : Nat → Nat) (sl : PySlice) : KeepsLists (getSlice ilog2 sl : Run α κ Addr) := by
  have := @keeps_getSliceFwd α κ
  have := @keeps_getSliceStep1 α κ
  unfold getSlice; keeps

theorem keeps_repeated (n : Int) : KeepsLists (repeated n : Run α κ Addr) := by
  have := @keeps_flatten α κ
  unfold repeated; keeps

theorem keeps_concatArg (src : Source α) : KeepsLists (concatArg src : Run α κ Addr) := by
  have := @keeps_flatten α κ
  have := @keeps_consume α κ
  unfold concatArg; keeps

end Core

theorem keeps_values (H : HeapAPI α κ) (src : Source α) : KeepsLists (H.values src) := fun as c h => by
  unfold HeapAPI.values
  split <;> exact h

theorem keeps_out {β : Type} (f : β → Verif.Out α) {m : Run α κ β} (h : KeepsLists m) : KeepsLists (Spec.out f m) :=
  fun as c hc => by rw [out_end]; exact h as c hc

theorem keeps_call (H : HeapAPI α κ) (op : Op α) (hq : op.isQuery = true) : KeepsLists (H.call op) := by
  cases op with
  | getSlice sl => exact keeps_out _ fun as => Preserves.bind (Core.keeps_getSlice _ _ as) fun _ => keeps_read _ as
  | copy => exact keeps_out _ fun as c h => keeps_values H _ as c h
  | concat xs => exact keeps_out _ fun as => Preserves.bind (Core.keeps_concatArg _ as) fun _ => keeps_values H _ as
  | mul n => exact keeps_out _ fun as => Preserves.bind (Core.keeps_repeated _ as) fun _ => keeps_values H _ as
  | add | update | clear | discard | remove | delInt | delSlice | pop | iadd | imul | reset | unsupported => cases hq
  | _ => exact keeps_reading _

/-! ## Schedules with only queries between creation and request -/

/-- What makes a container with iterators behave as specified. -/
structure LiveSys.Conforms {K C R : Type} (A : LiveSys α κ K C R) (B : IterSpec (List α) α α K C R) (I : Ctx α κ → Prop)
    (V : C → Prop) : Prop where
  call : ∀ op c, V op → I c → (A.call op c).1 = (B.call op (Verif.Core.iter c.view)).1 ∧
    Verif.Core.iter (A.call op c).2.view = (B.call op (Verif.Core.iter c.view)).2 ∧ I (A.call op c).2
  quiet : ∀ op c, V op → I c → B.quiet op (Verif.Core.iter c.view) = true →
    (A.call op c).2.self.lists = c.self.lists ∧ (A.call op c).2.view.lists = c.view.lists
  opens : ∀ k c, I c → ∃ h c', A.opens k c = (.ok h, c') ∧
    (∃ d, HCursor.resolve c.self.lists d = .ok h ∧ Cursor.Yields c.view.lists d (B.values k (Verif.Core.iter c.view))) ∧
    c'.self.lists = c.self.lists ∧ c'.view.lists = c.view.lists ∧ I c'
  view : ∀ k v t, B.view k v t = .ok v

namespace LiveSys
variable {K C R : Type} {A : LiveSys α κ K C R} {B : IterSpec (List α) α α K C R} {I : Ctx α κ → Prop} {V : C → Prop}

/-- The iterators are as promised. -/
structure Promised (I : Ctx α κ → Prop) (x : LiveState α κ) (y : IterSpec.State (List α) α K) : Prop where
  inv : I x.1
  abs : contents x = y.1
  length : x.2.length = y.2.length
  yields : ∀ (j : Nat) (k : K) (xs : List α), y.2[j]? = some (some (k, xs)) →
    ∃ h d, x.2[j]? = some h ∧ HCursor.resolve x.1.self.lists d = .ok h ∧ Cursor.Yields x.1.view.lists d xs

theorem Conforms.step (h : A.Conforms B I V) (ev : Event K C) (hv : ev.Valid V) {x : LiveState α κ}
    {y : IterSpec.State (List α) α K} (hr : Promised I x y) :
    Meets (B.step ev y).1 (A.step ev x).1 ∧ Promised I (A.step ev x).2 (B.step ev y).2 := by
  obtain ⟨s, its⟩ := x
  obtain ⟨t, jts⟩ := y
  obtain ⟨hi, rfl, hl, hy⟩ := hr
  dsimp only at hi hl hy ⊢
  cases ev with
  | opens k =>
    obtain ⟨c, s', e, ⟨d, h0, h1⟩, h2, h3, h4⟩ := h.opens k s hi
    simp only [LiveSys.step, IterSpec.step, e]
    refine ⟨rfl, h4, by simp only [contents, Verif.Core.iter, h3], by simp [hl], fun j k' xs hj => ?_⟩
    dsimp only at hj ⊢
    rw [h2, h3]
    rcases Nat.lt_trichotomy j jts.length with hlt | rfl | hgt
    · rw [List.getElem?_append_left hlt] at hj
      rw [List.getElem?_append_left (hl ▸ hlt)]
      exact hy j k' xs hj
    · rw [List.getElem?_append_right (Nat.le_refl _)] at hj
      rw [List.getElem?_append_right (Nat.le_of_eq hl)]
      simp only [Nat.sub_self, List.getElem?_cons_zero, Option.some.injEq, Prod.mk.injEq] at hj
      obtain ⟨rfl, rfl⟩ := hj
      exact ⟨c, d, by simp [hl], h0, h1⟩
    · rw [List.getElem?_eq_none (by simp; omega)] at hj
      cases hj
  | next j =>
    simp only [LiveSys.step, IterSpec.step]
    cases hj : jts[j]? with
    | none =>
      have : its[j]? = none := List.getElem?_eq_none (by rw [hl]; exact List.getElem?_eq_none_iff.1 hj)
      simp only [this]
      exact ⟨rfl, hi, rfl, hl, hy⟩
    | some o =>
      have hjl : j < jts.length := (List.getElem?_eq_some_iff.1 hj).1
      cases o with
      | none =>
        refine ⟨trivial, ?_⟩
        obtain ⟨c, hc⟩ : ∃ p, its[j]? = some p := ⟨_, List.getElem?_eq_getElem (hl ▸ hjl)⟩
        have key : ∀ c', Promised I (s, its.set j c') (contents (s, its), jts) := fun c' =>
          ⟨hi, rfl, by simp [hl], fun j' k' xs hj' => by
            have hne : j ≠ j' := by rintro rfl; rw [hj] at hj'; cases hj'
            obtain ⟨d, d', hd, hd'⟩ := hy j' k' xs hj'
            exact ⟨d, d', by rw [List.getElem?_set_ne hne]; exact hd, hd'⟩⟩
        simp only [hc]
        split <;> exact key _
      | some p =>
        obtain ⟨k, xs⟩ := p
        obtain ⟨c, d, hc, hd, hyc⟩ := hy j k xs hj
        simp only [hc]
        have key : ∀ c' d' xs', HCursor.resolve s.self.lists d' = .ok c' → Cursor.Yields s.view.lists d' xs' →
            Promised I (s, its.set j c') (contents (s, its), jts.set j (some (k, xs'))) := fun c' d' xs' h0 hh =>
          ⟨hi, rfl, by simp [hl], fun j' k' ys hj' => by
            by_cases hne : j = j'
            · subst hne
              dsimp only at hj' ⊢
              rw [List.getElem?_set_self hjl] at hj'
              cases hj'
              exact ⟨c', d', List.getElem?_set_self (hl ▸ hjl), h0, hh⟩
            · dsimp only at hj' ⊢
              rw [List.getElem?_set_ne hne] at hj' ⊢
              exact hy j' k' ys hj'⟩
        cases xs with
        | nil =>
          have e : d.next s.view.lists = .ok (none, []) := hyc
          obtain ⟨h', e1, e2⟩ := HCursor.next_resolve d hd e
          simp only [e1]
          refine ⟨rfl, ?_⟩
          have := key h' [] [] e2 Cursor.yields_nil
          rwa [show jts.set j (some (k, [])) = jts from List.ext_getElem? fun i => by
            by_cases hij : j = i
            · subst hij; rw [List.getElem?_set_self hjl, hj]
            · rw [List.getElem?_set_ne hij]] at this
        | cons v xs =>
          obtain ⟨d', e, hy'⟩ := hyc
          obtain ⟨h', e1, e2⟩ := HCursor.next_resolve d hd e
          simp only [e1, h.view k v]
          exact ⟨rfl, key h' d' xs e2 hy'⟩
  | call op =>
    obtain ⟨h1, h2, h3⟩ := h.call op s hv hi
    have hq := h.quiet op s hv hi
    simp only [LiveSys.step, IterSpec.step]
    rcases hb : B.call op (contents (s, its)) with ⟨r, t'⟩
    rcases ha : A.call op s with ⟨r', s'⟩
    rw [ha] at h1 h2 h3 hq
    rw [show B.call op (Verif.Core.iter s.view) = (r, t') from hb] at h1 h2
    dsimp only at h1 h2 h3 hq
    subst h1
    subst h2
    have key : Promised I (s', its) (Verif.Core.iter s'.view, if B.quiet op (contents (s, its)) = true then jts else jts.map fun _ => none) := by
      refine ⟨h3, rfl, by dsimp only; split <;> simp [hl], fun j k xs hj => ?_⟩
      dsimp only at hj ⊢
      split at hj
      · rename_i hqq
        obtain ⟨q1, q2⟩ := hq hqq
        rw [q1, q2]
        exact hy j k xs hj
      · simp at hj
    cases r' with
    | ok b => exact ⟨rfl, key⟩
    | error e => exact ⟨rfl, key⟩

/-- Every schedule. -/
theorem Conforms.hist (h : A.Conforms B I V) (evs : List (Event K C)) (hv : ∀ ev ∈ evs, ev.Valid V) {x : LiveState α κ}
    {y : IterSpec.State (List α) α K} (hr : Promised I x y) :
    (runHist A.step evs x).1.length = (runHist B.step evs y).1.length ∧
    (∀ (i : Nat) r r', (runHist B.step evs y).1[i]? = some r → (runHist A.step evs x).1[i]? = some r' → Meets r r') ∧
    contents (runHist A.step evs x).2 = (runHist B.step evs y).2.1 := by
  induction evs generalizing x y with
  | nil => exact ⟨rfl, fun _ _ _ h => by simp [runHist] at h, hr.abs⟩
  | cons ev evs ih =>
    obtain ⟨h1, h2⟩ := h.step ev (hv ev (by simp)) hr
    obtain ⟨i1, i2, i3⟩ := ih (fun e he => hv e (by simp [he])) h2
    refine ⟨by simp [runHist, i1], fun i r r' e e' => ?_, i3⟩
    cases i with
    | zero =>
      simp only [runHist, List.getElem?_cons_zero, Option.some.injEq] at e e'
      subst e e'; exact h1
    | succ i => exact i2 i r r' e e'

theorem Conforms.promised (h : A.Conforms B I V) (evs : List (Event K C)) (hv : ∀ ev ∈ evs, ev.Valid V) {x : LiveState α κ}
    {y : IterSpec.State (List α) α K} (hr : Promised I x y) :
    Promised I (runHist A.step evs x).2 (runHist B.step evs y).2 := by
  induction evs generalizing x y with
  | nil => exact hr
  | cons ev evs ih => exact ih (fun e he => hv e (by simp [he])) (h.step ev (hv ev (by simp)) hr).2

theorem promised_start (hi : I (LiveState.start : LiveState α κ).1) :
    Promised I (LiveState.start : LiveState α κ) (([], []) : IterSpec.State (List α) α K) :=
  ⟨hi, rfl, rfl, fun _ _ _ h => by simp at h⟩

/-- While only quiet calls are made, an iterator yields its values and then stops, whatever the other iterators do. -/
theorem Conforms.drain (h : A.Conforms B I V) (evs : List (Event K C)) (hv : ∀ ev ∈ evs, ev.Valid V)
    (hq : ∀ ev ∈ evs, ev.Valid fun op => ∀ t, B.quiet op t = true) {s : Ctx α κ} {its : List HCursor} (hi : I s) {j : Nat}
    {c : HCursor} {d : Cursor} {xs : List α} (hj : its[j]? = some c) (hd : HCursor.resolve s.self.lists d = .ok c)
    (hy : Cursor.Yields s.view.lists d xs) (m : Nat) (r : Except PyErr (EvOut α R))
    (hr : (answersOf j evs (runHist A.step evs (s, its)).1)[m]? = some r) :
    r = .ok (match xs[m]? with
      | some x => .value x
      | none => .stop) := by
  induction evs generalizing s its c d xs m with
  | nil => simp [answersOf] at hr
  | cons ev evs ih =>
    have ih := @ih (fun e he => hv e (by simp [he])) (fun e he => hq e (by simp [he]))
    cases ev with
    | opens k' =>
      obtain ⟨c', s', e, _, h2, h3, h4⟩ := h.opens k' s hi
      simp only [runHist, answersOf, LiveSys.step, e] at hr
      refine ih h4 (c := c) ?_ (by rw [h2]; exact hd) (by rw [h3]; exact hy) m hr
      rw [List.getElem?_append_left (List.getElem?_eq_some_iff.1 hj).1]; exact hj
    | call op =>
      obtain ⟨_, _, h3⟩ := h.call op s (hv (.call op) (by simp)) hi
      obtain ⟨q1, q2⟩ := h.quiet op s (hv (.call op) (by simp)) hi (hq (.call op) (by simp) _)
      rcases ha : A.call op s with ⟨r', s'⟩
      rw [ha] at h3 q1 q2
      dsimp only at q1 q2
      cases r' <;> simp only [runHist, answersOf, LiveSys.step, ha] at hr <;>
        exact ih h3 hj (by rw [q1]; exact hd) (by rw [q2]; exact hy) m hr
    | next i =>
      by_cases hij : i = j
      · subst hij
        have hl := (List.getElem?_eq_some_iff.1 hj).1
        cases xs with
        | nil =>
          have e : d.next s.view.lists = .ok (none, []) := hy
          obtain ⟨h', e1, e2⟩ := HCursor.next_resolve d hd e
          simp only [runHist, answersOf, LiveSys.step, hj, e1, if_true] at hr
          cases m with
          | zero => simp only [List.getElem?_cons_zero, Option.some.injEq] at hr; subst hr; rfl
          | succ m =>
            have := ih hi (xs := []) (List.getElem?_set_self hl) e2 Cursor.yields_nil m hr
            simpa using this
        | cons x xs =>
          obtain ⟨d', e, hy'⟩ := hy
          obtain ⟨h', e1, e2⟩ := HCursor.next_resolve d hd e
          simp only [runHist, answersOf, LiveSys.step, hj, e1, if_true] at hr
          cases m with
          | zero => simp only [List.getElem?_cons_zero, Option.some.injEq] at hr; subst hr; rfl
          | succ m =>
            have := ih hi (List.getElem?_set_self hl) e2 hy' m hr
            simpa using this
      · have key : ∀ p, (its.set i p)[j]? = some c := fun p => by rw [List.getElem?_set_ne hij]; exact hj
        simp only [runHist, answersOf, if_neg hij] at hr
        rcases hst : (A.step (.next i) (s, its)) with ⟨o, s', its'⟩
        have : s' = s ∧ its'[j]? = some c := by
          simp only [LiveSys.step] at hst
          split at hst
          · cases hst; exact ⟨rfl, hj⟩
          · split at hst <;> cases hst <;> exact ⟨rfl, key _⟩
        obtain ⟨rfl, hj'⟩ := this
        rw [hst] at hr
        exact ih hi hj' hd hy m hr

end LiveSys

/-- Creating an iterator. -/
theorem openIter_ok {m : Py (St α κ) Cursor} {c : Ctx α κ} {d : Cursor} {s' : St α κ} (e : m c.view = (.ok d, s'))
    (hb : HCursor.InBounds c.view.lists.length d) :
    ∃ h c', openIter m c = (.ok h, c') ∧ HCursor.resolve c.self.lists d = .ok h ∧
      c' = { c with self := { c.self with index := s'.index, offset := s'.offset } } := by
  obtain ⟨h, hh⟩ := HCursor.resolve_ok (as := c.self.lists) (by rwa [Ctx.view, List.length_map] at hb)
  refine ⟨h, _, ?_, hh, rfl⟩
  unfold openIter
  rw [Py.bind_apply]
  have : reading m c = (.ok d, { c with self := { c.self with index := s'.index, offset := s'.offset } }) := by
    unfold reading; rw [e]
  rw [this]
  dsimp only
  rw [self_bind]
  show (HCursor.resolve c.self.lists d, _) = _
  rw [hh]

theorem openIter_view {c : Ctx α κ} {s' : St α κ} (h : Reindexed c.view s') :
    ({ c with self := { c.self with index := s'.index, offset := s'.offset } } : Ctx α κ).view = s' := by
  obtain ⟨i, o, rfl⟩ := h
  rfl

theorem Out.same {β : Type} {c0 : Ctx α κ} {x : Except PyErr β × Ctx α κ} {y : Except PyErr β × St α κ} (h : Out c0 x y Eq') :
    x.1 = y.1 ∧ y.2 = x.2.view ∧ Own x.2 := by
  obtain ⟨h1, h2⟩ := h
  refine ⟨?_, h1.view, h1.own⟩
  obtain ⟨x1, x2⟩ := x
  obtain ⟨y1, y2⟩ := y
  dsimp only at h2 ⊢
  cases x1 <;> cases y1
  · exact congrArg _ h2
  · exact h2.elim
  · exact h2.elim
  · exact congrArg _ h2

theorem SL.liveSys_conforms {E : Env α} {lt : α → α → Bool} (hE : E.Lawful lt) :
    (SL.liveSys E).Conforms (Spec.iterSpec (Spec.Order.ofValues lt)) (fun c => Own c ∧ Inv id lt false c.view) Op.Valid where
  call op c hv hi := by
    obtain ⟨h1, h2, h3⟩ := (call_out (SL.heapSim E) op hi.1.rel).same
    obtain ⟨h4, h5, h6⟩ := (SL.api_lawful hE).step op hv c.view hi.2
    exact ⟨h1.trans h4, (congrArg Verif.Core.iter h2.symm).trans h5, h3, (congrArg (Inv id lt false) h2).mp h6⟩
  quiet op c hv hi hq := by
    obtain ⟨h1, h2, h3⟩ := (call_out (SL.heapSim E) op hi.1.rel).same
    exact ⟨keeps_call _ op hq _ c rfl, (congrArg St.lists h2.symm).trans ((Verif.SL.step_quiet E op hq).reindexed c.view).lists⟩
  opens k c hi := by
    obtain ⟨d, s', e, h1, h2, h3⟩ := Verif.SL.openIter_ok hE hi.2 k
    obtain ⟨h, c', e1, e2, rfl⟩ := openIter_ok e (SL.openIter_inBounds E k (congrArg Prod.fst e))
    exact ⟨h, _, e1, ⟨d, e2, h1⟩, rfl, rfl, LiveSys.Own.congr hi.1 rfl rfl rfl, (congrArg (Inv id lt false) (openIter_view h2)).mpr h3⟩
  view _ _ _ := rfl

theorem SKL.liveSys_conforms {K : KEnv α κ} {key : α → κ} {klt : κ → κ → Bool} {veq : α → α → Bool}
    (hK : K.Lawful key klt veq) :
    (SKL.liveSys K).Conforms (Spec.kiterSpec key klt (Spec.Order.ofKey key klt veq K.vcmp))
      (fun c => Own c ∧ Inv key klt true c.view) KOp.Valid where
  call op c hv hi := by
    obtain ⟨h4, h5, h6⟩ := SKL.kstep_refines hK op hv c.view hi.2
    have hq : op.isQuery = true → reading (Verif.SKL.kstep K op) c = ((Verif.SKL.kstep K op c.view).1,
        { c with self := { c.self with index := (Verif.SKL.kstep K op c.view).2.index, offset := (Verif.SKL.kstep K op c.view).2.offset } }) ∧
        ({ c with self := { c.self with index := (Verif.SKL.kstep K op c.view).2.index, offset := (Verif.SKL.kstep K op c.view).2.offset } } : Ctx α κ).view =
          (Verif.SKL.kstep K op c.view).2 := fun hq => ⟨rfl, openIter_view ((Verif.SKL.kstep_quiet K op hq).reindexed c.view)⟩
    cases op with
    | op o =>
      obtain ⟨h1, h2, h3⟩ := (call_out (SKL.heapSim K) o hi.1.rel).same
      exact ⟨h1.trans h4, (congrArg Verif.Core.iter h2.symm).trans h5, h3, (congrArg (Inv key klt true) h2).mp h6⟩
    | _ =>
      have h2 := (hq rfl).2
      exact ⟨h4, (congrArg Verif.Core.iter h2).trans h5, LiveSys.Own.congr hi.1 rfl rfl rfl, (congrArg (Inv key klt true) h2).mpr h6⟩
  quiet op c hv hi hq := by
    cases op with
    | op o =>
      obtain ⟨h1, h2, h3⟩ := (call_out (SKL.heapSim K) o hi.1.rel).same
      exact ⟨keeps_call _ o hq _ c rfl, (congrArg St.lists h2.symm).trans ((Verif.SKL.kstep_quiet K (.op o) hq).reindexed c.view).lists⟩
    | _ => exact ⟨rfl, rfl⟩
  opens k c hi := by
    obtain ⟨d, s', e, h1, h2, h3⟩ := Verif.SKL.kopenIter_ok hK hi.2 k
    obtain ⟨h, c', e1, e2, rfl⟩ := openIter_ok e (SKL.kopenIter_inBounds K k (congrArg Prod.fst e))
    exact ⟨h, _, e1, ⟨d, e2, h1⟩, rfl, rfl, LiveSys.Own.congr hi.1 rfl rfl rfl, (congrArg (Inv key klt true) (openIter_view h2)).mpr h3⟩
  view _ _ _ := rfl

theorem start_own : Own (LiveState.start : LiveState α κ).1 := (empty_rel _).own

theorem SL.start_inv {E : Env α} {lt : α → α → Bool} (hE : E.Lawful lt) :
    Own (LiveState.start : LiveState α α).1 ∧ Inv id lt false (LiveState.start : LiveState α α).1.view :=
  ⟨start_own, (SL.api_lawful hE).reachable (.new (xs := none) rfl)⟩

theorem SKL.start_inv {K : KEnv α κ} {key : α → κ} {klt : κ → κ → Bool} {veq : α → α → Bool} (hK : K.Lawful key klt veq) :
    Own (LiveState.start : LiveState α κ).1 ∧ Inv key klt true (LiveState.start : LiveState α κ).1.view :=
  ⟨start_own, SKL.reachable_inv hK (.new (xs := none) rfl)⟩

/-! ## An iterator that has stopped, and an iterator of a container that is left alone -/

namespace LiveSys
variable {K C R : Type} {A : LiveSys α κ K C R}

/-- The iterator has nothing left. -/
def Done (j : Nat) (s : LiveState α κ) : Prop := s.2[j]? = some []

theorem done_of_stop {j : Nat} {s : LiveState α κ} (h : (A.step (.next j) s).1 = .ok .stop) :
    Done j (A.step (.next j) s).2 := by
  obtain ⟨c, its⟩ := s
  revert h
  simp only [step]
  split
  · intro h; cases h
  · rename_i d hd
    have hs := HCursor.step (as := c.self.lists) (cell := c.cell) d
    split
    · intro h; cases h
    · rename_i d' hx
      intro _
      have h1 := hs.stop (congrArg Prod.fst hx)
      rw [hx] at h1
      dsimp only at h1
      subst h1
      exact List.getElem?_set_self (List.getElem?_eq_some_iff.1 hd).1
    · intro h; cases h

theorem done_next {j : Nat} {s : LiveState α κ} (h : Done j s) : (A.step (.next j) s).1 = .ok .stop := by
  obtain ⟨c, its⟩ := s
  have h : its[j]? = some [] := h
  simp only [step, h, HCursor.next_nil]

theorem done_step {j : Nat} (ev : Event K C) {s : LiveState α κ} (h : Done j s) : Done j (A.step ev s).2 := by
  obtain ⟨c, its⟩ := s
  have h : its[j]? = some [] := h
  have hl := (List.getElem?_eq_some_iff.1 h).1
  cases ev with
  | opens k =>
    simp only [step]
    split
    · show (its ++ _)[j]? = _
      rw [List.getElem?_append_left hl]; exact h
    · exact h
  | next i =>
    by_cases hij : i = j
    · subst hij
      simp only [step, h, HCursor.next_nil]
      exact List.getElem?_set_self hl
    · have key : ∀ x, (its.set i x)[j]? = some [] := fun x => by rw [List.getElem?_set_ne hij]; exact h
      simp only [step]
      split
      · exact h
      · split <;> exact key _
  | call op =>
    simp only [step]
    split <;> exact h

theorem done_hist {j : Nat} (evs : List (Event K C)) {s : LiveState α κ} (h : Done j s) : Done j (runHist A.step evs s).2 := by
  induction evs generalizing s with
  | nil => exact h
  | cons ev evs ih => exact ih (done_step ev h)

/-- Once left alone, the iterator ends. -/
theorem ends {j : Nat} {s : LiveState α κ} (hj : j < s.2.length) :
    ∃ n, (A.step (.next j) (runHist A.step (List.replicate n (.next j)) s).2).1 = .ok .stop := by
  obtain ⟨c, its⟩ := s
  obtain ⟨d, hd⟩ : ∃ d, its[j]? = some d := ⟨_, List.getElem?_eq_getElem hj⟩
  clear hj
  generalize hn : d.size c.self.lists c.cell = n
  induction n using Nat.strongRecOn generalizing its d with
  | ind n ih =>
    subst hn
    have hs := HCursor.step (as := c.self.lists) (cell := c.cell) d
    have hl := (List.getElem?_eq_some_iff.1 hd).1
    by_cases hstop : (d.next c.self.lists c.cell).1 = .ok none
    · refine ⟨0, ?_⟩
      simp only [List.replicate_zero, runHist, step, hd]
      split <;> rename_i hx <;> rw [hx] at hstop <;> first | rfl | cases hstop
    · have hlt := hs.size hstop
      obtain ⟨m, hm⟩ := ih _ hlt (its.set j (d.next c.self.lists c.cell).2) _ (List.getElem?_set_self hl) rfl
      refine ⟨m + 1, ?_⟩
      rw [List.replicate_succ]
      have e : (A.step (.next j) (c, its)).2 = (c, its.set j (d.next c.self.lists c.cell).2) := by
        simp only [step, hd]
        split <;> rename_i hx <;> rw [hx]
      simp only [runHist]
      rw [e]
      exact hm

end LiveSys
end Heap
end Verif
