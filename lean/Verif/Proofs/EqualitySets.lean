import Verif.EqSets
import Verif.Proofs.Equality
import Verif.Proofs.SortedSet
import Verif.Proofs.SortedDict
/-!
# Sets and dicts of values that `<` does not tell apart although they are different

The list inside is replaced by one (`patched`) that finds every value; it agrees with the real one where calls are tame.
-/

namespace Verif
namespace Equality.Sets
variable {α κ ν τ : Type} {E : Env α} {lt eqv : α → α → Bool}

def order (E : Env α) (lt eqv : α → α → Bool) : Spec.Order α := { lt := lt, same := eqv, cmp := E.cmp }

/-- Remove the value by its position. -/
def ideal (E : Env α) (eqv : α → α → Bool) (v : α) (absent : Except PyErr Unit) : Py (St α α) Unit := fun s =>
  match (Core.iter s).findIdx? (eqv · v) with
  | some i => Core.delInt (SL.methods E) (i : Int) s
  | none => (absent, s)

open Classical in
noncomputable def patched (E : Env α) (lt eqv : α → α → Bool) : ListAPI (St α α) α :=
  { SL.api E with
    contains := fun v s => (.ok ((Core.iter s).any (eqv · v)), s)
    discard := fun v => ideal E eqv v (.ok ())
    remove := fun v s => if ComesFirst lt eqv v (Core.iter s) then SL.remove E v s else ideal E eqv v (.error .valueError) s
    count := fun v s => (.ok ((Core.iter s).countP (eqv · v)), s)
    index := fun v a b s =>
      if NoOther lt eqv v (Core.iter s) then SL.index E v a b s else ((Spec.index (order E lt eqv) v a b (Core.iter s)).1, s) }

theorem ideal_refines (hE : E.Finer lt eqv) (v : α) (absent : Except PyErr Unit) :
    Refines (Inv id lt false) Core.iter (ideal E eqv v absent)
      (fun l => if l.any (eqv · v) then (.ok (), l.eraseP (eqv · v)) else (absent, l)) := by
  intro s hs
  have hB := SL.api_lawful (SL.lawful hE.toOrdered)
  unfold ideal
  simp only [List.eraseP_eq_eraseIdx]
  cases hf : (Core.iter s).findIdx? (eqv · v) with
  | none =>
    have : (Core.iter s).any (eqv · v) = false := by
      rw [List.findIdx?_eq_none_iff] at hf
      rw [List.any_eq_false]
      intro x hx; simpa using hf x hx
    simp only [this]
    exact ⟨rfl, rfl, hs⟩
  | some i =>
    obtain ⟨hi, hp, _⟩ := List.findIdx?_eq_some_iff_getElem.1 hf
    have : (Core.iter s).any (eqv · v) = true := List.any_eq_true.2 ⟨_, List.getElem_mem hi, hp⟩
    simp only [this, if_true]
    have hd := hB.delInt (i : Int) s hs
    have e : Spec.delInt (i : Int) (Core.iter s) = (.ok (), (Core.iter s).eraseIdx i) := by
      have : Spec.position (Core.iter s).length (i : Int) = some i := by
        unfold Spec.position
        rw [if_pos ⟨by omega, by omega⟩]; simp
      simp only [Spec.delInt, this]
    change (Core.delInt (SL.methods (E.byOrder lt)) (i : Int) s).1 = _ ∧ _ at hd
    rw [← SL.methods_eq hE.toOrdered] at hd
    change _ ∧ _ = (Spec.delInt (i : Int) (Core.iter s)).2 ∧ _ at hd
    rw [show (SL.api (E.byOrder lt)).iter s = Core.iter s from rfl, e] at hd
    exact hd

theorem present {l : List α} {v : α} : l.any (eqv · v) = true ↔ ∃ x ∈ l, eqv x v = true := by
  simp only [List.any_eq_true]

/-- `remove` finds a value that comes first. -/
theorem remove_spec (hE : E.Finer lt eqv) {v : α} {l : List α} (hf : ComesFirst lt eqv v l) :
    EqSpec.remove lt E.cmp v l = Spec.remove (order E lt eqv) v l := by
  unfold Spec.remove EqSpec.remove order
  simp only
  by_cases hp : l.any (eqv · v) = true
  · rw [if_pos hp]
    obtain ⟨A, x, B, rfl, hx, hA⟩ := hf (present.1 hp)
    have hxv := hE.fine _ _ hx
    simp only [equiv, Bool.and_eq_true, Bool.not_eq_true'] at hxv
    rw [SL.dropWhile_split hA hxv.1, SL.takeWhile_split hA hxv.1]
    simp only [hE.eq_ok, hx]
    rw [List.eraseP_append_right, List.eraseP_cons_of_pos (by exact hx)]
    intro a ha h
    have := hE.fine _ _ h
    simp [equiv, hA a ha] at this
  · rw [if_neg hp]
    cases hd : l.dropWhile (lt · v) with
    | nil => rfl
    | cons x B =>
      simp only [hE.eq_ok]
      have hx : x ∈ l := (List.dropWhile_suffix (p := (lt · v)) (l := l)).subset (by rw [hd]; simp)
      have : eqv x v = false := by
        rw [Bool.not_eq_true, List.any_eq_false] at hp
        simpa using hp x hx
      rw [this]

/-- `remove` does not find a value that does not come first. -/
theorem remove_lost (hE : E.Finer lt eqv) {v : α} {l : List α} (hf : ¬ ComesFirst lt eqv v l) :
    EqSpec.remove lt E.cmp v l = (.error .valueError, l) := by
  unfold EqSpec.remove
  cases hd : l.dropWhile (lt · v) with
  | nil => rfl
  | cons x B =>
    simp only [hE.eq_ok]
    cases hx : eqv x v with
    | false => rfl
    | true =>
      refine absurd (fun _ => ⟨l.takeWhile (lt · v), x, B, ?_, hx, fun a ha => ?_⟩) hf
      · rw [← hd, List.takeWhile_append_dropWhile]
      · exact List.all_eq_true.1 List.all_takeWhile a ha

/-- `index` finds a value that no other is like. -/
theorem index_spec (hE : E.Finer lt eqv) {v : α} {l : List α} (hs : Sorted lt l) (hf : NoOther lt eqv v l) (a b : Option Int) :
    EqSpec.index lt E.cmp v a b l = Spec.index (order E lt eqv) v a b l := by
  unfold Spec.index EqSpec.index order
  simp only
  have hiff : ∀ i : Nat, (l[i]?.any (equiv lt · v)) = l[i]?.any (eqv · v) := by
    intro i
    cases hi : l[i]? with
    | none => rfl
    | some x =>
      have hx := List.mem_of_getElem? hi
      simp only [Option.any_some]
      rw [Bool.eq_iff_iff]
      exact ⟨hf x hx, hE.fine x v⟩
  have hno : l.any (eqv · v) = false → ∀ q : Nat → Bool,
      (List.range l.length).find? (fun i => q i && l[i]?.any (eqv · v)) = none := by
    intro h q
    rw [List.find?_eq_none]
    intro i _
    cases hi : l[i]? with
    | none => simp
    | some x =>
      rw [List.any_eq_false] at h
      have := h x (List.mem_of_getElem? hi)
      simp_all
  split
  · rename_i hle
    have : (List.range l.length).find? (fun (i : Nat) => decide (Spec.indexBound l.length 0 a ≤ (i : Int)) &&
        decide ((i : Int) < Spec.indexBound l.length l.length b) && l[i]?.any (eqv · v)) = none := by
      rw [List.find?_eq_none]
      intro i hi
      rw [List.mem_range] at hi
      have : ¬ (Spec.indexBound l.length 0 a ≤ (i : Int) ∧ (i : Int) < Spec.indexBound l.length l.length b) := by omega
      intro hc
      simp only [Bool.and_eq_true, decide_eq_true_eq] at hc
      exact this hc.1
    rw [this]
  · cases hd : l.dropWhile (lt · v) with
    | nil =>
      have : l.any (eqv · v) = false := by
        rw [List.any_eq_false]
        intro x hx h
        have h1 := hE.fine _ _ h
        have : (lt x v) = true := by
          have e := List.takeWhile_append_dropWhile (p := (lt · v)) (l := l)
          rw [hd, List.append_nil] at e
          rw [← e] at hx
          exact List.all_eq_true.1 List.all_takeWhile x hx
        simp [equiv, this] at h1
      rw [hno this]
    | cons x B =>
      have hx : x ∈ l := (List.dropWhile_suffix (p := (lt · v)) (l := l)).subset (by rw [hd]; simp)
      have hsplit : l = l.takeWhile (lt · v) ++ x :: B := by rw [← hd, List.takeWhile_append_dropWhile]
      simp only [hE.ne_ok]
      cases hxv : eqv x v with
      | true =>
        simp only [Bool.not_true]
        have : (fun (i : Nat) => decide (Spec.indexBound l.length 0 a ≤ (i : Int)) &&
            decide ((i : Int) < min (Spec.indexBound l.length l.length b) l.length) &&
            (decide (i = (l.takeWhile (lt · v)).length) || l[i]?.any (equiv lt · v))) =
          (fun (i : Nat) => decide (Spec.indexBound l.length 0 a ≤ (i : Int)) &&
            decide ((i : Int) < Spec.indexBound l.length l.length b) && l[i]?.any (eqv · v)) := by
          funext i
          rw [hiff]
          have h1 : (decide (i = (l.takeWhile (lt · v)).length) || l[i]?.any (eqv · v)) = l[i]?.any (eqv · v) := by
            by_cases hi : i = (l.takeWhile (lt · v)).length
            · have : l[i]? = some x := by
                rw [hi]
                conv => lhs; rw [hsplit]
                rw [SL.takeWhile_split (fun y hy => List.all_eq_true.1 List.all_takeWhile y hy)
                  (by have := hE.fine _ _ hxv; simp only [equiv, Bool.and_eq_true, Bool.not_eq_true'] at this; exact this.1)]
                simp
              simp [this, hxv]
            · simp [hi]
          rw [h1]
          by_cases hi : i < l.length
          · have : decide ((i : Int) < min (Spec.indexBound l.length l.length b) l.length) =
                decide ((i : Int) < Spec.indexBound l.length l.length b) := decide_eq_decide.2 (by omega)
            rw [this]
          · have : l[i]? = none := List.getElem?_eq_none (by omega)
            simp [this]
        simp only [this]
        rfl
      | false =>
        simp only [Bool.not_false]
        have : l.any (eqv · v) = false := by
          rw [List.any_eq_false]
          intro y hy h
          have h1 := hE.fine _ _ h
          have hx2 : equiv lt x v ≠ true := fun h => by rw [hf x hx h] at hxv; cases hxv
          have hxlt : lt x v = false := by
            have := List.head_dropWhile_not (p := (lt · v)) (l := l) (by rw [hd]; simp)
            simpa [hd] using this
          have hvx : lt v x = true := by
            simp only [equiv, hxlt, Bool.not_false, Bool.true_and, ne_eq, Bool.not_eq_true', Bool.not_eq_false] at hx2
            exact hx2
          simp only [equiv, Bool.and_eq_true, Bool.not_eq_true'] at h1
          have hyx : lt y x = true := by
            cases hyx : lt y x with
            | true => rfl
            | false =>
              -- `v < x`, so `v < y` or `y < x`
              exact absurd hvx (by rw [hE.order.negtrans _ _ _ h1.2 hyx]; simp)
          rw [hsplit] at hy hs
          rw [List.mem_append] at hy
          rcases hy with hy | hy
          · have := List.all_eq_true.1 List.all_takeWhile y hy
            rw [h1.1] at this; cases this
          · rcases List.mem_cons.1 hy with rfl | hy
            · rw [hE.order.irrefl] at hyx; cases hyx
            · have := (List.pairwise_cons.1 (List.pairwise_append.1 hs).2.1).1 y hy
              rw [this] at hyx; cases hyx
        rw [hno this]

theorem lawful (hE : E.Finer lt eqv) : (patched E lt eqv).Lawful (order E lt eqv) (Inv id lt false) := by
  have hO := hE.toOrdered
  have hB := SL.api_lawful (SL.lawful hO)
  have hm := SL.methods_eq hO
  have hn := SL.new_eq hO
  constructor
  case order => exact hB.order
  case sorted => exact hB.sorted
  case new => intro xs; show ∃ s, SL.new E xs = _ ∧ _; rw [hn]; exact hB.new xs
  case add => intro v; show Refines _ _ (SL.add E v) _; rw [SL.add_eq hO]; exact hB.add v
  case update => intro v; show Refines _ _ (SL.update E v) _; rw [SL.update_eq hO]; exact hB.update v
  case clear => exact hB.clear
  case contains => intro v s hs; exact ⟨rfl, rfl, hs⟩
  case discard =>
    intro v s hs
    have := ideal_refines hE v (.ok ()) s hs
    simp only at this
    refine ⟨this.1.trans ?_, this.2.1.trans ?_, this.2.2⟩
    · split <;> rfl
    · split
      · rfl
      · rename_i h
        symm
        show (Core.iter s).eraseP (eqv · v) = _
        rw [List.eraseP_of_forall_not]
        intro a ha hc
        exact h (List.any_eq_true.2 ⟨a, ha, hc⟩)
  case remove =>
    intro v s hs
    show ((patched E lt eqv).remove v s).1 = _ ∧ _
    unfold patched
    simp only
    split
    · rename_i hf
      have := SL.remove_refines hO v s hs
      rw [remove_spec hE hf] at this
      exact this
    · exact ideal_refines hE v _ s hs
  case getInt => exact hB.getInt
  case getSlice => exact hB.getSlice
  case delInt => intro i; show Refines _ _ (Core.delInt (SL.methods E) i) _; rw [hm]; exact hB.delInt i
  case delSlice => intro i; show Refines _ _ (Core.delSlice (SL.methods E) i) _; rw [hm]; exact hB.delSlice i
  case pop => intro i; show Refines _ _ (Core.pop (SL.methods E) i) _; rw [hm]; exact hB.pop i
  case bisectLeft => intro v; show Refines _ _ (SL.bisect_left E v) _; rw [SL.bisect_left_eq hO]; exact hB.bisectLeft v
  case bisectRight => intro v; show Refines _ _ (SL.bisect_right E v) _; rw [SL.bisect_right_eq hO]; exact hB.bisectRight v
  case count => intro v s hs; exact ⟨rfl, rfl, hs⟩
  case index =>
    intro v a b s hs
    show ((patched E lt eqv).index v a b s).1 = _ ∧ _
    unfold patched
    simp only
    split
    · rename_i hf
      have := SL.index_refines hO v a b s hs
      rw [index_spec (l := Core.iter s) hE hs.sorted hf] at this
      exact this
    · exact ⟨rfl, by simp only [Spec.index]; split <;> rfl, hs⟩
  case irange => intro lo hi a b r; show Refines _ _ (SL.irange E lo hi a b r) _; rw [SL.irange_eq hO]; exact hB.irange lo hi a b r
  case islice => exact hB.islice
  case reversed => exact hB.reversed
  case len => exact hB.len
  case compare => exact fun op other => compare_refines (O := order E lt eqv) rfl op other
  case iadd => intro i; show Refines _ _ (Core.iadd (SL.methods E) i) _; rw [hm]; exact hB.iadd i
  case imul => intro i; show Refines _ _ (Core.imul (SL.methods E) i) _; rw [hm]; exact hB.imul i
  case reset => intro i h; show Refines _ _ (Core.reset (SL.methods E) i) _; rw [hm]; exact hB.reset i h
  case copy => intro s hs; show ∃ s', SL.new E (some (Core.iter s)) = _ ∧ _; rw [hn]; exact hB.copy s hs
  case concat => intro xs s hs; show ∃ s', SL.new E (some (Core.iter s ++ xs)) = _ ∧ _; rw [hn]; exact hB.concat xs s hs
  case mul => intro n s hs; show ∃ s', SL.new E (some (repeatList (Core.iter s) n)) = _ ∧ _; rw [hn]; exact hB.mul n s hs
  case reduceArgs => exact hB.reduceArgs
  case unsupported => exact hB.unsupported
  case keyCall => exact fun _ h => h.elim

theorem noOther_first (hE : E.Finer lt eqv) {v : α} {l : List α} (hs : Sorted lt l) (hf : NoOther lt eqv v l) :
    ComesFirst lt eqv v l := by
  rintro ⟨y, hy, hyv⟩
  have h1 := hE.fine _ _ hyv
  simp only [equiv, Bool.and_eq_true, Bool.not_eq_true'] at h1
  have hall : ∀ a ∈ l.takeWhile (lt · v), lt a v = true := fun a ha => List.all_eq_true.1 List.all_takeWhile a ha
  have e := List.takeWhile_append_dropWhile (p := (lt · v)) (l := l)
  cases hd : l.dropWhile (lt · v) with
  | nil =>
    rw [hd, List.append_nil] at e
    rw [← e] at hy
    rw [hall y hy] at h1; cases h1.1
  | cons x B =>
    rw [hd] at e
    have hxlt : lt x v = false := by
      have := List.head_dropWhile_not (p := (lt · v)) (l := l) (by rw [hd]; simp)
      simpa [hd] using this
    refine ⟨_, x, B, e.symm, hf x (by rw [← e]; simp) ?_, hall⟩
    have hyx : lt y x = false := by
      rw [← e] at hy hs
      rcases List.mem_append.1 hy with hy | hy
      · rw [hall y hy] at h1; cases h1.1
      · rcases List.mem_cons.1 hy with rfl | hy
        · cases h : lt y y with
          | false => rfl
          | true => have := hE.order.asymm _ _ h; rw [h] at this; cases this
        · exact (List.pairwise_cons.1 (List.pairwise_append.1 hs).2.1).1 y hy
    simp only [equiv, hxlt, hE.order.negtrans _ _ _ h1.2 hyx, Bool.not_false, Bool.and_self]

theorem good (hE : E.Finer lt eqv) {S : SetOps τ α} (hS : S.Lawful eqv) :
    SS.Good S (patched E lt eqv) (order E lt eqv) eqv (Inv id lt false) := ⟨hS, lawful hE, fun _ _ => rfl⟩

theorem remove_eq {v : α} {l : St α α} (hf : ComesFirst lt eqv v (Core.iter l)) :
    (patched E lt eqv).remove v l = (Verif.SL.api E).remove v l := if_pos hf

theorem index_eq {v : α} {l : St α α} (hf : NoOther lt eqv v (Core.iter l)) (a b : Option Int) :
    (patched E lt eqv).index v a b l = (Verif.SL.api E).index v a b l := if_pos hf

section Set
variable {S : SetOps τ α} {s : SS τ (St α α)}

theorem set_remove_eq {v : α} (hf : ComesFirst lt eqv v (Core.iter s.list)) :
    SS.remove S (Verif.SL.api E) v s = SS.remove S (patched E lt eqv) v s := by
  unfold SS.remove
  cases h : S.remove v s.set with
  | error e =>
    have hr : SS.setRemove S v s = (.error e, s) := by simp only [SS.setRemove, h]
    rw [Py.bind_error hr, Py.bind_error hr]
  | ok t =>
    have hr : SS.setRemove S v s = (.ok (), { s with set := t }) := by simp only [SS.setRemove, h]
    rw [Py.bind_ok hr, Py.bind_ok hr]
    unfold SS.onList
    rw [remove_eq (l := s.list) hf]

theorem set_discard_eq {v : α} (hf : ComesFirst lt eqv v (Core.iter s.list)) :
    SS.discard S (Verif.SL.api E) v s = SS.discard S (patched E lt eqv) v s := by
  unfold SS.discard
  simp only [Py.get_bind, Py.ite_apply']
  split
  · exact set_remove_eq hf
  · rfl

theorem set_discards_eq (hE : E.Finer lt eqv) (hS : S.Lawful eqv) (vs : List α)
    (hi : SS.Inv S (patched E lt eqv) (Inv id lt false) s) (hf : ∀ v ∈ vs, NoOther lt eqv v (Core.iter s.list)) :
    Py.forEach (SS.discard S (Verif.SL.api E)) vs s = Py.forEach (SS.discard S (patched E lt eqv)) vs s := by
  induction vs generalizing s with
  | nil => rfl
  | cons v vs ih =>
    have e := set_discard_eq (S := S) (E := E) (noOther_first hE hi.list.sorted (hf v (by simp)))
    obtain ⟨s', e', hi', h'⟩ := SS.discard_ok (good hE hS) hi v
    have h1 : Py.forEach (SS.discard S (Verif.SL.api E)) (v :: vs) s = Py.forEach (SS.discard S (Verif.SL.api E)) vs s' := by
      show (SS.discard S (Verif.SL.api E) v >>= fun _ => Py.forEach _ vs) s = _
      rw [Py.bind_ok (e.trans e')]
    have h2 : Py.forEach (SS.discard S (patched E lt eqv)) (v :: vs) s = Py.forEach (SS.discard S (patched E lt eqv)) vs s' := by
      show (SS.discard S (patched E lt eqv) v >>= fun _ => Py.forEach _ vs) s = _
      rw [Py.bind_ok e']
    rw [h1, h2]
    refine ih hi' fun u hu x hx => hf u (by simp [hu]) x ?_
    have : x ∈ SS.iter (patched E lt eqv) s' := hx
    rw [h'] at this
    exact (List.mem_filter.1 this).1

theorem set_differenceUpdate_eq (hE : E.Finer lt eqv) (hS : S.Lawful eqv) (xss : List (List α))
    (hi : SS.Inv S (patched E lt eqv) (Inv id lt false) s) (hf : ∀ v ∈ xss.flatten, NoOther lt eqv v (Core.iter s.list)) :
    SS.differenceUpdate S (Verif.SL.api E) xss s = SS.differenceUpdate S (patched E lt eqv) xss s := by
  unfold SS.differenceUpdate
  simp only [Py.get_bind, Py.ite_apply']
  split
  · rfl
  · refine set_discards_eq hE hS _ hi fun v hv => hf v ?_
    have := of_mem_foldl_addNew ((hS.ofList _).mem_iff.1 hv)
    simpa using this

theorem set_step_eq (hE : E.Finer lt eqv) (hS : S.Lawful eqv) (op : SSOp α)
    (hi : SS.Inv S (patched E lt eqv) (Inv id lt false) s) (ht : op.Tame lt eqv (Core.iter s.list)) :
    SS.step S (Verif.SL.api E) op s = SS.step S (patched E lt eqv) op s := by
  cases op with
  | discard v => simp only [SS.step, Spec.out, set_discard_eq (E := E) ht]
  | remove v => simp only [SS.step, Spec.out, set_remove_eq (E := E) ht]
  | differenceUpdate xss => simp only [SS.step, Spec.out, set_differenceUpdate_eq hE hS xss hi ht]
  | index v a b => simp only [SS.step, Spec.out, SS.onList, index_eq (E := E) (l := s.list) ht]
  | _ => rfl

theorem set_reachable_inv (hE : E.Finer lt eqv) (hS : S.Lawful eqv) (hs : SS.TameReachable S (Verif.SL.api E) lt eqv s) :
    SS.Inv S (patched E lt eqv) (Inv id lt false) s := by
  have h := good hE hS
  induction hs with
  | new e =>
    rename_i xs s
    obtain ⟨s', e', h1, _⟩ := SS.new_ok h xs
    have e2 : SS.new S (patched E lt eqv) xs = .ok s := e
    rw [e2] at e'; cases e'; exact h1
  | copy _ e ih =>
    rename_i s s' _
    obtain ⟨_, e', h1, _⟩ := SS.copy_ok h ih
    have e2 : SS.copy S (patched E lt eqv) s = .ok s' := e
    rw [e2] at e'; cases e'; exact h1
  | union _ e ih =>
    rename_i s s' xss _
    obtain ⟨_, e', h1, _⟩ := SS.union_ok h xss ih
    have e2 : SS.union S (patched E lt eqv) xss s = .ok s' := e
    rw [e2] at e'; cases e'; exact h1
  | intersection _ e ih =>
    rename_i s s' xss _
    obtain ⟨_, e', h1, _⟩ := SS.intersection_ok h xss ih
    have e2 : SS.intersection S (patched E lt eqv) xss s = .ok s' := e
    rw [e2] at e'; cases e'; exact h1
  | difference _ e ih =>
    rename_i s s' xss _
    obtain ⟨_, e', h1, _⟩ := SS.difference_ok h xss ih
    have e2 : SS.difference S (patched E lt eqv) xss s = .ok s' := e
    rw [e2] at e'; cases e'; exact h1
  | symmetricDifference _ e ih =>
    rename_i s s' xss _
    obtain ⟨_, e', h1, _⟩ := SS.symmetricDifference_ok h xss ih
    have e2 : SS.symmetricDifference S (patched E lt eqv) xss s = .ok s' := e
    rw [e2] at e'; cases e'; exact h1
  | step op hv ht _ ih =>
    rw [set_step_eq hE hS op ih ht]
    exact SS.step_inv h ih op hv

end Set

section Dict
variable {s : SD α ν (St α α)}

theorem goodDict (hE : E.Finer lt eqv) (he : IsEquiv eqv) :
    SD.Good (patched E lt eqv) (order E lt eqv) eqv (Inv id lt false) := ⟨he, lawful hE, fun _ _ => rfl⟩

theorem dict_delitem_eq {k : α} (hf : ComesFirst lt eqv k (Core.iter s.list)) :
    SD.delitem eqv (Verif.SL.api E) k s = SD.delitem eqv (patched E lt eqv) k s := by
  unfold SD.delitem SD.dictDelitem
  cases h : PyDict.has eqv s.dict k with
  | false =>
    have : ∀ L : ListAPI (St α α) α, (do (do let s ← Py.get; if PyDict.has eqv s.dict k then SD.onDict fun d => PyDict.erase eqv d k else Py.raise .keyError); SD.onList (L.remove k) : Py (SD α ν (St α α)) Unit) s = (.error .keyError, s) := by
      intro L
      exact Py.bind_error (by simp only [Py.get_bind, Py.ite_apply', h]; rfl)
    rw [this, this]
  | true =>
    have : ∀ L : ListAPI (St α α) α, (do (do let s ← Py.get; if PyDict.has eqv s.dict k then SD.onDict fun d => PyDict.erase eqv d k else Py.raise .keyError); SD.onList (L.remove k) : Py (SD α ν (St α α)) Unit) s =
        SD.onList (L.remove k) { s with dict := PyDict.erase eqv s.dict k } := by
      intro L
      exact Py.bind_ok (by simp only [Py.get_bind, Py.ite_apply', h]; rfl)
    rw [this, this]
    unfold SD.onList
    rw [remove_eq (l := s.list) hf]

theorem dict_pop_eq {k : α} {d : Option ν} (hf : ComesFirst lt eqv k (Core.iter s.list)) :
    SD.pop eqv (Verif.SL.api E) k d s = SD.pop eqv (patched E lt eqv) k d s := by
  unfold SD.pop
  simp only [Py.get_bind, Py.ite_apply']
  split
  · have : SD.onList ((Verif.SL.api E).remove k) s = SD.onList ((patched E lt eqv).remove k) s := by
      unfold SD.onList
      rw [remove_eq (l := s.list) hf]
    rcases hr : SD.onList ((patched E lt eqv).remove k) s with ⟨r, s'⟩
    rw [hr] at this
    cases r with
    | ok u => rw [Py.bind_ok this, Py.bind_ok hr]
    | error e => rw [Py.bind_error this, Py.bind_error hr]
  · rfl

theorem dict_step_eq (op : SDOp α ν) (ht : op.Tame lt eqv (Core.iter s.list)) :
    SD.step eqv (Verif.SL.api E) op s = SD.step eqv (patched E lt eqv) op s := by
  have out : ∀ {β : Type} {f : β → DOut α ν} {m m' : Py (SD α ν (St α α)) β}, m s = m' s → SD.out f m s = SD.out f m' s := by
    intro β f m m' h
    unfold SD.out
    rcases hr : m' s with ⟨r, s'⟩
    rw [hr] at h
    cases r with
    | ok u => rw [Py.bind_ok h, Py.bind_ok hr]
    | error e => rw [Py.bind_error h, Py.bind_error hr]
  cases op with
  | delitem k => exact out (dict_delitem_eq ht)
  | pop k d => exact out (dict_pop_eq ht)
  | index k a b => exact out (by unfold SD.onList; rw [index_eq (l := s.list) ht])
  | _ => rfl

theorem dict_reachable_inv (hE : E.Finer lt eqv) (he : IsEquiv eqv) (hs : SD.TameReachable eqv (Verif.SL.api E) lt s) :
    SD.Inv (patched E lt eqv) (order E lt eqv) eqv (Inv id lt false) s := by
  have h := goodDict hE he
  induction hs with
  | new hf e =>
    rename_i arg s
    obtain ⟨s', e', _, h1⟩ := SD.new_ok h hf
    have e2 : SD.new eqv (patched E lt eqv) arg = .ok s := e
    rw [e2] at e'; cases e'; exact h1
  | copy _ e ih =>
    rename_i s s' _
    obtain ⟨_, e', _, h1⟩ := SD.copy_ok h ih
    have e2 : SD.copy eqv (patched E lt eqv) s = .ok s' := e
    rw [e2] at e'; cases e'; exact h1
  | or _ e ih =>
    rename_i s s' other _
    obtain ⟨_, e', _, h1⟩ := SD.or_ok h ih other
    have e2 : SD.or eqv (patched E lt eqv) other s = .ok s' := e
    rw [e2] at e'; cases e'; exact h1
  | ror _ e ih =>
    rename_i s s' other _
    obtain ⟨_, e', _, h1⟩ := SD.ror_ok h ih other
    have e2 : SD.ror eqv (patched E lt eqv) other s = .ok s' := e
    rw [e2] at e'; cases e'; exact h1
  | step op hv ht _ ih =>
    rw [dict_step_eq op ht]
    exact (SD.step_refines h op hv _ ih).2.2

end Dict

end Equality.Sets
end Verif
