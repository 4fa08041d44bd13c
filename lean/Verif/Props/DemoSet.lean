import Verif.Props.Demo
import Verif.Proofs.SortedSet
/-!
# Concrete built-in sets and sorted sets

`listSet eqv he flip` is a built-in set kept as a list of distinct values, iterated in insertion order or, if `flip`, in
the opposite order.  It shows that the assumptions about built-in sets can be met, with different iteration orders.
-/

namespace Verif
namespace Demo
variable {α : Type}

def listSet (eqv : α → α → Bool) (he : IsEquiv eqv) (flip : Bool) : SetOps { l : List α // Distinct eqv l } α where
  empty := ⟨[], List.Pairwise.nil⟩
  ofList xs := ⟨xs.foldl (addNew eqv) [], distinct_foldl_addNew List.Pairwise.nil xs⟩
  toList t := if flip then t.1.reverse else t.1
  mem x t := t.1.any (eqv · x)
  len t := t.1.length
  add x t := ⟨addNew eqv t.1 x, distinct_foldl_addNew t.2 [x]⟩
  remove x t := if t.1.any (eqv · x) then .ok ⟨t.1.filter fun y => !eqv y x, t.2.filter _⟩ else .error .keyError
  update xs t := ⟨xs.foldl (addNew eqv) t.1, distinct_foldl_addNew t.2 xs⟩
  differenceUpdate xs t := ⟨t.1.filter fun y => !xs.any (eqv · y), t.2.filter _⟩
  intersectionUpdate xss t := ⟨t.1.filter fun y => xss.all fun xs => xs.any (eqv · y), t.2.filter _⟩
  symmetricDifferenceUpdate xs t := ⟨(xs.foldl (addNew eqv) []).filter (fun y => !t.1.any (eqv · y)) ++
      t.1.filter fun y => !xs.any (eqv · y), by
    refine List.pairwise_append.2 ⟨(distinct_foldl_addNew List.Pairwise.nil xs).filter _, t.2.filter _, ?_⟩
    intro a ha b hb
    rw [List.mem_filter] at ha hb
    cases hab : eqv a b with
    | false => rfl
    | true =>
      have h1 : t.1.any (eqv · a) = true := by rw [any_congr_eqv he hab]; exact any_self he hb.1
      rw [h1] at ha
      simp at ha⟩
  difference xss t := ⟨t.1.filter fun y => !xss.any fun xs => xs.any (eqv · y), t.2.filter _⟩
  intersection xss t := ⟨t.1.filter fun y => xss.all fun xs => xs.any (eqv · y), t.2.filter _⟩
  symmetricDifference xs t := ⟨(xs.foldl (addNew eqv) []).filter (fun y => !t.1.any (eqv · y)) ++
      t.1.filter fun y => !xs.any (eqv · y), by
    refine List.pairwise_append.2 ⟨(distinct_foldl_addNew List.Pairwise.nil xs).filter _, t.2.filter _, ?_⟩
    intro a ha b hb
    rw [List.mem_filter] at ha hb
    cases hab : eqv a b with
    | false => rfl
    | true =>
      have h1 : t.1.any (eqv · a) = true := by rw [any_congr_eqv he hab]; exact any_self he hb.1
      rw [h1] at ha
      simp at ha⟩
  copy t := t

theorem any_filter_eqv {eqv : α → α → Bool} (he : IsEquiv eqv) (l : List α) {p : α → Bool}
    (hp : ∀ a b, eqv a b = true → p a = p b) (x : α) : (l.filter p).any (eqv · x) = (l.any (eqv · x) && p x) := by
  rw [Bool.eq_iff_iff, Bool.and_eq_true, List.any_eq_true, List.any_eq_true]
  constructor
  · rintro ⟨y, hy, hyx⟩
    rw [List.mem_filter] at hy
    exact ⟨⟨y, hy.1, hyx⟩, (hp y x hyx) ▸ hy.2⟩
  · rintro ⟨⟨y, hy, hyx⟩, hx⟩
    exact ⟨y, List.mem_filter.2 ⟨hy, (hp y x hyx) ▸ hx⟩, hyx⟩

theorem listSet_perm (eqv : α → α → Bool) (he : IsEquiv eqv) (flip : Bool) (t : { l : List α // Distinct eqv l }) :
    ((listSet eqv he flip).toList t).Perm t.1 := by
  show (if flip then t.1.reverse else t.1).Perm t.1
  cases flip
  · exact .refl _
  · exact List.reverse_perm _

theorem listSet_lawful (eqv : α → α → Bool) (he : IsEquiv eqv) (flip : Bool) : (listSet eqv he flip).Lawful eqv := by
  have hp := listSet_perm eqv he flip
  have hany : ∀ (t : { l : List α // Distinct eqv l }) (p : α → Bool), ((listSet eqv he flip).toList t).any p = t.1.any p :=
    fun t p => any_perm (hp t)
  have hsd : ∀ (xs : List α) (t : { l : List α // Distinct eqv l }) (x : α),
      ((listSet eqv he flip).toList ((listSet eqv he flip).symmetricDifference xs t)).any (eqv · x) =
      (((listSet eqv he flip).toList t).any (eqv · x) != xs.any (eqv · x)) := by
    intro xs t x
    rw [hany, hany]
    show (List.any (_ ++ _) _) = _
    rw [List.any_append, any_filter_eqv he, any_filter_eqv he, any_foldl_addNew he]
    · simp only [List.any_nil, Bool.false_or]
      cases t.1.any (eqv · x) <;> cases xs.any (eqv · x) <;> rfl
    · intro a b hab; rw [any_congr_eqv he hab]
    · intro a b hab; rw [any_congr_eqv he hab]
  have hint : ∀ (xss : List (List α)) (t : { l : List α // Distinct eqv l }) (x : α),
      ((listSet eqv he flip).toList ((listSet eqv he flip).intersection xss t)).any (eqv · x) =
      (((listSet eqv he flip).toList t).any (eqv · x) && xss.all fun xs => xs.any (eqv · x)) := by
    intro xss t x
    rw [hany, hany]
    exact any_filter_eqv he _ (fun a b hab => by simp only [any_congr_eqv he hab]) x
  exact
  { refl := he.refl
    symm := he.symm
    trans := he.trans
    distinct := fun t => Distinct.perm he (hp t).symm t.2
    empty := by show (if flip then _ else _) = _; cases flip <;> rfl
    ofList := fun xs => hp _
    mem := fun x t => (hany t _).symm
    len := fun t => (hp t).length_eq.symm
    add := fun x t => (hp _).trans (addNew_perm (hp t).symm x)
    remove := fun x t h => by
      rw [hany] at h
      exact ⟨_, if_pos h, (hp _).trans ((hp t).symm.filter _)⟩
    remove_absent := fun x t h => by
      rw [hany] at h
      exact if_neg (by rw [h]; simp)
    update := fun xs t => (hp _).trans (foldl_addNew_perm (hp t).symm xs)
    differenceUpdate := fun xs t => (hp _).trans ((hp t).symm.filter _)
    intersectionUpdate := hint
    symmetricDifferenceUpdate := hsd
    difference := fun xss t => (hp _).trans ((hp t).symm.filter _)
    intersection := hint
    symmetricDifference := hsd
    copy := fun t => .refl _ }

end Demo
end Verif
