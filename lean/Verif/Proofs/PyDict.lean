import Verif.Proofs.Distinct
import Verif.DictSpec
/-!
# Facts about the built-in dict
-/

namespace Verif
namespace PyDict
variable {κ ν : Type} {eqv : κ → κ → Bool}

theorem has_eq (d : List (κ × ν)) (k : κ) : has eqv d k = (keys d).any (eqv · k) := by
  simp [has, keys, List.any_map, Function.comp_def]

theorem has_eq_lookup (d : List (κ × ν)) (k : κ) : has eqv d k = (lookup eqv d k).isSome := by
  simp only [has, lookup, Option.isSome_map]
  induction d with
  | nil => rfl
  | cons p d ih => rw [List.any_cons, List.find?_cons, ih]; cases eqv p.1 k <;> rfl

theorem keys_set (d : List (κ × ν)) (k : κ) (v : ν) : keys (set eqv d k v) = addNew eqv (keys d) k := by
  unfold set addNew
  rw [has_eq]
  split
  · simp only [keys, List.map_map]
    refine List.map_congr_left fun p _ => ?_
    simp only [Function.comp_apply]; split <;> rfl
  · simp [keys]

theorem keys_update (d ps : List (κ × ν)) : keys (update eqv d ps) = (keys ps).foldl (addNew eqv) (keys d) := by
  unfold update
  induction ps generalizing d with
  | nil => rfl
  | cons p ps ih => rw [List.foldl_cons, ih, keys_set]; rfl

theorem keys_erase (d : List (κ × ν)) (k : κ) : keys (erase eqv d k) = (keys d).filter fun x => !eqv x k := by
  simp [keys, erase, List.filter_map, Function.comp_def]

theorem update_append (d ps qs : List (κ × ν)) : update eqv d (ps ++ qs) = update eqv (update eqv d ps) qs := by
  simp [update]

theorem lookup_cons (p : κ × ν) (d : List (κ × ν)) (k : κ) :
    lookup eqv (p :: d) k = if eqv p.1 k then some p.2 else lookup eqv d k := by
  unfold lookup
  rw [List.find?_cons]
  cases h : eqv p.1 k <;> simp

theorem lookup_append (d e : List (κ × ν)) (k : κ) : lookup eqv (d ++ e) k = (lookup eqv d k).or (lookup eqv e k) := by
  simp only [lookup, List.find?_append]
  cases List.find? (fun p => eqv p.1 k) d <;> rfl

theorem lookup_none {d : List (κ × ν)} {k : κ} (h : has eqv d k = false) : lookup eqv d k = none := by
  rw [has_eq_lookup] at h
  cases hl : lookup eqv d k with
  | none => rfl
  | some v => rw [hl] at h; cases h

theorem lookup_some {d : List (κ × ν)} {k : κ} (h : has eqv d k = true) : ∃ v, lookup eqv d k = some v := by
  rw [has_eq_lookup] at h
  exact Option.isSome_iff_exists.1 h

theorem lookup_set (he : IsEquiv eqv) (d : List (κ × ν)) (k : κ) (v : ν) (k' : κ) :
    lookup eqv (set eqv d k v) k' = if eqv k k' then some v else lookup eqv d k' := by
  unfold set
  split
  · rename_i hk
    induction d with
    | nil => simp [has] at hk
    | cons p d ih =>
      rw [List.map_cons, lookup_cons, lookup_cons]
      cases hpk : eqv p.1 k with
      | true =>
        simp only [if_true]
        have : eqv p.1 k' = eqv k k' := by rw [he.symm p.1, he.symm k, ← he.congr hpk]
        rw [this]
        cases hkk : eqv k k' with
        | true => rfl
        | false =>
          simp only [Bool.false_eq_true, if_false]
          -- the rest does not hold an item that would change
          by_cases hd : has eqv d k = true
          · have := ih hd; rw [hkk] at this; simpa using this
          · congr 1
            conv => rhs; rw [← List.map_id d]
            refine List.map_congr_left fun q hq => ?_
            rw [if_neg]; · rfl
            intro hqk
            exact hd (List.any_eq_true.2 ⟨q, hq, hqk⟩)
      | false =>
        have hd : has eqv d k = true := by simpa [has, hpk] using hk
        simp only [Bool.false_eq_true, if_false]
        rw [ih hd]
        cases hpk' : eqv p.1 k' with
        | true =>
          have : eqv k k' = false := by
            cases hkk : eqv k k' with
            | false => rfl
            | true => rw [he.congr hkk, hpk'] at hpk; cases hpk
          simp [this]
        | false => simp
  · rename_i hk
    rw [lookup_append, lookup_cons]
    have hk : has eqv d k = false := by simpa using hk
    cases hkk : eqv k k' with
    | true =>
      have : has eqv d k' = false := by rw [has_eq, ← any_congr_eqv he hkk, ← has_eq, hk]
      rw [lookup_none this]; rfl
    | false => simp [lookup]

theorem lookup_erase (he : IsEquiv eqv) (d : List (κ × ν)) (k k' : κ) :
    lookup eqv (erase eqv d k) k' = if eqv k k' then none else lookup eqv d k' := by
  unfold erase
  induction d with
  | nil => simp [lookup]
  | cons p d ih =>
    rw [List.filter_cons]
    cases hpk : eqv p.1 k with
    | true =>
      have : eqv p.1 k' = eqv k k' := by rw [he.symm p.1, he.symm k, ← he.congr hpk]
      simp only [Bool.not_true, Bool.false_eq_true, if_false]
      rw [ih, lookup_cons, this]
      split <;> rfl
    | false =>
      simp only [Bool.not_false, if_true]
      rw [lookup_cons, lookup_cons, ih]
      cases hpk' : eqv p.1 k' with
      | true =>
        have : eqv k k' = false := by
          cases hkk : eqv k k' with
          | false => rfl
          | true => rw [he.congr hkk, hpk'] at hpk; cases hpk
        simp [this]
      | false => simp

theorem lookup_update (he : IsEquiv eqv) (d ps : List (κ × ν)) (k : κ) :
    lookup eqv (update eqv d ps) k = (lookup eqv ps.reverse k).or (lookup eqv d k) := by
  unfold update
  induction ps generalizing d with
  | nil => rfl
  | cons p ps ih =>
    rw [List.foldl_cons, ih, List.reverse_cons, lookup_append, lookup_set he, lookup_cons]
    cases lookup eqv ps.reverse k with
    | some v => rfl
    | none => cases eqv p.1 k <;> simp [lookup]

/-- No two items have equal keys. -/
def Keyed (eqv : κ → κ → Bool) (d : List (κ × ν)) : Prop := Distinct eqv (keys d)

theorem Keyed.nil : Keyed eqv ([] : List (κ × ν)) := List.Pairwise.nil

theorem Keyed.update {d : List (κ × ν)} (h : Keyed eqv d) (ps : List (κ × ν)) : Keyed eqv (update eqv d ps) := by
  unfold Keyed; rw [keys_update]; exact distinct_foldl_addNew h _

theorem Keyed.set {d : List (κ × ν)} (h : Keyed eqv d) (k : κ) (v : ν) : Keyed eqv (set eqv d k v) :=
  h.update [(k, v)]

theorem Keyed.erase {d : List (κ × ν)} (h : Keyed eqv d) (k : κ) : Keyed eqv (erase eqv d k) := by
  unfold Keyed; rw [keys_erase]; exact List.Pairwise.filter _ h

theorem lookup_mem (he : IsEquiv eqv) {d : List (κ × ν)} (h : Keyed eqv d) {k : κ} {v : ν} (hm : (k, v) ∈ d) :
    lookup eqv d k = some v := by
  induction d with
  | nil => cases hm
  | cons p d ih =>
    obtain ⟨h1, h2⟩ := List.pairwise_cons.1 h
    rw [lookup_cons]
    rcases List.mem_cons.1 hm with rfl | hm
    · rw [if_pos (he.refl _)]
    · rw [if_neg, ih h2 hm]
      rw [h1 k (List.mem_map.2 ⟨_, hm, rfl⟩)]; simp

theorem mem_of_lookup {d : List (κ × ν)} {k : κ} {v : ν} (h : lookup eqv d k = some v) :
    ∃ k', eqv k' k = true ∧ (k', v) ∈ d := by
  unfold lookup at h
  obtain ⟨p, hp, rfl⟩ := Option.map_eq_some_iff.1 h
  exact ⟨p.1, by simpa using List.find?_some hp, List.mem_of_find?_eq_some hp⟩

theorem lookup_of_keyed (he : IsEquiv eqv) {d : List (κ × ν)} (h : Keyed eqv d) (k : κ) (v : ν) :
    lookup eqv d k = some v ↔ ∃ k', eqv k' k = true ∧ (k', v) ∈ d := by
  constructor
  · exact mem_of_lookup
  · rintro ⟨k', hk, hm⟩
    have := lookup_mem he h hm
    rw [← this]
    unfold lookup
    congr 2
    funext p
    exact (he.congr hk p.1).symm

theorem Keyed.reverse (he : IsEquiv eqv) {d : List (κ × ν)} (h : Keyed eqv d) : Keyed eqv d.reverse :=
  Distinct.perm he ((List.reverse_perm d).symm.map _) h

theorem lookup_perm (he : IsEquiv eqv) {d e : List (κ × ν)} (hp : d.Perm e) (h : Keyed eqv d) (k : κ) :
    lookup eqv d k = lookup eqv e k := by
  have h' : Keyed eqv e := Distinct.perm he (hp.map _) h
  cases hl : lookup eqv d k with
  | some v =>
    obtain ⟨k', h1, h2⟩ := (lookup_of_keyed he h k v).1 hl
    exact ((lookup_of_keyed he h' k v).2 ⟨k', h1, hp.mem_iff.1 h2⟩).symm
  | none =>
    cases hl' : lookup eqv e k with
    | none => rfl
    | some v =>
      obtain ⟨k', h1, h2⟩ := (lookup_of_keyed he h' k v).1 hl'
      rw [(lookup_of_keyed he h k v).2 ⟨k', h1, hp.mem_iff.2 h2⟩] at hl; cases hl

/-- Updating with the items of a dict. -/
theorem lookup_update_keyed (he : IsEquiv eqv) (d : List (κ × ν)) {ps : List (κ × ν)} (h : Keyed eqv ps) (k : κ) :
    lookup eqv (update eqv d ps) k = (lookup eqv ps k).or (lookup eqv d k) := by
  rw [lookup_update he, lookup_perm he (List.reverse_perm ps) (h.reverse he)]

theorem update_nil_keyed {ps : List (κ × ν)} (h : Keyed eqv ps) : ofPairs eqv ps = ps := by
  have key : ∀ (ps d : List (κ × ν)), Keyed eqv (d ++ ps) → update eqv d ps = d ++ ps := by
    intro ps
    induction ps with
    | nil => intro d _; simp [update]
    | cons p ps ih =>
      intro d hd
      show update eqv (PyDict.set eqv d p.1 p.2) ps = _
      have hp : has eqv d p.1 = false := by
        cases hh : has eqv d p.1 with
        | false => rfl
        | true =>
          obtain ⟨q, hq, hqp⟩ := List.any_eq_true.1 hh
          unfold Keyed keys Distinct at hd
          rw [List.map_append, List.pairwise_append] at hd
          rw [hd.2.2 q.1 (List.mem_map.2 ⟨q, hq, rfl⟩) p.1 (by simp)] at hqp; cases hqp
      unfold PyDict.set
      rw [hp]
      simp only [Bool.false_eq_true, if_false]
      rw [ih _ (by simpa using hd)]; simp
  exact key ps [] (by simpa using h)

theorem set_twice_eqv (he : IsEquiv eqv) (d : List (κ × ν)) {k0 k : κ} (h : eqv k0 k = true) (v0 v : ν) :
    PyDict.set eqv (PyDict.set eqv d k0 v0) k v = PyDict.set eqv d k0 v := by
  have hh : has eqv (PyDict.set eqv d k0 v0) k = true := by
    rw [has_eq_lookup, lookup_set he, if_pos h]; rfl
  have hc : ∀ x, eqv x k = eqv x k0 := fun x => (he.congr h x).symm
  rw [PyDict.set, if_pos hh]
  unfold PyDict.set
  split
  · rw [List.map_map]
    refine List.map_congr_left fun p _ => ?_
    simp only [Function.comp_apply, hc]
    cases hp : eqv p.1 k0 <;> simp [hp]
  · rename_i hk
    rw [List.map_append]
    congr 1
    · conv => rhs; rw [← List.map_id d]
      refine List.map_congr_left fun q hq => ?_
      rw [if_neg]; · rfl
      intro hqk
      rw [hc] at hqk
      exact hk (List.any_eq_true.2 ⟨q, hq, hqk⟩)
    · simp [h]

theorem set_comm (he : IsEquiv eqv) (d : List (κ × ν)) {k k' : κ} (h : eqv k k' = false) (hk : has eqv d k = true) (v w : ν) :
    PyDict.set eqv (PyDict.set eqv d k' w) k v = PyDict.set eqv (PyDict.set eqv d k v) k' w := by
  have h1 : has eqv (PyDict.set eqv d k' w) k = true := by
    rw [has_eq_lookup, lookup_set he]
    split
    · rfl
    · rw [← has_eq_lookup]; exact hk
  have h2 : has eqv (PyDict.set eqv d k v) k' = has eqv d k' := by
    rw [has_eq_lookup, lookup_set he, h, has_eq_lookup]; rfl
  rw [PyDict.set, if_pos h1, PyDict.set, PyDict.set, h2, PyDict.set, if_pos hk]
  split
  · rw [List.map_map, List.map_map]
    refine List.map_congr_left fun p _ => ?_
    simp only [Function.comp_apply]
    cases hp : eqv p.1 k <;> cases hp' : eqv p.1 k' <;> simp [hp, hp']
    have : eqv k k' = true := he.trans _ p.1 _ (by rw [he.symm]; exact hp) hp'
    rw [this] at h; cases h
  · rw [List.map_append]
    congr 1
    have : eqv k' k = false := by rw [he.symm]; exact h
    simp [this]

theorem has_set_of_has (he : IsEquiv eqv) {d : List (κ × ν)} {k : κ} (hk : has eqv d k = true) (k' : κ) (w : ν) :
    has eqv (PyDict.set eqv d k' w) k = true := by
  rw [has_eq_lookup, lookup_set he]
  split
  · rfl
  · rw [← has_eq_lookup]; exact hk

theorem update_set_comm (he : IsEquiv eqv) {d : List (κ × ν)} {k : κ} (hk : has eqv d k = true) (v : ν)
    {ps : List (κ × ν)} (h : ∀ p ∈ ps, eqv k p.1 = false) :
    PyDict.set eqv (PyDict.update eqv d ps) k v = PyDict.update eqv (PyDict.set eqv d k v) ps := by
  induction ps generalizing d with
  | nil => rfl
  | cons p ps ih =>
    show PyDict.set eqv (PyDict.update eqv (PyDict.set eqv d p.1 p.2) ps) k v =
      PyDict.update eqv (PyDict.set eqv (PyDict.set eqv d k v) p.1 p.2) ps
    rw [ih (has_set_of_has he hk _ _) fun q hq => h q (List.mem_cons_of_mem _ hq), set_comm he d (h p (by simp)) hk]

theorem update_set (he : IsEquiv eqv) (d : List (κ × ν)) {acc : List (κ × ν)} (h : Keyed eqv acc) (k : κ) (v : ν) :
    PyDict.update eqv d (PyDict.set eqv acc k v) = PyDict.set eqv (PyDict.update eqv d acc) k v := by
  cases hk : has eqv acc k with
  | false =>
    have e : PyDict.set eqv acc k v = acc ++ [(k, v)] := by simp [PyDict.set, hk]
    rw [e, update_append]; rfl
  | true =>
    obtain ⟨q, hq, hqk⟩ := List.any_eq_true.1 hk
    obtain ⟨A, B, rfl⟩ := List.append_of_mem hq
    obtain ⟨k0, v0⟩ := q
    simp only at hqk
    unfold Keyed keys Distinct at h
    rw [List.map_append, List.map_cons, List.pairwise_append, List.pairwise_cons] at h
    obtain ⟨_, ⟨hB, _⟩, hA⟩ := h
    have hA' : ∀ p ∈ A, eqv p.1 k = false := fun p hp => by
      rw [← he.congr hqk]; exact hA p.1 (List.mem_map.2 ⟨p, hp, rfl⟩) k0 (by simp)
    have hB' : ∀ p ∈ B, eqv k p.1 = false := fun p hp => by
      rw [he.symm, ← he.congr hqk, he.symm]; exact hB p.1 (List.mem_map.2 ⟨p, hp, rfl⟩)
    have e : PyDict.set eqv (A ++ (k0, v0) :: B) k v = A ++ (k0, v) :: B := by
      rw [PyDict.set, if_pos hk, List.map_append, List.map_cons, if_pos hqk]
      congr 1
      · conv => rhs; rw [← List.map_id A]
        refine List.map_congr_left fun p hp => ?_
        rw [hA' p hp]; rfl
      · congr 1
        conv => rhs; rw [← List.map_id B]
        refine List.map_congr_left fun p hp => ?_
        rw [he.symm, hB' p hp]; rfl
    rw [e, update_append, update_append]
    show PyDict.update eqv (PyDict.set eqv (PyDict.update eqv d A) k0 v) B =
      PyDict.set eqv (PyDict.update eqv (PyDict.set eqv (PyDict.update eqv d A) k0 v0) B) k v
    rw [update_set_comm he _ v hB', set_twice_eqv he _ hqk]
    rw [has_eq_lookup, lookup_set he, if_pos hqk]; rfl

/-- Collecting the pairs in a dict first makes no difference. -/
theorem update_ofPairs (he : IsEquiv eqv) (d ps : List (κ × ν)) :
    PyDict.update eqv d (ofPairs eqv ps) = PyDict.update eqv d ps := by
  have key : ∀ (ps acc : List (κ × ν)), Keyed eqv acc →
      PyDict.update eqv d (PyDict.update eqv acc ps) = PyDict.update eqv (PyDict.update eqv d acc) ps := by
    intro ps
    induction ps with
    | nil => intro acc _; rfl
    | cons p ps ih =>
      intro acc hacc
      show PyDict.update eqv d (PyDict.update eqv (PyDict.set eqv acc p.1 p.2) ps) =
        PyDict.update eqv (PyDict.set eqv (PyDict.update eqv d acc) p.1 p.2) ps
      rw [ih _ (hacc.set _ _), update_set he d hacc]
  exact key ps [] Keyed.nil

theorem erase_absent {d : List (κ × ν)} {k : κ} (h : has eqv d k = false) : erase eqv d k = d := by
  refine List.filter_eq_self.2 fun p hp => ?_
  cases hpk : eqv p.1 k
  · rfl
  · rw [has, List.any_eq_true.2 ⟨p, hp, hpk⟩] at h; cases h

end PyDict

/-! ### Sorting -/

theorem IsStableSort.filter {α : Type} {lt : α → α → Bool} {xs ys : List α} (h : IsStableSort lt xs ys) (p : α → Bool) :
    IsStableSort lt (xs.filter p) (ys.filter p) :=
  ⟨h.perm.filter p, List.Pairwise.filter _ h.sorted, fun v => by
    rw [List.filter_filter, List.filter_filter]
    have : ∀ l : List α, l.filter (fun a => equiv lt v a && p a) = (l.filter (equiv lt v)).filter p := fun l => by
      rw [List.filter_filter]; congr 1; funext a; rw [Bool.and_comm]
    rw [this, this, h.stable]⟩

namespace DictSpec
open PyDict
variable {κ ν : Type} {eqv : κ → κ → Bool} {O : Spec.Order κ}

theorem sortedKeys_sort (hO : StrictWeakOrder O.lt) (d : List (κ × ν)) : IsStableSort O.lt (keys d) (sortedKeys O d) := by
  have := Spec.insertAll_isStableSort hO Spec.sorted_nil (keys d)
  rw [List.nil_append] at this
  exact this

theorem sortedKeys_erase (hO : StrictWeakOrder O.lt) (d : List (κ × ν)) (k : κ) :
    sortedKeys O (erase eqv d k) = (sortedKeys O d).filter fun x => !eqv x k := by
  have h := (sortedKeys_sort hO d).filter fun x => !eqv x k
  rw [← keys_erase] at h
  exact (Spec.sort_eq_insertAll_nil hO h).symm

theorem sortedKeys_distinct (hO : StrictWeakOrder O.lt) (he : IsEquiv eqv) {d : List (κ × ν)} (h : Keyed eqv d) :
    Distinct eqv (sortedKeys O d) :=
  Distinct.perm he (sortedKeys_sort hO d).perm.symm h

theorem sortedKeys_any (hO : StrictWeakOrder O.lt) (d : List (κ × ν)) (k : κ) :
    (sortedKeys O d).any (eqv · k) = has eqv d k := by
  rw [has_eq, any_perm (sortedKeys_sort hO d).perm]

theorem sortedKeys_set_new {d : List (κ × ν)} {k : κ} (h : has eqv d k = false) (v : ν) :
    sortedKeys O (PyDict.set eqv d k v) = Spec.insert O (sortedKeys O d) k := by
  unfold sortedKeys
  rw [keys_set, addNew, ← has_eq, h]
  simp [Spec.insertAll]

theorem sortedKeys_set_old {d : List (κ × ν)} {k : κ} (h : has eqv d k = true) (v : ν) :
    sortedKeys O (PyDict.set eqv d k v) = sortedKeys O d := by
  unfold sortedKeys
  rw [keys_set, addNew, ← has_eq, h]
  simp

theorem sortedKeys_mem (hO : StrictWeakOrder O.lt) (d : List (κ × ν)) {k : κ} : k ∈ sortedKeys O d ↔ k ∈ keys d :=
  (sortedKeys_sort hO d).perm.mem_iff

theorem sortedKeys_lookup (hO : StrictWeakOrder O.lt) (he : IsEquiv eqv) (d : List (κ × ν)) {k : κ}
    (hk : k ∈ sortedKeys O d) : ∃ v, lookup eqv d k = some v := by
  apply lookup_some
  rw [← sortedKeys_any hO]
  exact any_self he hk

theorem filterMap_eq_map {α β : Type} {f : α → Option β} {l : List α} (h : ∀ a ∈ l, ∃ b, f a = some b) :
    (l.filterMap f).map some = l.map f := by
  induction l with
  | nil => rfl
  | cons a l ih =>
    obtain ⟨b, hb⟩ := h a (by simp)
    rw [List.filterMap_cons, hb, List.map_cons, List.map_cons, hb, ih fun a ha => h a (List.mem_cons_of_mem _ ha)]

theorem sortedItems_map (hO : StrictWeakOrder O.lt) (he : IsEquiv eqv) (d : List (κ × ν)) :
    (sortedItems eqv O d).map some = (sortedKeys O d).map fun k => (lookup eqv d k).map fun v => (k, v) :=
  filterMap_eq_map fun k hk => by
    obtain ⟨v, hv⟩ := sortedKeys_lookup hO he d hk
    exact ⟨(k, v), by simp [hv]⟩

theorem sortedItems_length (hO : StrictWeakOrder O.lt) (he : IsEquiv eqv) (d : List (κ × ν)) :
    (sortedItems eqv O d).length = (sortedKeys O d).length := by
  have := congrArg List.length (sortedItems_map hO he d)
  simpa using this

theorem sortedItems_getElem? (hO : StrictWeakOrder O.lt) (he : IsEquiv eqv) (d : List (κ × ν)) (i : Nat) :
    (sortedItems eqv O d)[i]? = ((sortedKeys O d)[i]?).bind fun k => (lookup eqv d k).map fun v => (k, v) := by
  have := congrArg (·[i]?) (sortedItems_map hO he d)
  simp only [List.getElem?_map] at this
  cases h1 : (sortedKeys O d)[i]? with
  | none => rw [h1] at this; simpa using this
  | some k =>
    rw [h1] at this
    cases h2 : (sortedItems eqv O d)[i]? with
    | none => rw [h2] at this; cases this
    | some p =>
      rw [h2] at this
      simp only [Option.map_some, Option.some.injEq] at this
      rw [this]; rfl

theorem keys_sortedItems (hO : StrictWeakOrder O.lt) (he : IsEquiv eqv) (d : List (κ × ν)) :
    keys (sortedItems eqv O d) = sortedKeys O d := by
  apply List.ext_getElem?
  intro i
  unfold keys
  rw [List.getElem?_map, sortedItems_getElem? hO he]
  cases h : (sortedKeys O d)[i]? with
  | none => rfl
  | some k =>
    obtain ⟨v, hv⟩ := sortedKeys_lookup hO he d (List.mem_of_getElem? h)
    simp [hv]

theorem lookup_sortedItems (hO : StrictWeakOrder O.lt) (he : IsEquiv eqv) {d : List (κ × ν)} (h : Keyed eqv d) (k : κ) :
    lookup eqv (sortedItems eqv O d) k = lookup eqv d k := by
  have hk : Keyed eqv (sortedItems eqv O d) := by
    unfold Keyed; rw [keys_sortedItems hO he]; exact sortedKeys_distinct hO he h
  cases hl : lookup eqv d k with
  | none =>
    apply lookup_none
    rw [has_eq, keys_sortedItems hO he, sortedKeys_any hO, has_eq_lookup, hl]; rfl
  | some v =>
    obtain ⟨k', h1, h2⟩ := (lookup_of_keyed he h k v).1 hl
    refine (lookup_of_keyed he hk k v).2 ⟨k', h1, ?_⟩
    unfold sortedItems
    refine List.mem_filterMap.2 ⟨k', (sortedKeys_mem hO d).2 (List.mem_map.2 ⟨_, h2, rfl⟩), ?_⟩
    rw [lookup_mem he h h2]; rfl

theorem keyed_sortedItems (hO : StrictWeakOrder O.lt) (he : IsEquiv eqv) {d : List (κ × ν)} (h : Keyed eqv d) :
    Keyed eqv (sortedItems eqv O d) := by
  unfold Keyed; rw [keys_sortedItems hO he]; exact sortedKeys_distinct hO he h

theorem sortedItems_congr {d e : List (κ × ν)} (h1 : sortedKeys O d = sortedKeys O e)
    (h2 : ∀ k, lookup eqv d k = lookup eqv e k) : sortedItems eqv O d = sortedItems eqv O e := by
  unfold sortedItems; rw [h1]; simp only [h2]

theorem sortedKeys_idem (hO : StrictWeakOrder O.lt) (he : IsEquiv eqv) (d : List (κ × ν)) :
    sortedKeys O (sortedItems eqv O d) = sortedKeys O d := by
  conv => lhs; unfold sortedKeys
  rw [keys_sortedItems hO he]
  exact Spec.insertAll_nil_of_sorted hO (sortedKeys_sort hO d).sorted

/-- `sd.copy()` -/
theorem sortedItems_idem (hO : StrictWeakOrder O.lt) (he : IsEquiv eqv) {d : List (κ × ν)} (h : Keyed eqv d) :
    sortedItems eqv O (sortedItems eqv O d) = sortedItems eqv O d :=
  sortedItems_congr (sortedKeys_idem hO he d) (lookup_sortedItems hO he h)

theorem insertAll_append (l xs ys : List κ) : Spec.insertAll O l (xs ++ ys) = Spec.insertAll O (Spec.insertAll O l xs) ys := by
  simp [Spec.insertAll]

/-- `sd | other` -/
theorem sortedItems_or (hO : StrictWeakOrder O.lt) (he : IsEquiv eqv) {d : List (κ × ν)} (h : Keyed eqv d)
    (other : List (κ × ν)) :
    sortedItems eqv O (PyDict.update eqv (sortedItems eqv O d) other) = sortedItems eqv O (PyDict.update eqv d other) := by
  refine sortedItems_congr ?_ fun k => ?_
  · unfold sortedKeys
    rw [keys_update, keys_update, keys_sortedItems hO he, foldl_addNew_eq he, foldl_addNew_eq he (keys d),
      insertAll_append, insertAll_append]
    have e1 : Spec.insertAll O [] (sortedKeys O d) = Spec.insertAll O [] (keys d) :=
      Spec.insertAll_nil_of_sorted hO (sortedKeys_sort hO d).sorted
    rw [e1]
    congr 2
    funext y
    rw [any_perm (sortedKeys_sort hO d).perm]
  · rw [lookup_update he, lookup_update he, lookup_sortedItems hO he h]

/-- `other | sd` -/
theorem sortedItems_ror (hO : StrictWeakOrder O.lt) (he : IsEquiv eqv) {d : List (κ × ν)} (h : Keyed eqv d)
    (e : List (κ × ν)) :
    sortedItems eqv O (PyDict.update eqv e (sortedItems eqv O d)) = sortedItems eqv O (PyDict.update eqv e d) := by
  refine sortedItems_congr ?_ fun k => ?_
  · unfold sortedKeys
    rw [keys_update, keys_update, keys_sortedItems hO he, foldl_addNew_of_distinct (sortedKeys_distinct hO he h),
      foldl_addNew_of_distinct h, insertAll_append, insertAll_append]
    exact Spec.insertAll_of_sort hO (Spec.insertAll_sorted hO Spec.sorted_nil _) ((sortedKeys_sort hO d).filter _)
  · rw [lookup_update_keyed he _ h, lookup_update_keyed he _ (keyed_sortedItems hO he h), lookup_sortedItems hO he h]

end DictSpec
end Verif
