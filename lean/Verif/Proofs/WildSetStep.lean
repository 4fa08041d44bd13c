import Verif.Proofs.WildSet
import Verif.Proofs.SetHistory
/-!
# Every call on a SortedSet when nothing is known about comparisons
-/

namespace Verif
namespace SS
variable {τ σ α : Type} {S : SetOps τ α} {L : ListAPI σ α} {eqv : α → α → Bool} {it : σ → List α} {W : σ → Prop}
  {s s' : SS τ σ}

/-- What is known of a call `op` on `s` with the outcome `r`. -/
structure Behaves (S : SetOps τ α) (eqv : α → α → Bool) (it : σ → List α) (W : σ → Prop) (op : SSOp α) (s : SS τ σ)
    (r : Except PyErr (Out α) × SS τ σ) : Prop where
  keeps : (op.compares = true → (∃ o, r.1 = .ok o) ∨ r.2 = s) → InStep S it W r.2
  after : (op.compares = true → ∃ o, r.1 = .ok o) → ∀ v, (it r.2.list).any (eqv · v) = SetSpec.after eqv op (it s.list) v
  order : op.compares = false → it r.2.list = SetSpec.remaining op (it s.list)
  answer : ∀ a, SetSpec.answer eqv op (it s.list) = some a → r.1 = a ∨ (op.compares = true ∧ ∃ e, r.1 = .error e)
  refuse : ∀ e, SetSpec.answer eqv op (it s.list) = some (.error e) → r.1 = .error e

theorem out_eq {σ' β : Type} (f : β → Out α) {m : Py σ' β} {s s' : σ'} {r : Except PyErr β} (h : m s = (r, s')) :
    Spec.out f m s = (r.map f, s') := by
  simp only [Spec.out, h]
  cases r <;> rfl

theorem out_fst {σ' β : Type} (f : β → Out α) (m : Py σ' β) (s : σ') : (Spec.out f m s).1 = (m s).1.map f := by
  rcases e : m s with ⟨r, s'⟩
  rw [out_eq f e]

theorem behaves_compares {op : SSOp α} {m : Py (SS τ σ) Unit} (hs : InStep S it W s) (hc : op.compares = true)
    (ha : SetSpec.answer eqv op (it s.list) = some (.ok .none))
    (hm : ∀ s', m s = (.ok (), s') → InStep S it W s' ∧
      ∀ v, (it s'.list).any (eqv · v) = SetSpec.after eqv op (it s.list) v) :
    Behaves S eqv it W op s (Spec.out (fun _ => .none) m s) := by
  rcases e : m s with ⟨x | u, s'⟩
  · rw [out_eq _ e]
    refine ⟨fun h => ?_, fun h => ?_, fun h => (by rw [hc] at h; cases h), fun a _ => .inr ⟨hc, x, rfl⟩, fun e' h => ?_⟩
    · rcases h hc with ⟨o, ho⟩ | h
      · cases ho
      · dsimp only at h ⊢; rw [h]; exact hs
    · obtain ⟨o, ho⟩ := h hc; cases ho
    · rw [ha] at h; cases h
  · rw [out_eq _ e]
    obtain ⟨h1, h2⟩ := hm s' e
    refine ⟨fun _ => h1, fun _ => h2, fun h => (by rw [hc] at h; cases h), fun a h => ?_, fun e' h => ?_⟩
    · rw [ha] at h; cases h; exact .inl rfl
    · rw [ha] at h; cases h

theorem behaves_sure {β : Type} {op : SSOp α} {m : Py (SS τ σ) β} {f : β → Out α} {r : Except PyErr β}
    (e : m s = (r, s')) (h : InStep S it W s')
    (ha : ∀ v, (it s'.list).any (eqv · v) = SetSpec.after eqv op (it s.list) v)
    (hx : op.compares = false → it s'.list = SetSpec.remaining op (it s.list))
    (hr : ∀ a, SetSpec.answer eqv op (it s.list) = some a → r.map f = a) :
    Behaves S eqv it W op s (Spec.out f m s) := by
  rw [out_eq _ e]
  exact ⟨fun _ => h, fun _ => ha, hx, fun a h => .inl (hr a h), fun e' h => hr _ h⟩

theorem any_filter_not (he : IsEquiv eqv) (l : List α) (x v : α) :
    (l.filter fun y => !eqv y x).any (eqv · v) = (l.any (eqv · v) && !eqv x v) := by
  rw [Bool.eq_iff_iff, List.any_eq_true, Bool.and_eq_true, List.any_eq_true, Bool.not_eq_true']
  constructor
  · rintro ⟨y, hy, hyv⟩
    rw [List.mem_filter] at hy
    refine ⟨⟨y, hy.1, hyv⟩, ?_⟩
    have := hy.2
    rw [Bool.not_eq_true', he.symm, he.congr hyv x] at this
    exact this
  · rintro ⟨⟨y, hy, hyv⟩, hx⟩
    refine ⟨y, List.mem_filter.2 ⟨hy, ?_⟩, hyv⟩
    rw [Bool.not_eq_true', he.symm, he.congr hyv x]
    exact hx

theorem any_filter_all (he : IsEquiv eqv) (l xs : List α) (v : α) :
    (l.filter fun y => !xs.any (eqv · y)).any (eqv · v) = (l.any (eqv · v) && !xs.any (eqv · v)) := by
  rw [Bool.eq_iff_iff, List.any_eq_true, Bool.and_eq_true, List.any_eq_true, Bool.not_eq_true']
  constructor
  · rintro ⟨y, hy, hyv⟩
    rw [List.mem_filter] at hy
    refine ⟨⟨y, hy.1, hyv⟩, ?_⟩
    rw [← any_congr_eqv he hyv]
    simpa using hy.2
  · rintro ⟨⟨y, hy, hyv⟩, hx⟩
    refine ⟨y, List.mem_filter.2 ⟨hy, ?_⟩, hyv⟩
    rw [any_congr_eqv he hyv, hx]; rfl

theorem any_flatten' (xss : List (List α)) (p : α → Bool) : xss.flatten.any p = xss.any fun xs => xs.any p := by
  induction xss with
  | nil => rfl
  | cons xs xss ih => rw [List.flatten_cons, List.any_append, List.any_cons, ih]

theorem sub_iff {l r : List α} : SetSpec.sub eqv l r = true ↔ Subset eqv l r := by
  simp only [SetSpec.sub, List.all_eq_true]; rfl

theorem wild_subset_ofList (hS : S.Lawful eqv) (t : τ) (l xs : List α) (hp : (S.toList t).Perm l) :
    (Subset eqv (S.toList t) (S.toList (S.ofList xs)) ↔ SetSpec.sub eqv l xs = true) ∧
    (Subset eqv (S.toList (S.ofList xs)) (S.toList t) ↔ SetSpec.sub eqv xs l = true) := by
  have he := lawful_equiv hS
  constructor
  · rw [sub_iff]
    exact ⟨fun h x hx => by rw [← wild_any_ofList hS]; exact h x (hp.mem_iff.2 hx),
      fun h x hx => by rw [wild_any_ofList hS]; exact h x (hp.mem_iff.1 hx)⟩
  · rw [sub_iff]
    constructor
    · intro h x hx
      have : (S.toList (S.ofList xs)).any (eqv · x) = true := by rw [wild_any_ofList hS]; exact any_self he hx
      obtain ⟨y, hy, hyx⟩ := List.any_eq_true.1 this
      rw [← any_perm hp, ← any_congr_eqv he hyx]
      exact h y hy
    · intro h x hx
      have : xs.any (eqv · x) = true := by rw [← wild_any_ofList hS]; exact any_self he hx
      obtain ⟨y, hy, hyx⟩ := List.any_eq_true.1 this
      rw [any_perm hp, ← any_congr_eqv he hyx]
      exact h y hy

section
variable (hS : S.Lawful eqv) (hL : L.Robust eqv it W)
include hS hL

theorem wild_step (hs : InStep S it W s) (op : SSOp α) (hv : op.Valid) : Behaves S eqv it W op s (step S L op s) := by
  have he := lawful_equiv hS
  have addNew_any : ∀ (l : List α) (x v : α), (addNew eqv l x).any (eqv · v) = (l.any (eqv · v) || eqv x v) := by
    intro l x v
    have := any_foldl_addNew he l [x] v
    simpa using this
  -- queries of the list that are those of a plain list
  have q : ∀ {β : Type} {op : SSOp α} {m : Py σ β} {f : Py (List α) β} {g : β → Out α}, Refines W it m f → (∀ l, (f l).2 = l) →
      (∀ l v, SetSpec.after eqv op l v = l.any (eqv · v)) → (∀ l, SetSpec.remaining op l = l) →
      (∀ a, SetSpec.answer eqv op (it s.list) = some a → (f (it s.list)).1.map g = a) →
      Behaves S eqv it W op s (Spec.out g (onList m) s) := by
    intro β op m f g hm hf h1 hx h2
    obtain ⟨s', e, h3, _, h5⟩ := wild_query hm hs hf
    exact behaves_sure e h5 (fun v => by rw [h1, h3]) (fun _ => by rw [hx, h3]) h2
  -- queries of which nothing is known
  have w : ∀ {β : Type} {op : SSOp α} {m : Py σ β} {g : β → Out α}, (W (m s.list).2 ∧ it (m s.list).2 = it s.list) →
      (∀ l v, SetSpec.after eqv op l v = l.any (eqv · v)) → (∀ l, SetSpec.remaining op l = l) → SetSpec.answer eqv op (it s.list) = none →
      Behaves S eqv it W op s (Spec.out g (onList m) s) := by
    intro β op m g hm h1 hx h2
    exact behaves_sure rfl ⟨hm.1, by show (S.toList s.set).Perm (it (m s.list).2); rw [hm.2]; exact hs.perm⟩
      (fun v => by rw [h1]; show (it (m s.list).2).any _ = _; rw [hm.2]) (fun _ => by rw [hx]; exact hm.2) (fun a h => by rw [h2] at h; cases h)
  -- calls that only read
  have r : ∀ {β : Type} {op : SSOp α} {m : SS τ σ → β} {g : β → Out α},
      (∀ l v, SetSpec.after eqv op l v = l.any (eqv · v)) → (∀ l, SetSpec.remaining op l = l) →
      (∀ a, SetSpec.answer eqv op (it s.list) = some a → .ok (g (m s)) = a) →
      Behaves S eqv it W op s (Spec.out g (read m) s) := by
    intro β op m g h1 hx h2
    exact behaves_sure rfl hs (fun v => by rw [h1]) (fun _ => (hx _).symm) h2
  -- calls that make a new set
  have vo : ∀ {op : SSOp α} (f : SS τ σ → Except PyErr (SS τ σ)),
      (∀ l v, SetSpec.after eqv op l v = l.any (eqv · v)) → (∀ l, SetSpec.remaining op l = l) → SetSpec.answer eqv op (it s.list) = none →
      Behaves S eqv it W op s (Spec.out .vals (valuesOf L f) s) := by
    intro op f h1 hx h2
    have : valuesOf L f s = ((valuesOf L f s).1, s) := by simp only [valuesOf]; split <;> rfl
    exact behaves_sure this hs (fun v => by rw [h1]) (fun _ => (hx _).symm) (fun a h => by rw [h2] at h; cases h)
  cases op with
  | add v =>
    refine behaves_compares hs rfl rfl fun s' e => ?_
    obtain ⟨h1, h2⟩ := wild_add hS hL hs v e
    exact ⟨h1, fun x => by rw [any_perm h2, addNew_any]; rfl⟩
  | discard v =>
    refine behaves_compares hs rfl rfl fun s' e => ?_
    obtain ⟨h1, h2⟩ := wild_discard hS hL hs v e
    exact ⟨h1, fun x => by rw [h2, any_filter_not he]; rfl⟩
  | remove v =>
    cases hm : (it s.list).any (eqv · v) with
    | true =>
      refine behaves_compares hs rfl (by simp only [SetSpec.answer, hm, if_true]) fun s' e => ?_
      obtain ⟨h1, h2⟩ := wild_remove hS hL hs v e
      exact ⟨h1, fun x => by rw [h2, any_filter_not he]; rfl⟩
    | false =>
      refine behaves_sure (wild_remove_absent hS hs hm) hs (fun x => ?_) nofun (fun a h => ?_)
      · show _ = ((it s.list).any (eqv · x) && !eqv v x)
        cases hx : eqv v x
        · simp
        · rw [← any_congr_eqv he hx, hm]; rfl
      · simp only [SetSpec.answer, hm, Bool.false_eq_true, if_false] at h
        cases h; rfl
  | pop i =>
    obtain ⟨s', e, h1, h2⟩ := wild_pop hS hL hs i
    have : (Spec.pop i (it s.list)).2 = (Spec.delInt i (it s.list)).2 := by
      simp only [Spec.pop, Spec.delInt]
      cases hp : Spec.position (it s.list).length i with
      | none => rfl
      | some p =>
        dsimp only
        split
        · rfl
        · rename_i hn
          dsimp only
          rw [List.eraseIdx_of_length_le (List.getElem?_eq_none_iff.1 hn)]
    refine behaves_sure e h1 (fun v => ?_) (fun _ => by rw [h2, this]; rfl) (fun a h => ?_)
    · rw [h2]
      show _ = (Spec.delInt i (it s.list)).2.any _
      rw [this]
    · cases h
      rw [out_fst]
  | delInt i =>
    obtain ⟨s', e, h1, h2⟩ := wild_delInt hS hL hs i
    refine behaves_sure e h1 (fun v => by rw [h2]; rfl) (fun _ => h2) (fun a h => ?_)
    cases h
    rw [out_fst]
  | delSlice sl =>
    rcases hd : Spec.delSlice sl (it s.list) with ⟨x | u, l⟩
    · have h1 := wild_delSlice_error hL hs (sl := sl) (x := x) (by rw [hd])
      rcases e : delSlice S L sl s with ⟨r, s'⟩
      rw [e] at h1
      dsimp only at h1
      subst h1
      have ha : ∀ a, SetSpec.answer eqv (.delSlice sl) (it s.list) = some a → a = .error x := by
        intro a h
        simp only [SetSpec.answer, out_eq _ hd] at h
        cases h; rfl
      show Behaves S eqv it W _ s (Spec.out _ (delSlice S L sl) s)
      rw [out_eq _ e]
      refine ⟨fun h => ?_, fun h => ?_, nofun, fun a h => .inl (ha a h).symm, fun e' h => (ha _ h).symm⟩
      · rcases h rfl with ⟨o, ho⟩ | h
        · cases ho
        · dsimp only at h ⊢; rw [h]; exact hs
      · obtain ⟨o, ho⟩ := h rfl; cases ho
    · refine behaves_compares hs rfl (by simp only [SetSpec.answer, out_eq _ hd]; rfl) fun s' e => ?_
      obtain ⟨h1, _, h2⟩ := wild_delSlice hS hL hs sl e
      exact ⟨h1, fun v => by rw [any_perm h2]; rfl⟩
  | clear =>
    obtain ⟨s', e, h1, h2⟩ := wild_clear hS hL hs
    exact behaves_sure e h1 (fun v => by rw [h2]; rfl) (fun _ => h2) (fun a h => by cases h; rfl)
  | update xss =>
    refine behaves_compares hs rfl rfl fun s' e => ?_
    obtain ⟨h1, h2⟩ := wild_update hS hL xss hs e
    exact ⟨h1, fun x => by rw [any_perm h2, any_foldl_addNew he, any_flatten']; rfl⟩
  | differenceUpdate xss =>
    refine behaves_compares hs rfl rfl fun s' e => ?_
    obtain ⟨h1, h2⟩ := wild_differenceUpdate hS hL xss hs e
    exact ⟨h1, fun x => by rw [any_perm h2, any_filter_all he, any_flatten']; rfl⟩
  | intersectionUpdate xss =>
    refine behaves_compares hs rfl rfl fun s' e => ?_
    obtain ⟨h1, h2⟩ := wild_intersectionUpdate hS hL xss hs e
    exact ⟨h1, fun x => by rw [h2]; rfl⟩
  | symmetricDifferenceUpdate xs =>
    refine behaves_compares hs rfl rfl fun s' e => ?_
    obtain ⟨h1, h2⟩ := wild_symmetricDifferenceUpdate hS hL xs hs e
    exact ⟨h1, fun x => by rw [h2]; rfl⟩
  | getInt i =>
    exact q (hL.getInt i) (fun l => by simp only [Spec.getInt]; split <;> rfl) (fun _ _ => rfl) (fun _ => rfl)
      (fun a h => by cases h; rw [out_fst])
  | getSlice sl =>
    exact q (hL.getSlice sl) (fun l => by simp only [Spec.getSlice]; split <;> rfl) (fun _ _ => rfl) (fun _ => rfl)
      (fun a h => by cases h; rw [out_fst])
  | islice a b r =>
    exact q (hL.islice a b r) (fun l => by simp only [Spec.islice]; split <;> rfl) (fun _ _ => rfl) (fun _ => rfl)
      (fun _ h => by cases h; rw [out_fst])
  | bisectLeft v => exact w (hL.bisectLeft v hs.list) (fun _ _ => rfl) (fun _ => rfl) rfl
  | bisectRight v => exact w (hL.bisectRight v hs.list) (fun _ _ => rfl) (fun _ => rfl) rfl
  | index v a b => exact w (hL.index v a b hs.list) (fun _ _ => rfl) (fun _ => rfl) rfl
  | irange lo hi a b r => exact w (hL.irange lo hi a b r hs.list) (fun _ _ => rfl) (fun _ => rfl) rfl
  | reset load =>
    refine behaves_compares hs rfl rfl fun s' e => ?_
    obtain ⟨h1, h2⟩ := wild_reset hL hv hs e
    exact ⟨h1, fun v => any_perm h2⟩
  | contains v => exact r (op := .contains v) (fun _ _ => rfl) (fun _ => rfl) (fun a h => by cases h; rw [contains, hs.mem hS])
  | len => exact r (op := .len) (m := length S) (g := fun (n : Nat) => .int n) (fun _ _ => rfl) (fun _ => rfl) (fun a h => by cases h; rw [show length S s = _ from hs.len hS])
  | iter => exact r (op := .iter) (fun _ _ => rfl) (fun _ => rfl) (fun a h => by cases h; rw [iter, hL.iter])
  | reversed => exact r (op := .reversed) (fun _ _ => rfl) (fun _ => rfl) (fun a h => by cases h; rw [reversed, hL.reversed _ hs.list])
  | count v =>
    refine r (op := .count v) (m := count S v) (g := fun (n : Nat) => .int n) (fun _ _ => rfl) (fun _ => rfl) (fun a h => ?_)
    cases h
    rw [count, hs.mem hS]
    cases (it s.list).any (eqv · v) <;> rfl
  | isdisjoint xs =>
    refine r (op := .isdisjoint xs) (fun _ _ => rfl) (fun _ => rfl) (fun a h => ?_)
    cases h
    simp only [isdisjoint, hs.mem hS, List.not_any_eq_all_not]
  | issubset xs =>
    refine r (op := .issubset xs) (fun _ _ => rfl) (fun _ => rfl) (fun a h => ?_)
    cases h
    have : issubset S xs s = SetSpec.sub eqv (it s.list) xs := by
      rw [Bool.eq_iff_iff]
      exact (setCompare_ok hS .le s.set (S.ofList xs)).trans (wild_subset_ofList hS s.set _ xs hs.perm).1
    rw [this]
  | issuperset xs =>
    refine r (op := .issuperset xs) (fun _ _ => rfl) (fun _ => rfl) (fun a h => ?_)
    cases h
    simp only [issuperset, hs.mem hS, SetSpec.sub]
  | compare op xs =>
    refine r (op := .compare op xs) (fun _ _ => rfl) (fun _ => rfl) (fun a h => ?_)
    cases h
    congr 2
    rw [Bool.eq_iff_iff]
    refine (setCompare_ok hS op s.set (S.ofList xs)).trans ?_
    obtain ⟨e1, e2⟩ := wild_subset_ofList hS s.set _ xs hs.perm
    cases op <;> simp only [e1, e2] <;>
      cases SetSpec.sub eqv (it s.list) xs <;> cases SetSpec.sub eqv xs (it s.list) <;> simp
  | copy => exact vo _ (fun _ _ => rfl) (fun _ => rfl) rfl
  | union xss => exact vo _ (fun _ _ => rfl) (fun _ => rfl) rfl
  | intersection xss => exact vo _ (fun _ _ => rfl) (fun _ => rfl) rfl
  | difference xss => exact vo _ (fun _ _ => rfl) (fun _ => rfl) rfl
  | symmetricDifference xs => exact vo _ (fun _ _ => rfl) (fun _ => rfl) rfl

/-- The calls that make a new set. -/
theorem wild_result (hs : InStep S it W s) (op : SSOp α) {xs : List α} (e : (step S L op s).1 = .ok (.vals xs)) (v : α) {b : Bool}
    (hb : SetSpec.result eqv op (it s.list) v = some b) : Distinct eqv xs ∧ xs.any (eqv · v) = b := by
  have he := lawful_equiv hS
  have key : ∀ (f : SS τ σ → Except PyErr (SS τ σ)), (Spec.out .vals (valuesOf L f) s).1 = .ok (.vals xs) →
      (∀ t, f s = .ok t → InStep S it W t ∧ (it t.list).any (eqv · v) = b) → Distinct eqv xs ∧ xs.any (eqv · v) = b := by
    intro f e h
    rcases ef : f s with x | t
    · simp only [Spec.out, valuesOf, ef] at e; cases e
    · simp only [Spec.out, valuesOf, ef] at e
      cases e
      obtain ⟨h1, h2⟩ := h t ef
      rw [iter, hL.iter]
      exact ⟨h1.distinct hS, h2⟩
  cases op with
  | copy =>
    refine key _ e fun t et => ?_
    cases hb
    obtain ⟨h1, h2⟩ := wild_fromset hL et
    refine ⟨h1, ?_⟩
    rw [← any_perm h1.perm, h2, any_perm (hS.copy _), any_perm hs.perm]
  | union xss =>
    refine key _ e fun t et => ?_
    cases hb
    obtain ⟨h1, h2⟩ := wild_union hS hL xss hs et
    exact ⟨h1, by rw [any_perm h2, any_foldl_addNew he, any_flatten']⟩
  | intersection xss =>
    refine key _ e fun t et => ?_
    cases hb
    obtain ⟨h1, h2⟩ := wild_fromset hL et
    refine ⟨h1, ?_⟩
    rw [← any_perm h1.perm, h2, hS.intersection, any_perm hs.perm]
  | difference xss =>
    refine key _ e fun t et => ?_
    cases hb
    obtain ⟨h1, h2⟩ := wild_fromset hL et
    refine ⟨h1, ?_⟩
    rw [← any_perm h1.perm, h2, any_perm (hS.difference _ _)]
    simp only [← any_flatten']
    rw [any_filter_all he, any_perm hs.perm]
  | symmetricDifference xs =>
    refine key _ e fun t et => ?_
    cases hb
    obtain ⟨h1, h2⟩ := wild_fromset hL et
    refine ⟨h1, ?_⟩
    rw [← any_perm h1.perm, h2, hS.symmetricDifference, any_perm hs.perm]
  | _ => cases hb

end

theorem Wild.inStep {c : ListClass α} (hS : S.Lawful eqv) {s : SS τ c.State} (h : SS.Wild S eqv c s) : InStep S c.values c.W s := by
  induction h with
  | new hL e => exact (wild_new hS hL.robust e).1
  | fromset hL e => exact (wild_fromset hL.robust e).1
  | step op hL hv _ hc ih => exact (wild_step hS hL.robust ih op hv).keeps hc
  | keyCall hL hm _ ih =>
    rename_i L s m _
    obtain ⟨h1, h2⟩ := hL.robust.keyCall hm ih.list
    exact ⟨h1, by show (S.toList s.set).Perm (c.values (m s.list).2); rw [h2]; exact ih.perm⟩
  | cleared hL hs =>
    rename_i L s
    obtain ⟨l', e, h1, h2⟩ := hL.any.clear hs.load_pos
    have : SS.clear S L s = (.ok (), { set := S.empty, list := l' }) := by
      simp only [SS.clear, SS.onSet, Py.modify_bind, SS.onList, e]
    rw [this]
    exact ⟨h1, by show (S.toList S.empty).Perm (c.values l'); rw [h2, hS.empty]⟩

end SS
end Verif
