import Verif.Proofs.SortedSet
import Verif.SetSpec
/-!
# SortedSet refines the plain sorted list without repetitions

Comparisons of sets; and, for values that are equal only if identical in an order that tells them apart, the answers of
every call.
-/

namespace Verif
namespace SS
variable {τ σ α : Type} {S : SetOps τ α} {L : ListAPI σ α} {O : Spec.Order α} {eqv : α → α → Bool} {I : σ → Prop}

theorem Inv.sorted' {s : SS τ σ} (h : Good S L O eqv I) (hs : Inv S L I s) : Sorted O.lt (iter L s) := Inv.sorted h hs

theorem Inv.distinct' {s : SS τ σ} (h : Good S L O eqv I) (hs : Inv S L I s) : Distinct eqv (iter L s) :=
  Inv.distinct h hs

/-! ### Comparisons of built-in sets -/

/-- Every value of `l` has an equal one in `r`. -/
def Subset (eqv : α → α → Bool) (l r : List α) : Prop := ∀ x ∈ l, r.any (eqv · x) = true

theorem setCompare_ok (h : S.Lawful eqv) (op : CmpOp) (a b : τ) :
    setCompare S op a b = true ↔
      match op with
      | .eq => Subset eqv (S.toList a) (S.toList b) ∧ Subset eqv (S.toList b) (S.toList a)
      | .ne => ¬ (Subset eqv (S.toList a) (S.toList b) ∧ Subset eqv (S.toList b) (S.toList a))
      | .le => Subset eqv (S.toList a) (S.toList b)
      | .ge => Subset eqv (S.toList b) (S.toList a)
      | .lt => Subset eqv (S.toList a) (S.toList b) ∧ ¬ Subset eqv (S.toList b) (S.toList a)
      | .gt => Subset eqv (S.toList b) (S.toList a) ∧ ¬ Subset eqv (S.toList a) (S.toList b) := by
  have he : IsEquiv eqv := ⟨h.refl, h.symm, h.trans⟩
  have hall : ∀ a b : τ, ((S.toList a).all fun v => S.mem v b) = true ↔ Subset eqv (S.toList a) (S.toList b) := by
    intro a b
    simp only [List.all_eq_true, h.mem]; rfl
  have hle : ∀ a b : τ, Subset eqv (S.toList a) (S.toList b) → S.len a ≤ S.len b := by
    intro a b hs
    rw [h.len, h.len]
    exact Distinct.length_le he (h.distinct a) (h.distinct b) hs
  have hsup : ∀ a b : τ, Subset eqv (S.toList a) (S.toList b) → S.len b ≤ S.len a →
      Subset eqv (S.toList b) (S.toList a) := by
    intro a b hs hl
    rw [h.len, h.len] at hl
    exact Distinct.superset_of_length he (h.distinct a) (h.distinct b) hs hl
  have heq : (S.len a == S.len b && (S.toList a).all fun v => S.mem v b) = true ↔
      Subset eqv (S.toList a) (S.toList b) ∧ Subset eqv (S.toList b) (S.toList a) := by
    rw [Bool.and_eq_true, hall, beq_iff_eq]
    constructor
    · rintro ⟨h1, h2⟩; exact ⟨h2, hsup a b h2 (by omega)⟩
    · rintro ⟨h1, h2⟩; exact ⟨Nat.le_antisymm (hle a b h1) (hle b a h2), h1⟩
  have hsub : ∀ a b : τ, (decide (S.len a ≤ S.len b) && (S.toList a).all fun v => S.mem v b) = true ↔
      Subset eqv (S.toList a) (S.toList b) := by
    intro a b
    rw [Bool.and_eq_true, hall, decide_eq_true_iff]
    exact ⟨fun h => h.2, fun h => ⟨hle a b h, h⟩⟩
  have hlt : ∀ a b : τ, (decide (S.len a < S.len b) && (decide (S.len a ≤ S.len b) && (S.toList a).all fun v => S.mem v b)) = true ↔
      Subset eqv (S.toList a) (S.toList b) ∧ ¬ Subset eqv (S.toList b) (S.toList a) := by
    intro a b
    rw [Bool.and_eq_true, hsub, decide_eq_true_iff]
    constructor
    · rintro ⟨h1, h2⟩; exact ⟨h2, fun h3 => by have := hle b a h3; omega⟩
    · rintro ⟨h1, h2⟩
      refine ⟨?_, h1⟩
      rcases Nat.lt_or_ge (S.len a) (S.len b) with h | h
      · exact h
      · exact absurd (hsup a b h1 h) h2
  cases op with
  | eq => exact heq
  | ne =>
    show (!(S.len a == S.len b && (S.toList a).all fun v => S.mem v b)) = true ↔ _
    rw [Bool.not_eq_true', ← Bool.not_eq_true, heq]
  | le => exact hsub a b
  | ge => exact hsub b a
  | lt => exact hlt a b
  | gt => exact hlt b a

theorem Subset.perm {l l' r r' : List α} (hl : l.Perm l') (hr : r.Perm r') :
    Subset eqv l r ↔ Subset eqv l' r' := by
  simp only [Subset, hl.mem_iff, any_perm hr]

theorem Subset.ofList (h : Good S L O eqv I) (l : List α) (xs : List α) :
    (Subset eqv l (S.toList (S.ofList xs)) ↔ Subset eqv l xs) ∧
    (Subset eqv (S.toList (S.ofList xs)) l ↔ Subset eqv xs l) := by
  constructor
  · simp only [Subset, any_ofList h]
  · constructor
    · intro hs x hx
      have := (any_ofList h xs x).trans (any_self h.equiv hx)
      obtain ⟨y, hy, hyx⟩ := List.any_eq_true.1 this
      rw [← any_congr_eqv h.equiv hyx]
      exact hs y hy
    · intro hs x hx
      have := (any_ofList h xs x).symm.trans (any_self h.equiv hx)
      obtain ⟨y, hy, hyx⟩ := List.any_eq_true.1 this
      rw [← any_congr_eqv h.equiv hyx]
      exact hs y hy

/-! ### Values equal only if identical -/

section Deterministic
variable [DecidableEq α] {s : SS τ σ}

/-- Values are equal only if identical, and the order tells different values apart. -/
structure Total (O : Spec.Order α) (eqv : α → α → Bool) : Prop where
  eq : ∀ a b, eqv a b = decide (a = b)
  order : ∀ a b, equiv O.lt a b = true → a = b

theorem Total.any (ht : Total O eqv) (l : List α) (x : α) : l.any (eqv · x) = decide (x ∈ l) := by
  rw [Bool.eq_iff_iff, List.any_eq_true, decide_eq_true_iff]
  simp only [ht.eq, decide_eq_true_iff]
  exact ⟨fun ⟨y, hy, e⟩ => e ▸ hy, fun h => ⟨x, h, rfl⟩⟩

theorem Total.nodup (ht : Total O eqv) {l : List α} (h : Distinct eqv l) : l.Nodup := by
  refine List.Pairwise.imp (fun {a b} hab => ?_) h
  rw [ht.eq, decide_eq_false_iff_not] at hab
  exact hab

/-- A sorted list without repetitions is determined by its members. -/
theorem Total.unique (ht : Total O eqv) {l l' : List α} (hl : Sorted O.lt l) (hl' : Sorted O.lt l')
    (hn : l.Nodup) (hn' : l'.Nodup) (hm : ∀ x, x ∈ l ↔ x ∈ l') : l = l' := by
  refine List.Perm.eq_of_pairwise (le := fun a b => O.lt b a = false) (fun a b _ _ h1 h2 => ht.order a b ?_) hl hl'
    ((List.perm_ext_iff_of_nodup hn hn').2 hm)
  simp [Verif.equiv, h1, h2]

theorem insertAll_facts (hO : StrictWeakOrder O.lt) {l : List α} (hl : Sorted O.lt l) (hn : l.Nodup) (xs : List α) :
    Sorted O.lt (SetSpec.insertAll O l xs) ∧ (SetSpec.insertAll O l xs).Nodup ∧
    ∀ x, x ∈ SetSpec.insertAll O l xs ↔ x ∈ l ∨ x ∈ xs := by
  unfold SetSpec.insertAll
  induction xs generalizing l with
  | nil => exact ⟨hl, hn, by simp⟩
  | cons v xs ih =>
    rw [List.foldl_cons]
    by_cases hv : v ∈ l
    · rw [SetSpec.insertNew, if_pos hv]
      obtain ⟨h1, h2, h3⟩ := ih hl hn
      refine ⟨h1, h2, fun x => ?_⟩
      rw [h3, List.mem_cons]
      constructor
      · rintro (h | h)
        · exact .inl h
        · exact .inr (.inr h)
      · rintro (h | rfl | h)
        · exact .inl h
        · exact .inl hv
        · exact .inr h
    · rw [SetSpec.insertNew, if_neg hv]
      have hp := Spec.insert_perm (O := O) l v
      obtain ⟨h1, h2, h3⟩ := ih (Spec.insert_sorted hO hl v)
        (hp.symm.nodup (List.nodup_append.2 ⟨hn, by simp, by simp; exact fun a ha e => hv (e ▸ ha)⟩))
      refine ⟨h1, h2, fun x => ?_⟩
      rw [h3, hp.mem_iff]
      simp [or_assoc]

theorem erase_eq_filter (ht : Total O eqv) {l : List α} (hl : l.Nodup) (v : α) :
    l.erase v = l.filter fun y => !eqv y v := by
  rw [List.Nodup.erase_eq_filter hl]
  refine List.filter_congr fun y _ => ?_
  rw [ht.eq, bne]; rfl

variable (h : Good S L O eqv I) (ht : Total O eqv)
include h ht

theorem Inv.unique (hs : Inv S L I s) {l : List α} (hl : Sorted O.lt l) (hn : l.Nodup)
    (hm : ∀ x, (iter L s).any (eqv · x) = decide (x ∈ l)) : iter L s = l := by
  refine ht.unique (Inv.sorted' h hs) hl (ht.nodup (Inv.distinct' h hs)) hn fun x => ?_
  have := hm x
  rw [ht.any] at this
  simpa using this

theorem union_unique {s' : SS τ σ} (hs : Inv S L I s) (h' : Inv S L I s') (xss : List (List α))
    (hp : (iter L s').Perm (xss.flatten.foldl (addNew eqv) (iter L s))) :
    iter L s' = SetSpec.union O xss (iter L s) := by
  obtain ⟨f1, f2, f3⟩ := insertAll_facts h.list.order (Inv.sorted' h hs) (ht.nodup (Inv.distinct' h hs)) xss.flatten
  refine Inv.unique h ht h' f1 f2 fun x => ?_
  rw [any_perm hp, any_foldl_addNew h.equiv, ht.any, ht.any, Bool.eq_iff_iff, decide_eq_true_iff]
  refine Iff.trans ?_ (f3 x).symm
  simp

theorem difference_unique {s' : SS τ σ} (hs : Inv S L I s) (h' : Inv S L I s') (xss : List (List α))
    (hp : (iter L s').Perm ((iter L s).filter fun y => !xss.flatten.any (eqv · y))) :
    iter L s' = SetSpec.difference xss (iter L s) := by
  refine Inv.unique h ht h' ((Inv.sorted' h hs).sublist List.filter_sublist)
    ((ht.nodup (Inv.distinct' h hs)).sublist List.filter_sublist) fun x => ?_
  rw [any_perm hp, ht.any]
  simp only [ht.any, SetSpec.difference]
  congr 3
  funext y
  exact decide_not.symm

theorem intersection_unique {s' : SS τ σ} (hs : Inv S L I s) (h' : Inv S L I s') (xss : List (List α))
    (hm : ∀ x, (iter L s').any (eqv · x) = ((iter L s).any (eqv · x) && xss.all fun xs => xs.any (eqv · x))) :
    iter L s' = SetSpec.intersection xss (iter L s) := by
  refine Inv.unique h ht h' ((Inv.sorted' h hs).sublist List.filter_sublist)
    ((ht.nodup (Inv.distinct' h hs)).sublist List.filter_sublist) fun x => ?_
  rw [hm]
  simp only [ht.any]
  rw [Bool.eq_iff_iff, decide_eq_true_iff, SetSpec.intersection, List.mem_filter]
  simp

theorem symmetricDifference_unique {s' : SS τ σ} (hs : Inv S L I s) (h' : Inv S L I s') (xs : List α)
    (hm : ∀ x, (iter L s').any (eqv · x) = ((iter L s).any (eqv · x) != xs.any (eqv · x))) :
    iter L s' = SetSpec.symmetricDifference O xs (iter L s) := by
  obtain ⟨f1, f2, f3⟩ := insertAll_facts h.list.order
    ((Inv.sorted' h hs).sublist (List.filter_sublist (p := fun x => decide (x ∉ xs))))
    ((ht.nodup (Inv.distinct' h hs)).sublist List.filter_sublist) (xs.filter fun x => decide (x ∉ iter L s))
  refine Inv.unique h ht h' f1 f2 fun x => ?_
  rw [hm, Bool.eq_iff_iff, decide_eq_true_iff]
  refine Iff.trans ?_ (f3 x).symm
  simp only [ht.any]
  by_cases h1 : x ∈ iter L s <;> by_cases h2 : x ∈ xs <;> simp [h1, h2]

/-- One call. -/
theorem step_refines (op : SSOp α) (hv : op.Valid) :
    Refines (Inv S L I) (iter L) (step S L op) (SetSpec.step O op) := by
  have q : ∀ {β : Type} {m : Py σ β} {f : Py (List α) β}, Refines I L.iter m f → (∀ l, (f l).2 = l) →
      Refines (Inv S L I) (iter L) (onList m) f := by
    intro β m f hm hf s hs
    obtain ⟨s', e, h1, _, h'⟩ := onList_query hm hs hf
    rw [e]; exact ⟨rfl, h1.trans (hf _).symm, h'⟩
  have of : ∀ {β : Type} {m : Py (SS τ σ) β} {f : Py (List α) β},
      (∀ s, Inv S L I s → ∃ s', m s = ((f (iter L s)).1, s') ∧ Inv S L I s' ∧ iter L s' = (f (iter L s)).2) →
      Refines (Inv S L I) (iter L) m f := by
    intro β m f hm s hs
    obtain ⟨s', e, h1, h2⟩ := hm s hs
    rw [e]; exact ⟨rfl, h2, h1⟩
  have rd : ∀ {β : Type} {g : SS τ σ → β} {f : List α → β}, (∀ s, Inv S L I s → g s = f (iter L s)) →
      Refines (Inv S L I) (iter L) (read g) (SetSpec.query f) := by
    intro β g f hg s hs
    exact ⟨congrArg Except.ok (hg s hs), rfl, hs⟩
  have vo : ∀ {g : SS τ σ → Except PyErr (SS τ σ)} {f : List α → List α},
      (∀ s, Inv S L I s → ∃ s', g s = .ok s' ∧ iter L s' = f (iter L s)) →
      Refines (Inv S L I) (iter L) (valuesOf L g) (SetSpec.query f) := by
    intro g f hg s hs
    obtain ⟨s', e, h1⟩ := hg s hs
    simp only [valuesOf, e]
    exact ⟨congrArg Except.ok h1, rfl, hs⟩
  have mem : ∀ s, Inv S L I s → ∀ v, S.mem v s.set = decide (v ∈ iter L s) := by
    intro s hs v
    rw [Inv.mem h hs, ht.any]; rfl
  have sub : ∀ l r : List α, Subset eqv l r ↔ SetSpec.subset l r = true := by
    intro l r
    simp only [Subset, SetSpec.subset, ht.any, List.all_eq_true]
  cases op with
  | add v =>
    refine Refines.out _ (of fun s hs => ?_)
    obtain ⟨s', e, h1, h2⟩ := add_ok h hs v
    refine ⟨s', e, h1, ?_⟩
    rw [h2, ht.any]; simp [SetSpec.add, SetSpec.insertNew]
  | discard v =>
    refine Refines.out _ (of fun s hs => ?_)
    obtain ⟨s', e, h1, h2⟩ := discard_ok h hs v
    exact ⟨s', e, h1, h2.trans (erase_eq_filter ht (ht.nodup (Inv.distinct' h hs)) v).symm⟩
  | remove v =>
    refine Refines.out _ (of fun s hs => ?_)
    simp only [SetSpec.remove]
    by_cases hm : v ∈ iter L s
    · obtain ⟨s', e, h1, h2⟩ := removePresent_ok h hs (v := v) (by rw [ht.any]; simpa using hm)
      rw [if_pos hm]
      exact ⟨s', e, h1, h2.trans (erase_eq_filter ht (ht.nodup (Inv.distinct' h hs)) v).symm⟩
    · rw [if_neg hm]
      exact ⟨s, remove_absent h hs (by rw [ht.any]; simpa using hm), hs, rfl⟩
  | pop i => exact Refines.out _ (of fun s hs => pop_ok h hs i)
  | delInt i => exact Refines.out _ (of fun s hs => delInt_ok h hs i)
  | delSlice sl => exact Refines.out _ (of fun s hs => delSlice_ok h hs sl)
  | clear => exact Refines.out _ (of fun s hs => clear_ok h hs)
  | update xss =>
    refine Refines.out _ (of fun s hs => ?_)
    obtain ⟨s', e, h1, h2⟩ := update_ok h xss hs
    exact ⟨s', e, h1, union_unique h ht hs h1 xss h2⟩
  | differenceUpdate xss =>
    refine Refines.out _ (of fun s hs => ?_)
    obtain ⟨s', e, h1, h2⟩ := differenceUpdate_ok h xss hs
    exact ⟨s', e, h1, difference_unique h ht hs h1 xss h2⟩
  | intersectionUpdate xss =>
    refine Refines.out _ (of fun s hs => ?_)
    obtain ⟨s', e, h1, h2⟩ := intersectionUpdate_ok h xss hs
    exact ⟨s', e, h1, intersection_unique h ht hs h1 xss h2⟩
  | symmetricDifferenceUpdate xs =>
    refine Refines.out _ (of fun s hs => ?_)
    obtain ⟨s', e, h1, h2⟩ := symmetricDifferenceUpdate_ok h xs hs
    exact ⟨s', e, h1, symmetricDifference_unique h ht hs h1 xs h2⟩
  | getInt i => exact Refines.out _ (q (h.list.getInt i) fun l => by simp only [Spec.getInt]; split <;> rfl)
  | getSlice sl => exact Refines.out _ (q (h.list.getSlice sl) fun l => by simp only [Spec.getSlice]; split <;> rfl)
  | bisectLeft v => exact Refines.out _ (q (h.list.bisectLeft v) fun _ => rfl)
  | bisectRight v => exact Refines.out _ (q (h.list.bisectRight v) fun _ => rfl)
  | index v a b => exact Refines.out _ (q (h.list.index v a b) fun l => by simp only [Spec.index]; split <;> rfl)
  | irange lo hi a b r => exact Refines.out _ (q (h.list.irange lo hi a b r) fun _ => rfl)
  | islice a b r => exact Refines.out _ (q (h.list.islice a b r) fun l => by simp only [Spec.islice]; split <;> rfl)
  | reset load => exact Refines.out _ (q (h.list.reset load hv) fun _ => rfl)
  | contains v => exact Refines.out _ (rd fun s hs => mem s hs v)
  | len => exact Refines.out _ (rd fun s hs => Inv.len h hs)
  | iter => exact Refines.out _ (rd fun s hs => rfl)
  | reversed =>
    refine Refines.out _ (rd fun s hs => ?_)
    have := (h.list.reversed _ hs.list).1
    simp only [ListAPI.read, Spec.reversed, Except.ok.injEq] at this
    exact this
  | count v =>
    refine Refines.out _ (rd fun s hs => ?_)
    simp only [SS.count, mem s hs]
    have hn := ht.nodup (Inv.distinct' h hs)
    by_cases hm : v ∈ iter L s
    · rw [if_pos (by simpa using hm)]
      exact (by rw [List.Nodup.count hn, if_pos hm])
    · rw [if_neg (by simpa using hm), List.count_eq_zero.2 hm]
  | isdisjoint xs =>
    refine Refines.out _ (rd fun s hs => ?_)
    simp only [SS.isdisjoint, mem s hs]
    rw [Bool.eq_iff_iff, Bool.not_eq_true', ← Bool.not_eq_true, List.any_eq_true, List.all_eq_true]
    simp only [decide_eq_true_iff]
    exact ⟨fun hh x hx hx' => hh ⟨x, hx', hx⟩, fun hh ⟨x, hx, hx'⟩ => hh x hx' hx⟩
  | issubset xs =>
    refine Refines.out _ (rd fun s hs => ?_)
    rw [Bool.eq_iff_iff]
    refine (setCompare_ok h.set .le s.set (S.ofList xs)).trans ?_
    show Subset eqv _ _ ↔ _
    rw [(Subset.ofList h _ xs).1, Subset.perm hs.perm (.refl _)]
    exact sub _ _
  | issuperset xs =>
    refine Refines.out _ (rd fun s hs => ?_)
    simp only [SS.issuperset, mem s hs]; rfl
  | compare op values =>
    refine Refines.out _ (rd fun s hs => ?_)
    rw [Bool.eq_iff_iff]
    refine (setCompare_ok h.set op s.set (S.ofList values)).trans ?_
    have e1 : Subset eqv (S.toList s.set) (S.toList (S.ofList values)) ↔ SetSpec.subset (iter L s) values = true := by
      rw [(Subset.ofList h _ values).1, Subset.perm hs.perm (.refl _)]; exact sub _ _
    have e2 : Subset eqv (S.toList (S.ofList values)) (S.toList s.set) ↔ SetSpec.subset values (iter L s) = true := by
      rw [(Subset.ofList h _ values).2, Subset.perm (.refl _) hs.perm]; exact sub _ _
    cases op <;> simp only [e1, e2, SetSpec.compare] <;>
      cases SetSpec.subset (iter L s) values <;> cases SetSpec.subset values (iter L s) <;> simp
  | copy =>
    refine Refines.out _ (vo fun s hs => ?_)
    obtain ⟨s', e, h1, h2⟩ := copy_ok h hs
    refine ⟨s', e, Inv.unique h ht h1 (Inv.sorted' h hs) (ht.nodup (Inv.distinct' h hs)) fun x => ?_⟩
    rw [any_perm h2, ht.any]; rfl
  | union xss =>
    refine Refines.out _ (vo fun s hs => ?_)
    obtain ⟨s', e, h1, h2⟩ := union_ok h xss hs
    exact ⟨s', e, union_unique h ht hs h1 xss h2⟩
  | intersection xss =>
    refine Refines.out _ (vo fun s hs => ?_)
    obtain ⟨s', e, h1, h2⟩ := intersection_ok h xss hs
    exact ⟨s', e, intersection_unique h ht hs h1 xss h2⟩
  | difference xss =>
    refine Refines.out _ (vo fun s hs => ?_)
    obtain ⟨s', e, h1, h2⟩ := difference_ok h xss hs
    exact ⟨s', e, difference_unique h ht hs h1 xss h2⟩
  | symmetricDifference xs =>
    refine Refines.out _ (vo fun s hs => ?_)
    obtain ⟨s', e, h1, h2⟩ := symmetricDifference_ok h xs hs
    exact ⟨s', e, symmetricDifference_unique h ht hs h1 xs h2⟩

end Deterministic
end SS
end Verif
