import Verif.Props.Views
import Verif.Proofs.Audit
/-!
# C61: a passing self-audit can be trusted

`s` is any object of the right type here, not only one that calls can produce: memory may have been corrupted, attributes set
by hand, a call may have been interrupted, comparisons may have contradicted each other.  If `_check()` passes, the object
works from then on.  Two things `_check` does not look at, and a corruption of them is shown below: that the positional index
has a power of two of leaf places (`IndexShape`), and that the list in a SortedSet or SortedDict has no repetitions.

`Exact`: values (keys) that compare equal are identical; `_check` compares with `==`.
-/

namespace Verif

section Lists
variable {α κ : Type}

/-- C61: if `sl._check()` passes, then whatever calls follow, their answers are those of the plain sorted list
`list(sl)`, and so are the contents. -/
theorem C61_list_audit {E : Env α} {lt : α → α → Bool} (hE : E.Lawful lt)
    (hx : ∀ a b, E.cmp .eq a b = .ok true → a = b) {s : St α α} (hshape : IndexShape s)
    (hcheck : SL.check E s = .ok ()) (ops : List (Op α)) (hops : ∀ op ∈ ops, op.Valid) :
    let spec := runHist (Spec.step (Spec.Order.ofValues lt)) ops (Core.iter s)
    let real := runHist (SL.api E).step ops s
    Sorted lt (Core.iter s) ∧ s.len = (Core.iter s).length ∧ real.1 = spec.1 ∧ Core.iter real.2 = spec.2 := by
  have hi := SL.check_sound hE hx hshape hcheck
  obtain ⟨h1, h2, _⟩ := (SL.api_lawful hE).hist ops hops hi
  exact ⟨(SL.api_lawful hE).sorted _ hi, hi.len_eq, h1, h2⟩

/-- C61 for a SortedKeyList. -/
theorem C61_key_list_audit {K : KEnv α κ} {key : α → κ} {klt : κ → κ → Bool} {veq : α → α → Bool}
    (hK : K.Lawful key klt veq) (hx : ∀ a b, K.kcmp .eq a b = .ok true → a = b) {s : St α κ} (hshape : IndexShape s)
    (hcheck : SKL.check K s = .ok ()) (ops : List (KOp α κ)) (hops : ∀ op ∈ ops, op.Valid) :
    let spec := runHist (Spec.kstep key klt (Spec.Order.ofKey key klt veq K.vcmp)) ops (Core.iter s)
    let real := runHist (SKL.kstep K) ops s
    Sorted (fun a b => klt (key a) (key b)) (Core.iter s) ∧ s.len = (Core.iter s).length ∧ real.1 = spec.1 ∧
      Core.iter real.2 = spec.2 := by
  have hi := SKL.check_sound hK hx hshape hcheck
  obtain ⟨h1, h2, _⟩ := Refines.hist ops (fun op ho => SKL.kstep_refines hK op (hops op ho)) hi
  exact ⟨(SKL.api_lawful hK).sorted _ hi, hi.len_eq, h1, h2⟩

end Lists

section Sets
variable {α τ : Type} {c : ListClass α} {lt eqv : α → α → Bool} {S : SetOps τ α}

/-- C61 for a SortedSet: if `ss._check()` passes and `list(ss)` has no repetitions, the answers of all calls that follow are
those of the plain sorted list `list(ss)` without repetitions. -/
theorem C61_set_audit [DecidableEq α] (hc : c.Orders lt eqv) (hx : c.Exact) (hS : S.Lawful eqv)
    (heq : ∀ a b, eqv a b = decide (a = b)) (htotal : ∀ a b, lt a b = false → lt b a = false → a = b)
    {s : SS τ c.State} (hshape : c.IndexShape s.list) (hnodup : (SS.iter c.api s).Nodup)
    (hcheck : SS.check S c s = .ok ()) (ops : List (SSOp α)) (hops : ∀ op ∈ ops, op.Valid) :
    let spec := runHist (SetSpec.step (setOrder lt eqv)) ops (SS.iter c.api s)
    let real := runHist (SS.step S c.api) ops s
    Sorted lt (SS.iter c.api s) ∧ (∀ v, SS.contains S v s = decide (v ∈ SS.iter c.api s)) ∧ real.1 = spec.1 ∧
      SS.iter c.api real.2 = spec.2 := by
  obtain ⟨O, I, h1, rfl, h3, h4⟩ := ListClass.check_sound hc hx
  have h : SS.Good S c.api O eqv I := ⟨hS, h1, h3⟩
  have ht : SS.Total O eqv := ⟨heq, fun a b hab => by
    simp only [equiv, Bool.and_eq_true, Bool.not_eq_true'] at hab
    exact htotal a b hab.1 hab.2⟩
  have hsame : O.same = eqv := by funext a b; exact h3 a b
  have hstep : SetSpec.step (setOrder O.lt eqv) = SetSpec.step O := by
    funext op; exact (SetSpec.step_congr O rfl hsame op).symm
  obtain ⟨_, c1, hcheck⟩ := bind_ok_inv hcheck
  obtain ⟨_, c2, c3⟩ := bind_ok_inv hcheck
  have hl := h4 _ hshape c1
  have hlen : S.len s.set = (SS.iter c.api s).length := by
    rw [show (SS.iter c.api s).length = c.api.len s.list from (Except.ok.inj (h1.len _ hl).1).symm]
    simpa using assert_inv c2
  have hi : SS.Inv S c.api I s := by
    refine ⟨hl, perm_of_subset hnodup (fun x hx => ?_) (by rw [← hS.len, hlen]; exact Nat.le_refl _)⟩
    have := List.all_eq_true.1 (assert_inv c3) x hx
    rw [hS.mem, ht.any] at this
    exact decide_eq_true_iff.1 this
  obtain ⟨r1, r2, _⟩ := Refines.hist ops (fun op ho => SS.step_refines h ht op (hops op ho)) hi
  intro spec real
  refine ⟨hi.sorted' h, fun v => ?_, ?_, ?_⟩
  · rw [SS.contains, hi.mem h, ht.any]; rfl
  · show _ = (runHist (SetSpec.step (setOrder O.lt eqv)) ops _).1
    rw [hstep]; exact r1
  · show _ = (runHist (SetSpec.step (setOrder O.lt eqv)) ops _).2
    rw [hstep]; exact r2

end Sets

section Dicts
variable {κ ν : Type} {c : ListClass κ} {lt eqv : κ → κ → Bool}

/-- C61 for a SortedDict: if `sd._check()` passes and `list(sd)` has no repetitions, the answers of all calls that follow
are those of the plain dict with the items of `sd`.  (The keys of a built-in dict are distinct.) -/
theorem C61_dict_audit [DecidableEq κ] (hc : c.Orders lt eqv) (hx : c.Exact)
    (heq : ∀ a b, eqv a b = decide (a = b)) (htotal : ∀ a b, lt a b = false → lt b a = false → a = b)
    {s : SD κ ν c.State} (hshape : c.IndexShape s.list) (hkeys : (s.dict.map Prod.fst).Nodup)
    (hnodup : (SD.iter c.api s).Nodup) (hcheck : SD.check eqv c s = .ok ()) (ops : List (SDOp κ ν))
    (hops : ∀ op ∈ ops, op.Valid) :
    let spec := runHist (DictSpec.step eqv (setOrder lt eqv)) ops s.dict
    let real := runHist (SD.step eqv c.api) ops s
    Sorted lt (SD.iter c.api s) ∧ (∀ k, k ∈ SD.iter c.api s ↔ k ∈ s.dict.map Prod.fst) ∧ real.1 = spec.1 ∧
      real.2.dict = spec.2 ∧ SD.iter c.api real.2 = DictSpec.sortedKeys (setOrder lt eqv) spec.2 := by
  obtain ⟨O, I, h1, rfl, h3, h4⟩ := ListClass.check_sound hc hx
  have he : IsEquiv eqv := ⟨fun a => by simp [heq], fun a b => by rw [heq, heq]; exact decide_eq_decide.2 eq_comm,
    fun a b c h h' => by simp [heq] at h h' ⊢; exact h.trans h'⟩
  have h : SD.Good c.api O eqv I := ⟨he, h1, h3⟩
  have ht : SS.Total O eqv := ⟨heq, fun a b hab => by
    simp only [equiv, Bool.and_eq_true, Bool.not_eq_true'] at hab
    exact htotal a b hab.1 hab.2⟩
  have hsame : O.same = eqv := by funext a b; exact h3 a b
  have hstep : DictSpec.step eqv (setOrder O.lt eqv) = DictSpec.step (ν := ν) eqv O := by
    funext op; exact (DictSpec.step_congr O rfl hsame op).symm
  obtain ⟨_, c1, hcheck⟩ := bind_ok_inv hcheck
  obtain ⟨_, c2, c3⟩ := bind_ok_inv hcheck
  have hl := h4 _ hshape c1
  have hlen : s.dict.length = (SD.iter c.api s).length := by
    rw [show (SD.iter c.api s).length = c.api.len s.list from (Except.ok.inj (h1.len _ hl).1).symm]
    simpa [SD.length] using assert_inv c2
  have hp : (s.dict.map Prod.fst).Perm (SD.iter c.api s) := by
    refine perm_of_subset hnodup (fun x hx => ?_) (by simp [hlen])
    have := List.all_eq_true.1 (assert_inv c3) x hx
    simp only [SD.contains, PyDict.has, List.any_eq_true, heq, decide_eq_true_iff] at this
    obtain ⟨p, hp, e⟩ := this
    exact List.mem_map.2 ⟨p, hp, e⟩
  have hsort := DictSpec.sortedKeys_sort (O := O) h1.order s.dict
  have hi : SD.Inv c.api O eqv I s := by
    refine ⟨hl, ?_, ?_⟩
    · show List.Pairwise _ _
      refine List.Pairwise.imp (fun hne => ?_) hkeys
      rw [heq]; exact decide_eq_false hne
    · refine ht.unique (h1.sorted _ hl) hsort.sorted hnodup (hsort.perm.nodup_iff.2 hkeys) fun x => ?_
      rw [hsort.perm.mem_iff]
      exact hp.mem_iff.symm
  obtain ⟨r1, r2, r3⟩ := Refines.hist ops (fun op ho => SD.step_refines h op (hops op ho)) hi
  intro spec real
  refine ⟨h1.sorted _ hl, fun k => hp.mem_iff.symm, ?_, ?_, ?_⟩
  · show _ = (runHist (DictSpec.step eqv (setOrder O.lt eqv)) ops _).1
    rw [hstep]; exact r1
  · show _ = (runHist (DictSpec.step eqv (setOrder O.lt eqv)) ops _).2
    rw [hstep]; exact r2
  · show _ = DictSpec.sortedKeys _ (runHist (DictSpec.step eqv (setOrder O.lt eqv)) ops _).2
    rw [hstep]
    show SD.iter c.api (runHist (SD.step eqv c.api) ops s).2 = _
    rw [SD.iter, r3.iter, r2]; rfl

end Dicts

/-! ## Objects that pass -/

namespace Demo

/-- An object that was put together by hand. -/
def handMade : St Int Int :=
  { load := 4, len := 7, lists := [[1, 2, 2], [4, 5], [7, 7]], maxes := [2, 5, 7], index := [7, 5, 2, 3, 2, 2], offset := 3, keys := [] }

theorem handMade_shape : IndexShape handMade := .inr ⟨by decide, by decide, 2, by decide⟩

theorem intEnv_exact : ∀ a b, intEnv.cmp .eq a b = .ok true → a = b := by
  intro a b h
  simp only [intEnv, CmpOp.ofLt, equiv, ilt, Except.ok.injEq, Bool.and_eq_true, Bool.not_eq_true', decide_eq_false_iff_not] at h
  omega

example := C61_list_audit intEnv_lawful intEnv_exact handMade_shape (by decide +kernel) ops ops_valid

/-- The same with keys. -/
def handMadeKeyed : St Int Int :=
  { load := 4, len := 5, lists := [[35, 31, 38], [44, 97]], maxes := [3, 9], index := [5, 3, 2], offset := 1,
    keys := [[3, 3, 3], [4, 9]] }

theorem tensEnv_exact : ∀ a b, tensEnv.kcmp .eq a b = .ok true → a = b := by
  intro a b h
  simp only [tensEnv, CmpOp.ofLt, equiv, ilt, Except.ok.injEq, Bool.and_eq_true, Bool.not_eq_true', decide_eq_false_iff_not] at h
  omega

example := C61_key_list_audit tensEnv_lawful tensEnv_exact (s := handMadeKeyed) (.inr ⟨by decide, by decide, 1, by decide⟩)
  (by decide +kernel) kops kops_valid

theorem ieq_decide (a b : Int) : equiv ilt a b = decide (a = b) := by rw [Bool.eq_iff_iff]; simp [equiv, ilt]; omega

theorem ilt_total (a b : Int) : ilt a b = false → ilt b a = false → a = b := by simp [ilt]; omega

/-- `list(ss)` is `[1, 2, 4, 5]`. -/
def handMadeList : St Int Int :=
  { load := 4, len := 4, lists := [[1, 2], [4, 5]], maxes := [2, 5], index := [], offset := 77, keys := [] }

example := C61_set_audit (S := iset true) intClass_orders intEnv_exact (iset_lawful true) ieq_decide ilt_total
  (s := { set := (iset true).ofList [5, 4, 1, 2], list := handMadeList }) (.inl rfl) (by decide +kernel) (by decide +kernel)
  [.add 3, .bisectLeft 4, .remove 9, .difference [[4]]] (by simp [SSOp.Valid])

example := C61_dict_audit (c := intClass) intClass_orders intEnv_exact ieq_decide ilt_total
  (s := { dict := [(4, "d"), (1, "a"), (2, "b"), (5, "e")], list := handMadeList }) (.inl rfl) (by decide +kernel)
  (by decide +kernel) (by decide +kernel) [.setitem 3 "c", .popitem 0, .delitem 9] (by simp [SDOp.Valid])

end Demo

/-! ## What `_check` does not notice -/

section Blind
open Demo

/-- A list whose index has three leaf places.  Nothing but the index is wrong. -/
def badIndex : St Int Int :=
  { load := 4, len := 5, lists := [[1, 2, 3], [4, 5]], maxes := [3, 5], index := [5, 2, 3, 2], offset := 2, keys := [] }

/-- C61, limits: `_check()` passes on a list with a positional index of the wrong shape, and `sl[3]` is wrong. -/
theorem C61_check_misses_index_shape :
    SL.check intEnv badIndex = .ok () ∧ Core.iter badIndex = [1, 2, 3, 4, 5] ∧
    ((SL.api intEnv).getInt 3 badIndex).1 ≠ .ok 4 := by
  decide +kernel

/-- C61, limits: `_check()` passes on a SortedSet whose list is `[1, 1]` and whose set is `{1, 2}`. -/
theorem C61_check_misses_repetition :
    ∃ s : SS _ intClass.State, SS.check (iset false) intClass s = .ok () ∧ SS.iter intClass.api s = [1, 1] ∧
      SS.contains (iset false) 2 s = true :=
  ⟨{ set := (iset false).ofList [1, 2], list := (SL.update intEnv [1, 1] St.empty).2 }, by decide +kernel⟩

end Blind

end Verif
