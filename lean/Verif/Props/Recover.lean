import Verif.Props.Audit
import Verif.Props.DemoWild
import Verif.Proofs.RobustAPI
/-!
# C63: `clear()` recovers from everything

`Ever` (Verif/WildSets.lean): the object was constructed and then received any calls, with comparisons, key functions, `sorted`
and arguments of which nothing is assumed, different ones in every call, raising anywhere.  Such an object may be out of
order, the two stores of a sorted set or dict may hold different values (DESIGN.md, section 6), and calls on it may answer
nonsense.  `clear()` still returns, and from then on, with values that compare well, the object is as good as new.
-/

namespace Verif

section Lists
variable {α κ : Type}

/-- C63: `sl.clear()` returns on every SortedList a client can have, and the answers of all calls that follow are those of
the plain sorted list `[]`. -/
theorem C63_list_clear {E : Env α} {lt : α → α → Bool} (hE : E.Lawful lt) {s : St α α} (hs : (ListClass.plain E).Ever s)
    (ops : List (Op α)) (hops : ∀ op ∈ ops, op.Valid) :
    let spec := runHist (Spec.step (Spec.Order.ofValues lt)) ops []
    let real := runHist (SL.api E).step (.clear :: ops) s
    real.1 = .ok .none :: spec.1 ∧ Core.iter real.2 = spec.2 := by
  obtain ⟨s', e, hi, h0⟩ := SL.clear_inv lt (s := s) hs.load_pos
  obtain ⟨h1, h2, _⟩ := (SL.api_lawful hE).hist ops hops hi
  have e' : (SL.api E).step .clear s = (.ok .none, s') := by
    cases e; rfl
  rw [show (SL.api E).iter s' = [] from h0] at h1 h2
  simp only [runHist, e', h1, true_and]
  exact h2

/-- C63 for a SortedKeyList. -/
theorem C63_key_list_clear {K : KEnv α κ} {key : α → κ} {klt : κ → κ → Bool} {veq : α → α → Bool}
    (hK : K.Lawful key klt veq) {s : St α κ} (hs : (ListClass.keyed K).Ever s) (ops : List (KOp α κ))
    (hops : ∀ op ∈ ops, op.Valid) :
    let spec := runHist (Spec.kstep key klt (Spec.Order.ofKey key klt veq K.vcmp)) ops []
    let real := runHist (SKL.kstep K) (.op .clear :: ops) s
    real.1 = .ok .none :: spec.1 ∧ Core.iter real.2 = spec.2 := by
  obtain ⟨s', e, hi, h0⟩ := SKL.clear_inv key klt (s := s) hs.load_pos
  obtain ⟨h1, h2, _⟩ := Refines.hist ops (fun op ho => SKL.kstep_refines hK op (hops op ho)) hi
  have e' : SKL.kstep K (.op .clear) s = (.ok .none, s') := by
    cases e; rfl
  rw [h0] at h1 h2
  simp only [runHist, e', h1, true_and]
  exact h2

end Lists

section Sets
variable {α τ : Type} {c : ListClass α} {lt eqv : α → α → Bool} {S : SetOps τ α}

/-- C63 for a SortedSet. -/
theorem C63_set_clear [DecidableEq α] (hc : c.Orders lt eqv) (hS : S.Lawful eqv)
    (heq : ∀ a b, eqv a b = decide (a = b)) (htotal : ∀ a b, lt a b = false → lt b a = false → a = b)
    {s : SS τ c.State} (hs : SS.Ever S c s) (ops : List (SSOp α)) (hops : ∀ op ∈ ops, op.Valid) :
    let spec := runHist (SetSpec.step (setOrder lt eqv)) ops []
    let real := runHist (SS.step S c.api) (.clear :: ops) s
    real.1 = .ok .none :: spec.1 ∧ SS.iter c.api real.2 = spec.2 := by
  obtain ⟨O, I, h1, rfl, h3, h4⟩ := ListClass.clear_sound hc
  have h : SS.Good S c.api O eqv I := ⟨hS, h1, h3⟩
  have ht : SS.Total O eqv := ⟨heq, fun a b hab => by
    simp only [equiv, Bool.and_eq_true, Bool.not_eq_true'] at hab
    exact htotal a b hab.1 hab.2⟩
  have hsame : O.same = eqv := by funext a b; exact h3 a b
  have hstep : SetSpec.step (setOrder O.lt eqv) = SetSpec.step O := by
    funext op; exact (SetSpec.step_congr O rfl hsame op).symm
  obtain ⟨l', e, hl, h0⟩ := h4 s.list hs.load_pos
  have hi : SS.Inv S c.api I { set := S.empty, list := l' } := ⟨hl, by
    show (S.toList S.empty).Perm (c.api.iter l')
    rw [h0, hS.empty]⟩
  have e' : SS.step S c.api .clear s = (.ok .none, { set := S.empty, list := l' }) := by
    simp only [SS.step, SS.clear, SS.onSet, Spec.out, Py.modify_bind, SS.onList, e]
  obtain ⟨r1, r2, _⟩ := Refines.hist ops (fun op ho => SS.step_refines h ht op (hops op ho)) hi
  rw [show SS.iter c.api (SS.mk S.empty l') = [] from h0] at r1 r2
  intro spec real
  have hsp : spec = runHist (SetSpec.step O) ops [] := by rw [← hstep]
  rw [hsp]
  simp only [real, runHist, e', r1, true_and]
  exact r2

end Sets

section Dicts
variable {κ ν : Type} {c : ListClass κ} {lt eqv : κ → κ → Bool}

/-- C63 for a SortedDict. -/
theorem C63_dict_clear (hc : c.Orders lt eqv) (he : IsEquiv eqv) {s : SD κ ν c.State} (hs : SD.Ever eqv c s)
    (ops : List (SDOp κ ν)) (hops : ∀ op ∈ ops, op.Valid) :
    let spec := runHist (DictSpec.step eqv (setOrder lt eqv)) ops []
    let real := runHist (SD.step eqv c.api) (.clear :: ops) s
    real.1 = .ok .none :: spec.1 ∧ real.2.dict = spec.2 ∧
      SD.iter c.api real.2 = DictSpec.sortedKeys (setOrder lt eqv) spec.2 := by
  obtain ⟨O, I, h1, rfl, h3, h4⟩ := ListClass.clear_sound hc
  have h : SD.Good c.api O eqv I := ⟨he, h1, h3⟩
  have hsame : O.same = eqv := by funext a b; exact h3 a b
  have hstep : DictSpec.step eqv (setOrder O.lt eqv) = DictSpec.step (ν := ν) eqv O := by
    funext op; exact (DictSpec.step_congr O rfl hsame op).symm
  obtain ⟨l', e, hl, h0⟩ := h4 s.list hs.load_pos
  have hi : SD.Inv (ν := ν) c.api O eqv I { dict := [], list := l' } := ⟨hl, List.Pairwise.nil, h0⟩
  have e' : SD.step eqv c.api .clear s = (.ok .none, { dict := [], list := l' }) := by
    have : SD.clear c.api s = (.ok (), { dict := [], list := l' }) := by
      simp only [SD.clear, SD.onDict, Py.modify_bind, SD.onList, e]
    exact Py.bind_ok this
  obtain ⟨r1, r2, r3⟩ := Refines.hist ops (fun op ho => SD.step_refines h op (hops op ho)) hi
  intro spec real
  have hsp : spec = runHist (DictSpec.step eqv O) ops [] := by rw [← hstep]
  have hreal : real = (.ok .none :: (runHist (SD.step eqv c.api) ops { dict := [], list := l' }).1,
      (runHist (SD.step eqv c.api) ops { dict := [], list := l' }).2) := by
    simp only [real, runHist, e']
  rw [hsp, hreal]
  refine ⟨by rw [r1], r2, ?_⟩
  show SD.iter c.api (runHist (SD.step eqv c.api) ops _).2 = _
  rw [SD.iter, r3.iter, r2]
  rfl

end Dicts

/-! ## Objects that need it -/

namespace Demo

/-- `sl = SortedList([5, 1, 3]); sl.update([-1, -2])`, where comparing `-1` with the others raises; then `sl.add(4)`. -/
def wreck : St Int Int :=
  (runHist (SL.api mixedEnv).step [.update [-1, -2], .add 4] (SL.update mixedEnv [5, 1, 3] St.empty).2).2

theorem wreck_ever : (ListClass.plain intEnv).Ever wreck :=
  .step (c := .plain intEnv) (L := SL.api mixedEnv) (.add 4) ⟨_, rfl⟩ trivial
    (.step (c := .plain intEnv) (L := SL.api mixedEnv) (.update [-1, -2]) ⟨_, rfl⟩ trivial
      (.new (c := .plain intEnv) (L := SL.api mixedEnv) (xs := some [5, 1, 3]) ⟨_, rfl⟩ (by rfl)))

/-- The length is wrong, the values are out of order, and there are fewer maxima than lists. -/
example : wreck.lists = [[1, 3, 4, 5], [-2, -1]] ∧ wreck.maxes = [5] ∧ wreck.len = 4 := by decide +kernel

example := C63_list_clear intEnv_lawful wreck_ever ops ops_valid

/-- The same with keys. -/
def wreckK : St Int Int :=
  (runHist (SKL.api mixedKEnv).step [.update [-31, -20], .add 44] (SKL.update mixedKEnv [52, 10, 31] St.empty).2).2

theorem wreckK_ever : (ListClass.keyed tensEnv).Ever wreckK :=
  .step (c := .keyed tensEnv) (L := SKL.api mixedKEnv) (.add 44) ⟨_, rfl⟩ trivial
    (.step (c := .keyed tensEnv) (L := SKL.api mixedKEnv) (.update [-31, -20]) ⟨_, rfl⟩ trivial
      (.new (c := .keyed tensEnv) (L := SKL.api mixedKEnv) (xs := some [52, 10, 31]) ⟨_, rfl⟩ (by rfl)))

example : wreckK.lists = [[10, 31, 44, 52], [-31, -20]] ∧ wreckK.keys = [[1, 3, 4, 5]] ∧ wreckK.len = 4 := by decide +kernel

example := C63_key_list_clear tensEnv_lawful wreckK_ever kops kops_valid

/-- `ss = SortedSet([5, 1]); ss.update([-1, 2])` -/
def wreckSet : SS { l : List Int // Distinct (equiv ilt) l } (St Int Int) :=
  (SS.step (iset false) (SL.api mixedEnv) (.update [[-1, 2]])
    { set := (iset false).ofList [5, 1], list := (SL.update mixedEnv [5, 1] St.empty).2 }).2

theorem wreckSet_ever : SS.Ever (iset false) intClass wreckSet :=
  .step (c := intClass) (L := SL.api mixedEnv) (.update [[-1, 2]]) ⟨_, rfl⟩ trivial
    (.new (c := intClass) (L := SL.api mixedEnv) (xs := some [5, 1]) ⟨_, rfl⟩ (by rfl))

/-- The built-in set has four values, the list has none. -/
example : wreckSet.set.1 = [5, 1, -1, 2] ∧ wreckSet.list.lists = [] := by decide +kernel

example := C63_set_clear intClass_orders (iset_lawful false) ieq_decide ilt_total wreckSet_ever
  [.add 3, .bisectLeft 4, .remove 9, .update [[7, 5], [5, 1]], .pop 0] (by simp [SSOp.Valid])

/-- `sd = SortedDict({5: 'e', 1: 'a'}); sd.update([(-1, 'x')])` -/
def wreckDict : SD Int String (St Int Int) :=
  (SD.step (equiv ilt) (SL.api mixedEnv) (.update (.pairs [(-1, "x")] none))
    { dict := [(5, "e"), (1, "a")], list := (SL.update mixedEnv [5, 1] St.empty).2 }).2

theorem wreckDict_ever : SD.Ever (equiv ilt) intClass wreckDict :=
  .step (c := intClass) (L := SL.api mixedEnv) (.update (.pairs [(-1, "x")] none)) ⟨_, rfl⟩ nofun
    (.new (c := intClass) (L := SL.api mixedEnv) (arg := .pairs [(5, "e"), (1, "a")] none) ⟨_, rfl⟩ (by rfl))

/-- The built-in dict has three keys, the list has none. -/
example : wreckDict.dict.map Prod.fst = [5, 1, -1] ∧ wreckDict.list.lists = [] := by decide +kernel

example := C63_dict_clear intClass_orders ieqv_equiv wreckDict_ever
  [.setitem 3 "c", .setitem 1 "a", .popitem 0, .delitem 9] (by simp [SDOp.Valid])

end Demo
end Verif
