import Verif.Proofs.Gen
import Verif.Props.Audit
import Verif.Props.SortedDict
/-!
# C80: arguments that use the container they are passed to

`sl.update(f(sl, x) for x in xs)`: the body of the generator calls methods of the container that is consuming it, and may
even change it.  The generators are arbitrary: `Gen` (Verif/Model/Gen.lean) is what a generator does next, as a function of
the answers that it gets.  The specification (Verif/GenSpec.lean) uses the argument up first, against the plain container,
and then updates the plain container with the list of what came.  For sorted lists and sets that is what happens.  It is
what happens for a sorted dict too, unless the dict is empty: then every pair is stored as soon as it arrives.
-/

namespace Verif

section Lists
variable {α κ : Type}

/-- C80: every history of calls, among them `update`, `+=` and `+` with generators that call methods of the list, also
methods that change it: answers and contents are those of the plain sorted list. -/
theorem C80_list {E : Env α} {lt : α → α → Bool} (hE : E.Lawful lt) {s : St α α} (hs : (SL.api E).Reachable s)
    (ops : List (GenOp (Op α) α)) (hops : ∀ op ∈ ops, op.Calls Op.Valid) :
    let O := Spec.Order.ofValues lt
    let spec := runHist (Spec.genStep O (Spec.step O)) ops (Core.iter s)
    let real := runHist ((SL.api E).genStep (SL.api E).step) ops s
    real.1 = spec.1 ∧ Core.iter real.2 = spec.2 := by
  intro O spec real
  have hl := SL.api_lawful hE
  have h := hl.reachable hs
  obtain ⟨h1, h2, _⟩ := Refines.hist ops
    (fun op ho => hl.genStep (fun op hv => hl.step op hv) op (hops op ho)) h
  exact ⟨h1, h2⟩

/-- C80 for a SortedKeyList. -/
theorem C80_key_list {K : KEnv α κ} {key : α → κ} {klt : κ → κ → Bool} {veq : α → α → Bool}
    (hK : K.Lawful key klt veq) {s : St α κ} (hs : SKL.Reachable K s) (ops : List (GenOp (KOp α κ) α))
    (hops : ∀ op ∈ ops, op.Calls KOp.Valid) :
    let O := Spec.Order.ofKey key klt veq K.vcmp
    let spec := runHist (Spec.genStep O (Spec.kstep key klt O)) ops (Core.iter s)
    let real := runHist ((SKL.api K).genStep (SKL.kstep K)) ops s
    real.1 = spec.1 ∧ Core.iter real.2 = spec.2 := by
  intro O spec real
  have hl := SKL.api_lawful hK
  obtain ⟨h1, h2, _⟩ := Refines.hist ops
    (fun op ho => hl.genStep (fun op hv => SKL.kstep_refines hK op hv) op (hops op ho)) (SKL.reachable_inv hK hs)
  exact ⟨h1, h2⟩

/-- C80: a generator that only reads the list sees the contents from before the call, however much it yields: `sl.update(gen)`
is `sl.update(xs)`, where `xs` is what comes if every question is answered by the list as it was.  If the generator raises,
nothing has changed. -/
theorem C80_list_reads {E : Env α} {lt : α → α → Bool} (hE : E.Lawful lt) {s : St α α} (hs : (SL.api E).Reachable s)
    (g : Gen (Op α) (Out α) α) (hg : g.Calls fun op => op.isQuery = true ∧ op.Valid) :
    let real := (SL.api E).updateFrom (SL.api E).step g s
    match g.listed (fun op => ((SL.api E).step op s).1) with
    | .ok xs => real.1 = .ok () ∧ Core.iter real.2 = Spec.insertAll (Spec.Order.ofValues lt) (Core.iter s) xs
    | .error e => real.1 = .error e ∧ Core.iter real.2 = Core.iter s := by
  intro real
  have hl := SL.api_lawful hE
  have hi := hl.reachable hs
  have hlist : g.listed (fun op => ((SL.api E).step op s).1) =
      g.listed (fun op => (Spec.step (Spec.Order.ofValues lt) op (Core.iter s)).1) := by
    clear real
    induction g with
    | done => rfl
    | fail e => rfl
    | yield v rest ih => simp only [Gen.listed]; rw [ih hg]
    | call op k ih =>
      simp only [Gen.listed]
      rw [(hl.step op hg.1.2 s hi).1]
      exact ih _ (hg.2 _)
  have hr := Refines.bind (Gen.drain_refines (fun op hv => hl.step op hv) g (hg.mono fun _ h => h.2))
    (fun xs => hl.update xs) s hi
  have hq : (g.drain (Spec.step (Spec.Order.ofValues lt)) >>= Spec.update (Spec.Order.ofValues lt)) (Core.iter s) =
      match g.listed (fun op => (Spec.step (Spec.Order.ofValues lt) op (Core.iter s)).1) with
      | .ok xs => (.ok (), Spec.insertAll (Spec.Order.ofValues lt) (Core.iter s) xs)
      | .error e => (.error e, Core.iter s) := by
    rw [Py.bind_apply, Gen.drain_query (fun op (h : op.isQuery = true ∧ op.Valid) l => Spec.step_query op h.1 l) g hg]
    cases g.listed fun op => (Spec.step (Spec.Order.ofValues lt) op (Core.iter s)).1 <;> rfl
  rw [show (SL.api E).iter s = Core.iter s from rfl, hq] at hr
  rw [hlist]
  generalize g.listed (fun op => (Spec.step (Spec.Order.ofValues lt) op (Core.iter s)).1) = r at hr ⊢
  cases r with
  | ok xs => exact ⟨hr.1, hr.2.1⟩
  | error e => exact ⟨hr.1, hr.2.1⟩

end Lists

section Sets
variable {α τ : Type} {c : ListClass α} {lt eqv : α → α → Bool} {S : SetOps τ α}

/-- C80 for a SortedSet: every history of calls, among them `update`, `difference_update`, `symmetric_difference_update` and
`intersection_update` (and `|=`, `-=`, `^=`, `&=`) with generators that call methods of the set.  The argument of
`intersection_update` is special: a value counts if it is in the set when it is yielded. -/
theorem C80_set [DecidableEq α] (hc : c.Orders lt eqv) (hS : S.Lawful eqv) (heq : ∀ a b, eqv a b = decide (a = b))
    (htotal : ∀ a b, lt a b = false → lt b a = false → a = b) {s : SS τ c.State} (hs : SS.Reachable S c.api s)
    (ops : List (SSGenOp α)) (hops : ∀ op ∈ ops, op.Calls SSOp.Valid) :
    let spec := runHist (SetSpec.genStep (setOrder lt eqv)) ops (SS.iter c.api s)
    let real := runHist (SS.genStep S c.api) ops s
    real.1 = spec.1 ∧ SS.iter c.api real.2 = spec.2 := by
  obtain ⟨O, I, h, rfl⟩ := SS.good hc hS
  have ht : SS.Total O eqv := ⟨heq, fun a b hab => by
    simp only [equiv, Bool.and_eq_true, Bool.not_eq_true'] at hab
    exact htotal a b hab.1 hab.2⟩
  have hsame : O.same = eqv := by funext a b; exact h.same a b
  have hstep : SetSpec.step (setOrder O.lt eqv) = SetSpec.step O := by
    funext op; exact (SetSpec.step_congr O rfl hsame op).symm
  have hhits : ∀ g, SetSpec.hits (setOrder O.lt eqv) g = SetSpec.hits O g := fun g => by
    induction g with
    | done => rfl
    | fail e => rfl
    | yield v rest ih => simp only [SetSpec.hits]; rw [ih]
    | call op k ih => funext l; simp only [SetSpec.hits]; rw [hstep, ih]
  have hgen : SetSpec.genStep (setOrder O.lt eqv) = SetSpec.genStep O := by
    funext op
    cases op with
    | intersectionUpdate g => simp only [SetSpec.genStep, hhits]; rfl
    | _ => simp only [SetSpec.genStep, hstep]
  rw [hgen]
  obtain ⟨r1, r2, _⟩ := Refines.hist ops (fun op ho => SS.genStep_refines h ht op (hops op ho)) (SS.reachable_inv h hs)
  exact ⟨r1, r2⟩

end Sets

section Dicts
variable {κ ν : Type} {c : ListClass κ} {lt eqv : κ → κ → Bool}

/-- The calls that follow see a plain dict. -/
theorem SD.Inv.later {O : Spec.Order κ} {I : c.State → Prop} (h : SD.Good c.api O eqv I) {s : SD κ ν c.State}
    (hs : SD.Inv c.api O eqv I s) (ops : List (SDOp κ ν)) (hops : ∀ op ∈ ops, op.Valid) :
    let spec := runHist (DictSpec.step eqv (setOrder O.lt eqv)) ops s.dict
    let real := runHist (SD.step eqv c.api) ops s
    real.1 = spec.1 ∧ real.2.dict = spec.2 ∧ SD.iter c.api real.2 = DictSpec.sortedKeys (setOrder O.lt eqv) spec.2 := by
  have hsame : O.same = eqv := by funext a b; exact h.same a b
  have hstep : DictSpec.step eqv (setOrder O.lt eqv) = DictSpec.step (ν := ν) eqv O := by
    funext op; exact (DictSpec.step_congr O rfl hsame op).symm
  obtain ⟨r1, r2, r3⟩ := Refines.hist ops (fun op ho => SD.step_refines h op (hops op ho)) hs
  intro spec real
  have hsp : spec = runHist (DictSpec.step eqv O) ops s.dict := by rw [← hstep]
  rw [hsp]
  refine ⟨r1, r2, ?_⟩
  show SD.iter c.api (runHist (SD.step eqv c.api) ops _).2 = _
  rw [SD.iter, r3.iter, r2]
  rfl

/-- C80: `sd.update(gen)` on a dict that is not empty, with a generator of pairs that may call any methods of the dict:
`d.update(dict(gen))`; also all calls that follow are answered as by the plain dict. -/
theorem C80_dict (hc : c.Orders lt eqv) (he : IsEquiv eqv) {s : SD κ ν c.State} (hs : SD.Reachable eqv c.api s)
    (hne : SD.length s ≠ 0) (g : SD.Arg κ ν) (hg : g.Calls SDOp.Valid) (ops : List (SDOp κ ν))
    (hops : ∀ op ∈ ops, op.Valid) :
    let O := setOrder lt eqv
    let upd := SD.out (fun _ => .none) (SD.updateFrom eqv c.api g) s
    let supd := DictSpec.updateFrom eqv O g s.dict
    let spec := runHist (DictSpec.step eqv O) ops supd.2
    let real := runHist (SD.step eqv c.api) ops upd.2
    upd.1 = supd.1 ∧ real.1 = spec.1 ∧ real.2.dict = spec.2 ∧ SD.iter c.api real.2 = DictSpec.sortedKeys O spec.2 := by
  obtain ⟨O, I, h, rfl⟩ := SD.good hc he
  have hsame : O.same = eqv := by funext a b; exact h.same a b
  have hstep : DictSpec.step eqv (setOrder O.lt eqv) = DictSpec.step (ν := ν) eqv O := by
    funext op; exact (DictSpec.step_congr O rfl hsame op).symm
  have hu : DictSpec.updateFrom eqv (setOrder O.lt eqv) g = DictSpec.updateFrom eqv O g := by
    simp only [DictSpec.updateFrom, hstep]
  obtain ⟨r1, r2, r3⟩ := SD.updateFrom_refines h g hg (SD.reachable_inv h hs)
    (fun e => hne (by rw [SD.length, e]; rfl))
  have := SD.Inv.later h r3 ops hops
  rw [r2] at this
  simp only [hu]
  exact ⟨r1, this⟩

/-- C80: `sd.update(gen)` on an empty dict, with a generator of pairs that asks only `sd[k]`, `sd.get(k)`, `k in sd` and
`len(sd)`, and does not raise: `for k, v in gen: d[k] = v`, so the generator sees the pairs it has yielded. -/
theorem C80_dict_empty (hc : c.Orders lt eqv) (he : IsEquiv eqv) {s : SD κ ν c.State} (hs : SD.Reachable eqv c.api s)
    (h0 : SD.length s = 0) (g : SD.Arg κ ν) (hg : g.Calls fun op => op.isLookup = true)
    (hok : (DictSpec.assignFrom eqv (setOrder lt eqv) g []).1 = .ok ()) (ops : List (SDOp κ ν))
    (hops : ∀ op ∈ ops, op.Valid) :
    let O := setOrder lt eqv
    let upd := SD.updateFrom eqv c.api g s
    let spec := runHist (DictSpec.step eqv O) ops (DictSpec.assignFrom eqv O g []).2
    let real := runHist (SD.step eqv c.api) ops upd.2
    upd.1 = .ok () ∧ real.1 = spec.1 ∧ real.2.dict = spec.2 ∧ SD.iter c.api real.2 = DictSpec.sortedKeys O spec.2 := by
  obtain ⟨O, I, h, rfl⟩ := SD.good hc he
  have hd : s.dict = [] := List.length_eq_zero_iff.1 h0
  obtain ⟨f1, f2⟩ := SD.fill_spec (eqv := eqv) (setOrder O.lt eqv) c.api g hg s
  rw [hd] at f1 f2
  obtain ⟨r1, r2, r3⟩ := SD.updateFrom_empty h g (hg.mono fun op ho => by cases op <;> first | rfl | cases ho)
    (SD.reachable_inv h hs) hd
  rw [f1, hok] at r1 r3
  rw [f2] at r2
  have := SD.Inv.later h (r3 rfl) ops hops
  rw [r2] at this
  exact ⟨r1, this⟩

/-- C80: `sd.update(gen)` on an empty dict, with a generator of pairs that makes any queries (among them iteration, which
yields nothing before the end): if it returns, the dict is whole: the calls that follow are answered as by a plain dict. -/
theorem C80_dict_empty_whole (hc : c.Orders lt eqv) (he : IsEquiv eqv) {s : SD κ ν c.State}
    (hs : SD.Reachable eqv c.api s) (h0 : SD.length s = 0) (g : SD.Arg κ ν) (hg : g.Calls fun op => op.isQuery = true)
    (hok : (SD.updateFrom eqv c.api g s).1 = .ok ()) (ops : List (SDOp κ ν)) (hops : ∀ op ∈ ops, op.Valid) :
    let O := setOrder lt eqv
    let upd := SD.updateFrom eqv c.api g s
    let spec := runHist (DictSpec.step eqv O) ops upd.2.dict
    let real := runHist (SD.step eqv c.api) ops upd.2
    real.1 = spec.1 ∧ real.2.dict = spec.2 ∧ SD.iter c.api real.2 = DictSpec.sortedKeys O spec.2 := by
  obtain ⟨O, I, h, rfl⟩ := SD.good hc he
  have hd : s.dict = [] := List.length_eq_zero_iff.1 h0
  obtain ⟨r1, r2, r3⟩ := SD.updateFrom_empty h g hg (SD.reachable_inv h hs) hd
  exact SD.Inv.later h (r3 (r1.symm.trans hok)) ops hops

end Dicts

/-! ## Examples -/

namespace Demo

/-- `for _ in range(n): v = sl.pop(); yield v + 10; yield len(sl)` -/
def popGen : Nat → Gen (Op Int) (Out Int) Int
  | 0 => .done
  | n + 1 => .call (.pop (-1)) fun r =>
    match r with
    | .ok (.val v) => .yield (v + 10) (.call .len fun r =>
      match r with
      | .ok (.int n') => .yield n' (popGen n)
      | _ => .fail .typeError)
    | .ok _ => .done
    | .error e => .fail e

theorem popGen_valid (n : Nat) : (popGen n).Calls Op.Valid := by
  induction n with
  | zero => trivial
  | succ n ih =>
    refine ⟨trivial, fun r => ?_⟩
    dsimp only; split
    · refine ⟨trivial, fun r => ?_⟩
      dsimp only; split
      · exact ih
      · trivial
    · trivial
    · trivial

/-- `(x * x for x in sl)` -/
def squares : Gen (Op Int) (Out Int) Int := .call .iter fun r =>
  match r with
  | .ok (.vals xs) => .ofList (xs.map fun x => x * x)
  | _ => .fail .typeError

theorem squares_reads : squares.Calls fun op => op.isQuery = true ∧ op.Valid := by
  refine ⟨⟨rfl, trivial⟩, fun r => ?_⟩
  dsimp only; split
  · exact Gen.ofList_calls _
  · trivial

/-- `sl = SortedList([3, 1, 2, 5])` -/
def gen0 : St Int Int := (SL.update intEnv [3, 1, 2, 5] St.empty).2

theorem gen0_reachable : (SL.api intEnv).Reachable gen0 := .new (xs := some [3, 1, 2, 5]) (by rfl)

example := C80_list intEnv_lawful gen0_reachable [.update (popGen 2), .plain (.add 4), .concat (popGen 1), .update (popGen 9)]
  (by
    intro op ho
    simp only [List.mem_cons, List.not_mem_nil, or_false] at ho
    obtain rfl | rfl | rfl | rfl := ho
    · exact popGen_valid 2
    · trivial
    · exact popGen_valid 1
    · exact popGen_valid 9)

/-- `sl.update(gen)` pops 5 and 3, then adds 15, 3, 13, 2; `sl + gen` copies, then pops 15; the last generator pops
everything and then raises IndexError: the list stays empty. -/
example : (runHist ((SL.api intEnv).genStep (SL.api intEnv).step)
      [.update (popGen 2), .plain .iter, .plain (.add 4), .concat (popGen 1), .plain .iter, .update (popGen 9), .plain .iter]
      gen0).1 =
    [.ok .none, .ok (.vals [1, 2, 2, 3, 13, 15]), .ok .none, .ok (.vals [1, 2, 2, 3, 4, 6, 13, 15, 25]),
      .ok (.vals [1, 2, 2, 3, 4, 13]), .error .indexError, .ok (.vals [])] := by decide +kernel

example := C80_list_reads intEnv_lawful gen0_reachable squares squares_reads
example : Core.iter ((SL.api intEnv).updateFrom (SL.api intEnv).step squares gen0).2 = [1, 1, 2, 3, 4, 5, 9, 25] := by
  decide +kernel

/-- The same with the list sorted by `-x`: `for _ in range(n): v = skl.pop(); yield v + 10` and the keyed bisection. -/
def kpopGen : Gen (KOp Int Int) (Out Int) Int := .call (.op (.pop 0)) fun r =>
  match r with
  | .ok (.val v) => .yield (v + 10) (.call (.bisectKeyLeft (-2)) fun r =>
    match r with
    | .ok (.int n) => .yield n .done
    | _ => .fail .typeError)
  | _ => .done

theorem kpopGen_valid : kpopGen.Calls KOp.Valid := by
  refine ⟨trivial, fun r => ?_⟩
  dsimp only; split
  · refine ⟨trivial, fun r => ?_⟩
    dsimp only; split <;> trivial
  · trivial

def kgen0 : St Int Int := (SKL.update negEnv [3, 1, 2, 5] St.empty).2

theorem kgen0_reachable : SKL.Reachable negEnv kgen0 := .new (xs := some [3, 1, 2, 5]) (by rfl)

example := C80_key_list negEnv_lawful kgen0_reachable [.update kpopGen, .plain (.op (.add 4)), .concat kpopGen]
  (by
    intro op ho
    simp only [List.mem_cons, List.not_mem_nil, or_false] at ho
    obtain rfl | rfl | rfl := ho
    · exact kpopGen_valid
    · trivial
    · exact kpopGen_valid)
example : Core.iter ((SKL.api negEnv).updateFrom (SKL.kstep negEnv) kpopGen kgen0).2 = [15, 3, 2, 1, 1] := by decide +kernel

/-- `for v in (1, 7, 5): ss.discard(5); yield v` -/
def dropGen : List Int → SS.Arg Int
  | [] => .done
  | v :: vs => .call (.discard 5) fun _ => .yield v (dropGen vs)

theorem dropGen_valid (vs : List Int) : (dropGen vs).Calls SSOp.Valid := by
  induction vs with
  | nil => trivial
  | cons v vs ih => exact ⟨trivial, fun _ => ih⟩

/-- `ss = SortedSet([5, 1, 3])` -/
def genSet : SS { l : List Int // Distinct (equiv ilt) l } intClass.State :=
  { set := (iset false).ofList [5, 1, 3], list := (SL.update intEnv [5, 1, 3] St.empty).2 }

theorem genSet_reachable : SS.Reachable (iset false) intClass.api genSet := .new (xs := some [5, 1, 3]) (by rfl)

def genSetOps : List (SSGenOp Int) := [.update [.yield 5 .done, dropGen [7], dropGen [8]], .intersectionUpdate (dropGen [5, 8, 1]),
  .symmetricDifferenceUpdate (dropGen [1, 2]), .plain .iter, .differenceUpdate [dropGen [8, 9]]]

example := C80_set intClass_orders (iset_lawful false) ieq_decide ilt_total genSet_reachable genSetOps (by
  intro op ho
  simp only [genSetOps, List.mem_cons, List.not_mem_nil, or_false] at ho
  obtain rfl | rfl | rfl | rfl | rfl := ho
  · intro g hg
    simp only [List.mem_cons, List.not_mem_nil, or_false] at hg
    obtain rfl | rfl | rfl := hg
    · trivial
    · exact dropGen_valid [7]
    · exact dropGen_valid [8]
  · exact dropGen_valid _
  · exact dropGen_valid _
  · trivial
  · intro g hg
    simp only [List.mem_cons, List.not_mem_nil, or_false] at hg
    subst hg
    exact dropGen_valid _)

/-- The 5 that was yielded before `discard(5)` is added; a 5 that is yielded after it is not in the intersection. -/
example : (runHist (SS.genStep (iset false) intClass.api) genSetOps genSet).1 =
      [.ok .none, .ok .none, .ok .none, .ok (.vals [2, 8]), .ok .none] ∧
    SS.iter intClass.api (runHist (SS.genStep (iset false) intClass.api) genSetOps genSet).2 = [2] := by decide +kernel

/-- `for w in words: yield w, sd.get(w, 0) + 1` -/
def countGen : List Int → SD.Arg Int Int
  | [] => .done
  | w :: ws => .call (.get w) fun r =>
    match r with
    | .ok (.val n) => .yield (w, n + 1) (countGen ws)
    | _ => .yield (w, 1) (countGen ws)

theorem countGen_lookup (ws : List Int) : (countGen ws).Calls fun op => op.isLookup = true := by
  induction ws with
  | nil => trivial
  | cons w ws ih =>
    refine ⟨rfl, fun r => ?_⟩
    dsimp only; split <;> exact ih

def genEmpty : SD Int Int intClass.State := ⟨[], (St.empty : St Int Int)⟩

theorem genEmpty_reachable : SD.Reachable (equiv ilt) intClass.api genEmpty := .new (arg := .pairs [] none) rfl rfl

/-- `sd = SortedDict(); sd[9] = 0` -/
def genDict : SD Int Int intClass.State := (SD.step (equiv ilt) intClass.api (.setitem 9 0) genEmpty).2

theorem genDict_reachable : SD.Reachable (equiv ilt) intClass.api genDict := .step (.setitem 9 0) trivial genEmpty_reachable

example := C80_dict intClass_orders ieqv_equiv genDict_reachable (by decide +kernel) (countGen [5, 3, 5])
  ((countGen_lookup _).mono fun op ho => by cases op <;> first | trivial | cases ho) [.iter, .getitem 5] (by simp [SDOp.Valid])

/-- `del sd[9]; yield 5, len(sd)`: the dict is empty when the pairs are stored. -/
def delGen : SD.Arg Int Int := .call (.delitem 9) fun _ => .call .len fun r =>
  match r with
  | .ok (.int n) => .yield (5, n) .done
  | _ => .fail .typeError

example := C80_dict intClass_orders ieqv_equiv genDict_reachable (by decide +kernel) delGen
  ⟨trivial, fun _ => ⟨trivial, fun r => by dsimp only; split <;> trivial⟩⟩ [.iter, .getitem 5] (by simp [SDOp.Valid])
example : (runHist (SD.step (equiv ilt) intClass.api) [.items] (SD.updateFrom (equiv ilt) intClass.api delGen genDict).2).1 =
    [.ok (.items [(5, 0)])] := by decide +kernel

example := C80_dict_empty intClass_orders ieqv_equiv genEmpty_reachable rfl (countGen [5, 3, 5]) (countGen_lookup _)
  (by decide +kernel) [.iter, .getitem 5, .setitem 4 4, .items] (by simp [SDOp.Valid])

/-- `for k in (2, 1): yield k, len(list(sd))` -/
def spyGen : SD.Arg Int Int := .call .iter fun r =>
  match r with
  | .ok (.keys ks) => .yield (2, ks.length) (.call .iter fun r =>
    match r with
    | .ok (.keys ks) => .yield (1, ks.length) .done
    | _ => .fail .typeError)
  | _ => .fail .typeError

theorem spyGen_query : spyGen.Calls fun op => op.isQuery = true :=
  ⟨rfl, fun r => by
    dsimp only; split
    · refine ⟨rfl, fun r => ?_⟩
      dsimp only; split <;> trivial
    · trivial⟩

example := C80_dict_empty_whole intClass_orders ieqv_equiv genEmpty_reachable rfl spyGen spyGen_query (by decide +kernel)
  [.iter, .getitem 1] (by simp [SDOp.Valid])

/-- The generator sees no keys although it has yielded one. -/
example : (SD.updateFrom (equiv ilt) intClass.api spyGen genEmpty).2.dict = [(2, 0), (1, 0)] := by decide +kernel

end Demo

/-! ## What does not hold -/

open Demo in
/-- The words 5, 3, 5 are counted with `sd.update((w, sd.get(w, 0) + 1) for w in words)`.  With an empty dict the generator
sees what it has yielded: 5 is counted twice.  With a dict that has another key it does not: 5 is counted once. -/
theorem C80_dict_empty_differs :
    SD.get (equiv ilt) 5 (SD.updateFrom (equiv ilt) intClass.api (countGen [5, 3, 5]) genEmpty).2 = some 2 ∧
    SD.get (equiv ilt) 5 (SD.updateFrom (equiv ilt) intClass.api (countGen [5, 3, 5]) genDict).2 = some 1 := by
  decide +kernel

open Demo in
/-- A generator that says `sd[1] = 7` while it fills the empty dict `sd`: the key 1 is stored twice in the list of keys.
Iteration yields it twice, and the length is 2 although iteration yields 3 keys. -/
theorem C80_dict_empty_torn :
    let s := (SD.updateFrom (equiv ilt) intClass.api (.call (.setitem 1 7) fun _ => .yield (5, 0) .done) genEmpty).2
    SD.iter intClass.api s = [1, 1, 5] ∧ SD.length s = 2 := by
  decide +kernel

end Verif
