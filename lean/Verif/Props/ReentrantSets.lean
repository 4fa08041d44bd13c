import Verif.Proofs.ReentrantSetBulk
import Verif.Proofs.ReentrantDictBulk
import Verif.Props.Reentrant
import Verif.Props.Gen
/-!
# C85: comparisons and key functions that query the sorted set or dict they are called for

See `Verif/ClientSets.lean` for what such code is and for what it is told, and `Verif/Model/ReentrantSets.lean` for the calls.
-/

namespace Verif

section Sets
variable {α τ : Type} {c : ListClass α} {lt eqv : α → α → Bool} {S : SetOps τ α}

/-- Calls that do not rebuild the set, on a set whose comparisons and key function query it: results and contents are those of a plain
set.  The queries that they ask during a call are answered as after the call by the built-in set (`in`, `len`, `count`, comparisons,
`isdisjoint`, ..., `copy`, `&`, `-`, `^`), and as before it by the sorted list. -/
theorem C85_set_queried [DecidableEq α] (hc : c.Orders lt eqv) (hS : S.Lawful eqv) (heq : ∀ a b, eqv a b = decide (a = b))
    (htotal : ∀ a b, lt a b = false → lt b a = false → a = b) {s : SS τ c.State} (hs : SS.Reachable S c.api s)
    {C : c.Code (SSQuery α) (Out α)} {D : Nat} (hC : c.HonestSet C (setOrder lt eqv)) (hD : c.Quiet C D)
    (w : Seen (SSQuery α) (Out α)) (before : List (SSOp α)) (hb : ∀ op ∈ before, op.bulk = false ∧ op.Valid)
    (op : SSOp α) (ho : op.bulk = false) (hv : op.Valid) :
    let step := Reent.SS.step S c.api (Reent.SS.list S c C D 0)
    let start := runHist step before (s, w)
    let plain := runHist (SetSpec.step (setOrder lt eqv)) before (SS.iter c.api s)
    let call := step op start.2
    start.1 = plain.1 ∧
    call.1 = (SetSpec.step (setOrder lt eqv) op plain.2).1 ∧
    SS.iter c.api call.2.1 = (SetSpec.step (setOrder lt eqv) op plain.2).2 ∧
    ∃ new, call.2.2.answers = new ++ start.2.2.answers ∧
      ∀ e ∈ new, e.2 = SetSpec.during (setOrder lt eqv) op plain.2 e.1 := by
  obtain ⟨O, I, hl, rfl, hsm, hset, hcopy, -⟩ := hc.mimics
  have h : SS.Good S c.api O eqv I := ⟨hS, hl, hsm⟩
  have ht : SS.Total O eqv := ⟨heq, fun a b hab => by
    simp only [equiv, Bool.and_eq_true, Bool.not_eq_true'] at hab
    exact htotal a b hab.1 hab.2⟩
  have hsame : O.same = eqv := by funext a b; exact hsm a b
  have hstep : SetSpec.step (setOrder O.lt eqv) = SetSpec.step O := by
    funext op; exact (SetSpec.step_congr O rfl hsame op).symm
  have hdur : SetSpec.during (setOrder O.lt eqv) = SetSpec.during O := by
    funext op l q; unfold SetSpec.during; rw [hstep]
  have hC' : c.HonestSet C O := fun op l h1 h2 h3 => by rw [← hdur]; exact hC op l h1 h2 h3
  intro step start plain call
  have hp : plain = runHist (SetSpec.step O) before (SS.iter c.api s) := by rw [← hstep]
  rw [hstep, hdur, hp]
  obtain ⟨h1, h2, h3⟩ := Refines.hist (I := fun p : SS τ c.State × Seen (SSQuery α) (Out α) => SS.Inv S c.api I p.1)
    (abs := fun p => SS.iter c.api p.1) before (step := step) (spec := SetSpec.step O) (fun o hm p hp => by
      obtain ⟨h1, h2, h3, -⟩ := Reent.SS.call_ok h ht hset hcopy hC' hD o (hb o hm).1 (hb o hm).2 p hp
      exact ⟨h1, h2, h3⟩) (s := (s, w)) (SS.reachable_inv h hs)
  obtain ⟨c1, c2, -, c4⟩ := Reent.SS.call_ok h ht hset hcopy hC' hD op ho hv _ h3
  rw [h2] at c1 c2 c4
  exact ⟨h1, c1, c2, c4⟩

/-- If the comparisons and the key function are right whatever they are told, all calls, also those that rebuild the set, have the
results and leave the contents of a plain set, whatever is asked in between. -/
theorem C85_set_steadfast [DecidableEq α] (hc : c.Orders lt eqv) (hS : S.Lawful eqv) (heq : ∀ a b, eqv a b = decide (a = b))
    (htotal : ∀ a b, lt a b = false → lt b a = false → a = b) {s : SS τ c.State} (hs : SS.Reachable S c.api s)
    {C : c.Code (SSQuery α) (Out α)} {D : Nat} (hC : c.Steadfast C) (hD : c.Quiet C D)
    (w : Seen (SSQuery α) (Out α)) (calls : List (SSOp α)) (hv : ∀ op ∈ calls, op.Valid) :
    let run := runHist (Reent.SS.step S c.api (Reent.SS.list S c C D 0)) calls (s, w)
    let plain := runHist (SetSpec.step (setOrder lt eqv)) calls (SS.iter c.api s)
    run.1 = plain.1 ∧ SS.iter c.api run.2.1 = plain.2 ∧ (S.toList run.2.1.set).Perm plain.2 := by
  obtain ⟨O, I, hl, rfl, hsm, hset, -, hfirm⟩ := hc.mimics
  have h : SS.Good S c.api O eqv I := ⟨hS, hl, hsm⟩
  have ht : SS.Total O eqv := ⟨heq, fun a b hab => by
    simp only [equiv, Bool.and_eq_true, Bool.not_eq_true'] at hab
    exact htotal a b hab.1 hab.2⟩
  have hsame : O.same = eqv := by funext a b; exact hsm a b
  have hstep : SetSpec.step (setOrder O.lt eqv) = SetSpec.step O := by
    funext op; exact (SetSpec.step_congr O rfl hsame op).symm
  intro run plain
  have hp : plain = runHist (SetSpec.step O) calls (SS.iter c.api s) := by rw [← hstep]
  rw [hp]
  obtain ⟨h1, h2, h3⟩ := Refines.hist calls (fun o hm => Reent.SS.firm_refines h ht hset hfirm hC hD o (hv o hm)) (s := (s, w)) (SS.reachable_inv h hs)
  refine ⟨h1, h2, ?_⟩
  rw [← h2]
  exact h3.perm

end Sets

section Dicts
variable {κ ν : Type} {c : ListClass κ} {lt eqv : κ → κ → Bool}

/-- Calls that do not rebuild the dict, on a dict whose comparisons and key function query it: results and contents are those of a plain
dict.  `DictSpec.during` says how the queries are answered. -/
theorem C85_dict_queried (hc : c.Orders lt eqv) (he : IsEquiv eqv) {s : SD κ ν c.State} (hs : SD.Reachable eqv c.api s)
    {C : c.Code (SDQuery κ ν) (DOut κ ν)} {D : Nat} (hC : c.HonestDict C eqv (setOrder lt eqv)) (hD : c.Quiet C D)
    (w : Seen (SDQuery κ ν) (DOut κ ν)) (before : List (SDOp κ ν)) (hb : ∀ op ∈ before, op.bulk = false ∧ op.Valid)
    (op : SDOp κ ν) (ho : op.bulk = false) (hv : op.Valid) :
    let step := Reent.SD.step eqv c.api (Reent.SD.list eqv c C D 0)
    let start := runHist step before (s, w)
    let plain := runHist (DictSpec.step eqv (setOrder lt eqv)) before s.dict
    let call := step op start.2
    start.1 = plain.1 ∧
    call.1 = (DictSpec.step eqv (setOrder lt eqv) op plain.2).1 ∧
    call.2.1.dict = (DictSpec.step eqv (setOrder lt eqv) op plain.2).2 ∧
    SD.iter c.api call.2.1 = DictSpec.sortedKeys (setOrder lt eqv) call.2.1.dict ∧
    ∃ new, call.2.2.answers = new ++ start.2.2.answers ∧
      ∀ e ∈ new, e.2 = DictSpec.during eqv (setOrder lt eqv) op plain.2 e.1 := by
  obtain ⟨O, I, hl, rfl, hsm, hset, hcopy, -⟩ := hc.mimics
  have h : SD.Good c.api O eqv I := ⟨he, hl, hsm⟩
  have hsame : O.same = eqv := by funext a b; exact hsm a b
  have hstep : DictSpec.step eqv (setOrder O.lt eqv) = DictSpec.step (ν := ν) eqv O := by
    funext op; exact (DictSpec.step_congr O rfl hsame op).symm
  have hdur : DictSpec.during eqv (setOrder O.lt eqv) = DictSpec.during (ν := ν) eqv O := by
    funext op d q; unfold DictSpec.during; rw [hstep]; rfl
  have hC' : c.HonestDict C eqv O := fun op d h1 h2 => by rw [← hdur]; exact hC op d h1 h2
  intro step start plain call
  have hp : plain = runHist (DictSpec.step eqv O) before s.dict := by rw [← hstep]
  rw [hstep, hdur, hp]
  obtain ⟨h1, h2, h3⟩ := Refines.hist (I := fun p : SD κ ν c.State × Seen (SDQuery κ ν) (DOut κ ν) => SD.Inv c.api O eqv I p.1)
    (abs := fun p => p.1.dict) before (step := step) (spec := DictSpec.step eqv O) (fun o hm p hp => by
      obtain ⟨h1, h2, h3, -⟩ := Reent.SD.call_ok h hset hcopy hC' hD o (hb o hm).1 (hb o hm).2 p hp
      exact ⟨h1, h2, h3⟩) (s := (s, w)) (SD.reachable_inv h hs)
  obtain ⟨c1, c2, c3, c4⟩ := Reent.SD.call_ok h hset hcopy hC' hD op ho hv _ h3
  rw [h2] at c1 c2 c4
  exact ⟨h1, c1, c2, c3.iter, c4⟩

/-- If the comparisons and the key function are right whatever they are told, all calls, also those that rebuild the dict, have the
results and leave the contents of a plain dict, whatever is asked in between. -/
theorem C85_dict_steadfast (hc : c.Orders lt eqv) (he : IsEquiv eqv) {s : SD κ ν c.State} (hs : SD.Reachable eqv c.api s)
    {C : c.Code (SDQuery κ ν) (DOut κ ν)} {D : Nat} (hC : c.Steadfast C) (hD : c.Quiet C D)
    (w : Seen (SDQuery κ ν) (DOut κ ν)) (calls : List (SDOp κ ν)) (hv : ∀ op ∈ calls, op.Valid) :
    let run := runHist (Reent.SD.step eqv c.api (Reent.SD.list eqv c C D 0)) calls (s, w)
    let plain := runHist (DictSpec.step eqv (setOrder lt eqv)) calls s.dict
    run.1 = plain.1 ∧ run.2.1.dict = plain.2 ∧ SD.iter c.api run.2.1 = DictSpec.sortedKeys (setOrder lt eqv) plain.2 := by
  obtain ⟨O, I, hl, rfl, hsm, hset, -, hfirm⟩ := hc.mimics
  have h : SD.Good c.api O eqv I := ⟨he, hl, hsm⟩
  have hsame : O.same = eqv := by funext a b; exact hsm a b
  have hstep : DictSpec.step eqv (setOrder O.lt eqv) = DictSpec.step (ν := ν) eqv O := by
    funext op; exact (DictSpec.step_congr O rfl hsame op).symm
  intro run plain
  have hp : plain = runHist (DictSpec.step eqv O) calls s.dict := by rw [← hstep]
  rw [hp]
  obtain ⟨h1, h2, h3⟩ := Refines.hist calls (fun o hm => Reent.SD.firm_refines h hset hfirm hC hD o (hv o hm)) (s := (s, w)) (SD.reachable_inv h hs)
  exact ⟨h1, h2, by rw [← h2]; exact h3.iter⟩

end Dicts

namespace Demo

/-- A comparison that asks its set `b in ss`, `list(ss)` and `len(ss)`, and is wrong if it is told a negative length, and raises if
it is told no list or no length. -/
def nosySetCmp (d : Nat) (op : CmpOp) (a b : Int) : Client (SSQuery Int) (Out Int) Bool :=
  if d = 0 then .ask ⟨.contains b, rfl⟩ fun _ => .ask ⟨.iter, rfl⟩ fun l => .ask ⟨.len, rfl⟩ fun n =>
    match l, n with
    | .ok (.vals _), .ok (.int n) => .done (.ok (op.ofLt ilt a b && decide (0 ≤ n)))
    | _, _ => .done (.error .typeError)
  else .done (.ok (op.ofLt ilt a b))

def nosySet : intClass.Code (SSQuery Int) (Out Int) :=
  (⟨fun d op a b _ => nosySetCmp d op a b, fun xs => xs.zip xs.tail⟩ : ValueCode (SSQuery Int) (Out Int) Int)

theorem nosySet_honest : intClass.HonestSet nosySet (setOrder ilt (equiv ilt)) := by
  intro op l _ _ _ d o a b w
  show (nosySetCmp d o a b).says _ = _
  unfold nosySetCmp
  split
  · show Except.ok (o.ofLt ilt a b && decide ((0 : Int) ≤ (_ : List Int).length)) = _
    simp [intEnv]
  · rfl

theorem nosySet_quiet : intClass.Quiet nosySet 1 := fun _ _ _ _ => ⟨_, rfl⟩

/-- `ss.add(4); ss.discard(3); ss.add(0)` -/
def nosySetOps : List (SSOp Int) := [.add 4, .discard 3, .add 0]

theorem nosySetOps_valid : ∀ op ∈ nosySetOps, op.bulk = false ∧ op.Valid := by simp [nosySetOps, SSOp.bulk, SSOp.Valid]

example := C85_set_queried intClass_orders (iset_lawful false) ieq_decide ilt_total genSet_reachable nosySet_honest nosySet_quiet {}
  nosySetOps nosySetOps_valid (.add 2) rfl trivial

/-- During `ss.add(2)`, on {0, 1, 4, 5}: `len(ss)` is 5 already, but `list(ss)` is still `[0, 1, 4, 5]`. -/
example : ((Reent.SS.step (iset false) intClass.api (Reent.SS.list (iset false) intClass nosySet 1 0) (.add 2)
      (runHist (Reent.SS.step (iset false) intClass.api (Reent.SS.list (iset false) intClass nosySet 1 0)) nosySetOps (genSet, {})).2).2.2.answers.map
    Prod.snd).take 3 = [.ok (.int 5), .ok (.vals [0, 1, 4, 5]), .ok (.bool true)] := by decide +kernel

/-- A key function, `-v`, that asks its set `ss.bisect_left(v)` and `v in ss`, and raises if it is told that there is no such method. -/
def nosySetKey (d : Nat) (a : Int) : Client (SSQuery Int) (Out Int) Int :=
  if d < 2 then .ask ⟨.bisectLeft a, rfl⟩ fun _ => .ask ⟨.contains a, rfl⟩ fun b =>
    match b with
    | .ok (.bool _) => .done (.ok (-a))
    | _ => .done (.error .typeError)
  else .done (.ok (-a))

def nosyKeyedSet : negClass.Code (SSQuery Int) (Out Int) :=
  (⟨fun d a _ => nosySetKey d a, fun _ op a b _ => .done (.ok (op.ofLt ilt a b)), fun _ op a b _ => .done (.ok (op.ofLt ilt a b)),
    fun xs => xs.zip xs.tail⟩ : KeyCode (SSQuery Int) (Out Int) Int Int)

theorem nosyKeyedSet_honest : negClass.HonestSet nosyKeyedSet (setOrder (fun a b => ilt (-a) (-b)) (equiv ilt)) := by
  intro op l _ _ _
  refine ⟨fun d a w => ?_, fun _ _ _ _ _ => rfl, fun _ _ _ _ _ => rfl⟩
  show (nosySetKey d a).says _ = _
  unfold nosySetKey
  split <;> rfl

theorem nosyKeyedSet_quiet : negClass.Quiet nosyKeyedSet 2 := ⟨fun _ _ => ⟨_, rfl⟩, fun _ _ _ _ => ⟨_, rfl⟩, fun _ _ _ _ => ⟨_, rfl⟩⟩

/-- `SortedSet([3, 1, 5, 2], key=neg)` -/
def nosyKeyedStart : SS { l : List Int // Distinct (equiv ilt) l } negClass.State :=
  (SS.update (iset true) negClass.api [[3, 1, 5, 2]] ⟨(iset true).empty, (St.empty : St Int Int)⟩).2

theorem nosyKeyedStart_new : SS.new (iset true) negClass.api (some [3, 1, 5, 2]) = .ok nosyKeyedStart := by rfl

example := C85_set_queried negClass_orders (iset_lawful true) ieq_decide (fun a b h1 h2 => by simp [ilt] at h1 h2; omega)
  (.new nosyKeyedStart_new) nosyKeyedSet_honest nosyKeyedSet_quiet {} nosySetOps nosySetOps_valid (.add 6) rfl trivial

/-- During `ss.add(6)` the key function asks, for the value 6: `ss.bisect_left(6)` is 0, as before the call, and `6 in ss` is True already. -/
example : ((Reent.SS.step (iset true) negClass.api (Reent.SS.list (iset true) negClass nosyKeyedSet 2 0) (.add 6)
      (nosyKeyedStart, {})).2.2.answers.map
    Prod.snd).take 2 = [.ok (.bool true), .ok (.int 0)] := by decide +kernel

/-- A key comparison that asks its dict `b in sd`, `list(sd)`, `sd.get(b)` and `sd.peekitem(-1)`, and raises if `list(sd)` or `sd.get` does. -/
def nosyDictCmp (d : Nat) (op : CmpOp) (a b : Int) : Client (SDQuery Int Int) (DOut Int Int) Bool :=
  if d = 0 then .ask ⟨.contains b, rfl⟩ fun _ => .ask ⟨.iter, rfl⟩ fun l => .ask ⟨.get b, rfl⟩ fun g => .ask ⟨.peekitem (-1), rfl⟩ fun _ =>
    match l, g with
    | .ok (.keys _), .ok _ => .done (.ok (op.ofLt ilt a b))
    | _, _ => .done (.error .typeError)
  else .done (.ok (op.ofLt ilt a b))

def nosyDict : intClass.Code (SDQuery Int Int) (DOut Int Int) :=
  (⟨fun d op a b _ => nosyDictCmp d op a b, fun xs => xs.zip xs.tail⟩ : ValueCode (SDQuery Int Int) (DOut Int Int) Int)

theorem nosyDict_honest : intClass.HonestDict nosyDict (equiv ilt) (setOrder ilt (equiv ilt)) := by
  intro op l _ _ d o a b w
  show (nosyDictCmp d o a b).says _ = _
  unfold nosyDictCmp
  split
  · cases op <;> rfl
  · rfl

theorem nosyDict_quiet : intClass.Quiet nosyDict 1 := fun _ _ _ _ => ⟨_, rfl⟩

/-- `sd[4] = 40; sd.setdefault(0, 5); sd.pop(4); sd[9] = 90` -/
def nosyDictOps : List (SDOp Int Int) := [.setitem 4 40, .setdefault 0 5, .pop 4 none, .setitem 9 90]

theorem nosyDictOps_valid : ∀ op ∈ nosyDictOps, op.bulk = false ∧ op.Valid := by simp [nosyDictOps, SDOp.bulk, SDOp.Valid]

example := C85_dict_queried intClass_orders ieqv_equiv dict1_reachable nosyDict_honest nosyDict_quiet {} nosyDictOps nosyDictOps_valid
  (.delitem 71) rfl trivial

/-- During `del sd[k]`, where `k` is the greatest key: `sd.get(k)` is `None` already, `list(sd)` still ends in `k`, and `sd.peekitem(-1)` raises a KeyError. -/
example : ((Reent.SD.step (equiv ilt) intClass.api (Reent.SD.list (equiv ilt) intClass nosyDict 1 0) (.delitem 71)
      (runHist (Reent.SD.step (equiv ilt) intClass.api (Reent.SD.list (equiv ilt) intClass nosyDict 1 0)) nosyDictOps (dict1, {})).2).2.2.answers.map
    Prod.snd).take 4 =
      [.error .keyError, .ok .none, .ok (.keys [0, 7, 9, 25, 31, 40, 44, 52, 62, 71]), .ok (.bool false)] := by decide +kernel

/-- A comparison that asks its set `list(ss)`, `len(ss)`, `ss | [b]` and `b in ss`, and does not mind the answers. -/
def deafSetCmp (d : Nat) (op : CmpOp) (a b : Int) : Client (SSQuery Int) (Out Int) Bool :=
  if d = 0 then .ask ⟨.iter, rfl⟩ fun _ => .ask ⟨.len, rfl⟩ fun _ => .ask ⟨.union [[b]], rfl⟩ fun _ => .ask ⟨.contains b, rfl⟩ fun _ =>
    .done (.ok (op.ofLt ilt a b))
  else .done (.ok (op.ofLt ilt a b))

def deafSet : intClass.Code (SSQuery Int) (Out Int) :=
  (⟨fun d op a b _ => deafSetCmp d op a b, fun xs => xs.zip xs.tail⟩ : ValueCode (SSQuery Int) (Out Int) Int)

theorem deafSet_steadfast : intClass.Steadfast deafSet := by
  intro d op a b w
  show (deafSetCmp d op a b).Always _
  unfold deafSetCmp
  split
  · exact fun _ _ _ _ => rfl
  · rfl

theorem deafSet_quiet : intClass.Quiet deafSet 1 := fun _ _ _ _ => ⟨_, rfl⟩

/-- `ss.update([4, 2], [6]); del ss[::2]; ss.difference_update([5]); ss ^= {7, 8}; ss._reset(4); ss.intersection_update([3, 4, 8])` -/
def deafSetOps : List (SSOp Int) :=
  [.update [[4, 2], [6]], .delSlice ⟨none, none, some 2⟩, .differenceUpdate [[5]], .symmetricDifferenceUpdate [7, 8], .reset 4,
    .intersectionUpdate [[3, 4, 8]]]

theorem deafSetOps_valid : ∀ op ∈ deafSetOps, op.Valid := by simp [deafSetOps, SSOp.Valid]

example := C85_set_steadfast intClass_orders (iset_lawful false) ieq_decide ilt_total genSet_reachable deafSet_steadfast deafSet_quiet {}
  deafSetOps deafSetOps_valid

/-- In the middle of `ss.update([4, 2], [6])` the sorted list is empty, and the built-in set is as after the call. -/
example : ((Reent.SS.step (iset false) intClass.api (Reent.SS.list (iset false) intClass deafSet 1 0) (.update [[4, 2], [6]])
      (genSet, {})).2.2.answers.map Prod.snd).take 4 = [.ok (.bool true), .ok (.vals [6]), .ok (.int 6), .ok (.vals [])] := by decide +kernel

/-- A key comparison that asks its dict `list(sd)`, `len(sd)` and `sd.peekitem(0)`, and does not mind the answers. -/
def deafDictCmp (d : Nat) (op : CmpOp) (a b : Int) : Client (SDQuery Int Int) (DOut Int Int) Bool :=
  if d = 0 then .ask ⟨.iter, rfl⟩ fun _ => .ask ⟨.len, rfl⟩ fun _ => .ask ⟨.peekitem 0, rfl⟩ fun _ => .done (.ok (op.ofLt ilt a b))
  else .done (.ok (op.ofLt ilt a b))

def deafDict : intClass.Code (SDQuery Int Int) (DOut Int Int) :=
  (⟨fun d op a b _ => deafDictCmp d op a b, fun xs => xs.zip xs.tail⟩ : ValueCode (SDQuery Int Int) (DOut Int Int) Int)

theorem deafDict_steadfast : intClass.Steadfast deafDict := by
  intro d op a b w
  show (deafDictCmp d op a b).Always _
  unfold deafDictCmp
  split
  · exact fun _ _ _ => rfl
  · rfl

theorem deafDict_quiet : intClass.Quiet deafDict 1 := fun _ _ _ _ => ⟨_, rfl⟩

/-- `sd.update({3: 4, 99: 5}); del sd.keys()[1:3]; sd._reset(4); sd.update({100: 1})` -/
def deafDictOps : List (SDOp Int Int) :=
  [.update (.dict [(3, 4), (99, 5)]), .viewDelSlice ⟨some 1, some 3, none⟩, .reset 4, .update (.dict [(100, 1)])]

theorem deafDictOps_valid : ∀ op ∈ deafDictOps, op.Valid := by simp [deafDictOps, SDOp.Valid, DictArg.fail]

example := C85_dict_steadfast intClass_orders ieqv_equiv dict1_reachable deafDict_steadfast deafDict_quiet {} deafDictOps deafDictOps_valid

end Demo
end Verif
