import Verif.Proofs.ReentrantSKLBulk
import Verif.Props.Demo
/-!
# Comparisons and key functions that query the list they are called for (C76)

`C.env E D 0` is the SortedList whose values compare by the code `C` of the client, where the code may ask queries of the very list, and
the comparisons that answer these queries may ask again, up to depth `D`.  `SL.Clients.Honest` says that this code compares as `E` if its queries are
answered as by a plain sorted list; `SL.Clients.Steadfast` says that it does so whatever the answers are.  `w.answers` are the queries
that were asked, with the answers that the client got.
-/

namespace Verif
variable {α κ : Type}

/-! ## SortedList -/

section
variable {E : Env α} {lt : α → α → Bool} {C : SL.Clients α} {D : Nat} {s : St α α}

/-- Calls that do not rebuild the list, on a list whose comparisons query it: results and contents are those of a plain list, and so are all answers
to the queries of the comparisons, which are about the contents before the call. -/
theorem C76_list_queried (hE : E.Lawful lt) (hC : C.Honest (Spec.Order.ofValues lt) E.cmp D) (hs : (SL.api E).Reachable s)
    (w : Seen (Query α) (Out α)) (before : List (Op α)) (hb : ∀ op ∈ before, op.bulk = false ∧ op.Valid) (op : Op α) (ho : op.bulk = false)
    (hv : op.Valid) :
    let start := runHist (Reent.SL.step (C.env E D 0)) before (s, w)
    let plain := runHist (Spec.step (Spec.Order.ofValues lt)) before (Core.iter s)
    let call := Reent.SL.step (C.env E D 0) op start.2
    start.1 = plain.1 ∧
    call.1 = (Spec.step (Spec.Order.ofValues lt) op plain.2).1 ∧
    Core.iter call.2.1 = (Spec.step (Spec.Order.ofValues lt) op plain.2).2 ∧
    ∃ new, call.2.2.answers = new ++ start.2.2.answers ∧
      ∀ e ∈ new, e.2 = (Spec.step (Spec.Order.ofValues lt) e.1.1 plain.2).1 := by
  have h := Refines.hist (I := fun p : St α α × Seen (Query α) (Out α) => Inv id lt false p.1) (abs := fun p => Core.iter p.1) before
    (step := Reent.SL.step (C.env E D 0)) (spec := Spec.step (Spec.Order.ofValues lt)) (fun o hm p hp => by
      obtain ⟨h1, h2, h3, -⟩ := Reent.SL.call_ok hE hC o (hb o hm).1 (hb o hm).2 p hp
      exact ⟨h1, h2, h3⟩) (s := (s, w)) ((SL.api_lawful hE).reachable hs)
  obtain ⟨h1, h2, h3⟩ := h
  obtain ⟨c1, c2, -, c4⟩ := Reent.SL.call_ok hE hC op ho hv _ h3
  rw [h2] at c1 c2 c4
  exact ⟨h1, c1, c2, c4⟩

/-- All calls, on a list whose comparisons query it and are right whatever they are told: results and contents are those of a plain
list. -/
theorem C76_list_steadfast (hE : E.Lawful lt) (hC : C.Steadfast E.cmp D) (hs : (SL.api E).Reachable s)
    (w : Seen (Query α) (Out α)) (ops : List (Op α)) (hv : ∀ op ∈ ops, op.Valid) :
    (runHist (Reent.SL.step (C.env E D 0)) ops (s, w)).1 = (runHist (Spec.step (Spec.Order.ofValues lt)) ops (Core.iter s)).1 ∧
    Core.iter (runHist (Reent.SL.step (C.env E D 0)) ops (s, w)).2.1 = (runHist (Spec.step (Spec.Order.ofValues lt)) ops (Core.iter s)).2 := by
  have h := Refines.hist (I := fun p : St α α × Seen (Query α) (Out α) => Inv id lt false p.1) (abs := fun p => Core.iter p.1) ops
    (fun o hm => Reent.SL.step_rrefines hE hC o (hv o hm)) (s := (s, w)) ((SL.api_lawful hE).reachable hs)
  exact ⟨h.1, h.2.1⟩

/-- After any calls, on such a list: the queries that the comparisons ask during a call that does not rebuild the list are answered
as by a plain list, with the contents before the call. -/
theorem C76_list_steadfast_queried (hE : E.Lawful lt) (hC : C.Steadfast E.cmp D) (hs : (SL.api E).Reachable s)
    (w : Seen (Query α) (Out α)) (before : List (Op α)) (hb : ∀ op ∈ before, op.Valid) (op : Op α) (ho : op.bulk = false) (hv : op.Valid) :
    let start := runHist (Reent.SL.step (C.env E D 0)) before (s, w)
    let plain := runHist (Spec.step (Spec.Order.ofValues lt)) before (Core.iter s)
    ∃ new, (Reent.SL.step (C.env E D 0) op start.2).2.2.answers = new ++ start.2.2.answers ∧
      ∀ e ∈ new, e.2 = (Spec.step (Spec.Order.ofValues lt) e.1.1 plain.2).1 := by
  have h := Refines.hist (I := fun p : St α α × Seen (Query α) (Out α) => Inv id lt false p.1) (abs := fun p => Core.iter p.1) before
    (fun o hm => Reent.SL.step_rrefines hE hC o (hb o hm)) (s := (s, w)) ((SL.api_lawful hE).reachable hs)
  obtain ⟨-, h2, h3⟩ := h
  obtain ⟨-, -, -, c4⟩ := Reent.SL.call_ok hE (Reent.SL.Steadfast.honest hC _) op ho hv _ h3
  rw [h2] at c4
  exact c4

end

/-! ## SortedKeyList -/

section
variable {K : KEnv α κ} {key : α → κ} {klt : κ → κ → Bool} {veq : α → α → Bool} {C : SKL.Clients α κ} {D : Nat} {s : St α κ}

/-- As `C76_list_queried`, where the key function, too, may query the list. -/
theorem C76_key_list_queried (hK : K.Lawful key klt veq)
    (hC : C.Honest key klt (Spec.Order.ofKey key klt veq K.vcmp) K.key K.kcmp K.vcmp D) (hs : SKL.Reachable K s)
    (w : Seen (KQuery α κ) (Out α)) (before : List (KOp α κ)) (hb : ∀ op ∈ before, op.bulk = false ∧ op.Valid) (op : KOp α κ)
    (ho : op.bulk = false) (hv : op.Valid) :
    let start := runHist (Reent.SKL.kstep (C.env K D 0)) before (s, w)
    let plain := runHist (Spec.kstep key klt (Spec.Order.ofKey key klt veq K.vcmp)) before (Core.iter s)
    let call := Reent.SKL.kstep (C.env K D 0) op start.2
    start.1 = plain.1 ∧
    call.1 = (Spec.kstep key klt (Spec.Order.ofKey key klt veq K.vcmp) op plain.2).1 ∧
    Core.iter call.2.1 = (Spec.kstep key klt (Spec.Order.ofKey key klt veq K.vcmp) op plain.2).2 ∧
    ∃ new, call.2.2.answers = new ++ start.2.2.answers ∧
      ∀ e ∈ new, e.2 = (Spec.kstep key klt (Spec.Order.ofKey key klt veq K.vcmp) e.1.1 plain.2).1 := by
  have h := Refines.hist (I := fun p : St α κ × Seen (KQuery α κ) (Out α) => Inv key klt true p.1) (abs := fun p => Core.iter p.1) before
    (step := Reent.SKL.kstep (C.env K D 0)) (spec := Spec.kstep key klt (Spec.Order.ofKey key klt veq K.vcmp)) (fun o hm p hp => by
      obtain ⟨h1, h2, h3, -⟩ := Reent.SKL.call_ok hK hC o (hb o hm).1 (hb o hm).2 p hp
      exact ⟨h1, h2, h3⟩) (s := (s, w)) (SKL.reachable_inv hK hs)
  obtain ⟨h1, h2, h3⟩ := h
  obtain ⟨c1, c2, -, c4⟩ := Reent.SKL.call_ok hK hC op ho hv _ h3
  rw [h2] at c1 c2 c4
  exact ⟨h1, c1, c2, c4⟩

/-- As `C76_list_steadfast`. -/
theorem C76_key_list_steadfast (hK : K.Lawful key klt veq) (hC : C.Steadfast K.key K.kcmp K.vcmp D) (hs : SKL.Reachable K s)
    (w : Seen (KQuery α κ) (Out α)) (ops : List (KOp α κ)) (hv : ∀ op ∈ ops, op.Valid) :
    (runHist (Reent.SKL.kstep (C.env K D 0)) ops (s, w)).1 =
      (runHist (Spec.kstep key klt (Spec.Order.ofKey key klt veq K.vcmp)) ops (Core.iter s)).1 ∧
    Core.iter (runHist (Reent.SKL.kstep (C.env K D 0)) ops (s, w)).2.1 =
      (runHist (Spec.kstep key klt (Spec.Order.ofKey key klt veq K.vcmp)) ops (Core.iter s)).2 := by
  have h := Refines.hist (I := fun p : St α κ × Seen (KQuery α κ) (Out α) => Inv key klt true p.1) (abs := fun p => Core.iter p.1) ops
    (fun o hm => Reent.SKL.kstep_rrefines hK hC o (hv o hm)) (s := (s, w)) (SKL.reachable_inv hK hs)
  exact ⟨h.1, h.2.1⟩

/-- As `C76_list_steadfast_queried`. -/
theorem C76_key_list_steadfast_queried (hK : K.Lawful key klt veq) (hC : C.Steadfast K.key K.kcmp K.vcmp D) (hs : SKL.Reachable K s)
    (w : Seen (KQuery α κ) (Out α)) (before : List (KOp α κ)) (hb : ∀ op ∈ before, op.Valid) (op : KOp α κ) (ho : op.bulk = false)
    (hv : op.Valid) :
    let start := runHist (Reent.SKL.kstep (C.env K D 0)) before (s, w)
    let plain := runHist (Spec.kstep key klt (Spec.Order.ofKey key klt veq K.vcmp)) before (Core.iter s)
    ∃ new, (Reent.SKL.kstep (C.env K D 0) op start.2).2.2.answers = new ++ start.2.2.answers ∧
      ∀ e ∈ new, e.2 = (Spec.kstep key klt (Spec.Order.ofKey key klt veq K.vcmp) e.1.1 plain.2).1 := by
  have h := Refines.hist (I := fun p : St α κ × Seen (KQuery α κ) (Out α) => Inv key klt true p.1) (abs := fun p => Core.iter p.1) before
    (fun o hm => Reent.SKL.kstep_rrefines hK hC o (hb o hm)) (s := (s, w)) (SKL.reachable_inv hK hs)
  obtain ⟨-, h2, h3⟩ := h
  obtain ⟨-, -, -, c4⟩ := Reent.SKL.call_ok hK (Reent.SKL.Steadfast.honest hC _ _ _) op ho hv _ h3
  rw [h2] at c4
  exact c4

end

/-! ## Concrete cases -/

namespace Demo

/-- A comparison that asks `b in sl` and `len(sl)` of the list when it is called from outside, and raises if the length it is told is not a number. -/
def nosyCmp (d : Nat) (op : CmpOp) (a b : Int) : Client (Query Int) (Out Int) Bool :=
  if d = 0 then .ask ⟨.contains b, rfl⟩ fun _ => .ask ⟨.len, rfl⟩ fun r =>
    match r with
    | .ok (.int _) => .done (.ok (op.ofLt ilt a b))
    | _ => .done (.error .typeError)
  else .done (.ok (op.ofLt ilt a b))

def nosy : SL.Clients Int where
  cmp d op a b _ := nosyCmp d op a b
  pairs xs := xs.zip xs.tail

theorem nosy_honest : nosy.Honest (Spec.Order.ofValues ilt) intEnv.cmp 1 where
  cmp d op a b w l hl := by
    show (nosyCmp d op a b).says _ = _
    unfold nosyCmp
    split <;> rfl
  quiet op a b w := ⟨_, rfl⟩

/-- `sl.add(4); sl.discard(7); sl.add(6)` -/
def nosyOps : List (Op Int) := [.add 4, .discard 7, .add 6]

theorem nosyOps_valid : ∀ op ∈ nosyOps, op.bulk = false ∧ op.Valid := by simp [nosyOps, Op.bulk, Op.Valid]

example := C76_list_queried intEnv_lawful nosy_honest sl_reachable {} nosyOps nosyOps_valid (.bisectLeft 5) rfl trivial

/-- Each comparison has asked two queries: the last one of them is `len(sl)`, which was 9. -/
example : (Reent.SL.step (nosy.env intEnv 1 0) (.bisectLeft 5) (runHist (Reent.SL.step (nosy.env intEnv 1 0)) nosyOps (sl, {})).2).1 =
      .ok (.int 5) ∧
    ((Reent.SL.step (nosy.env intEnv 1 0) (.bisectLeft 5) (runHist (Reent.SL.step (nosy.env intEnv 1 0)) nosyOps (sl, {})).2).2.2.answers.map
      Prod.snd).take 2 = [.ok (.int 9), .ok (.bool true)] := by decide +kernel

/-- A comparison that asks `list(sl)` and `len(sl)` and does not care about the answers. -/
def idleCmp (d : Nat) (op : CmpOp) (a b : Int) : Client (Query Int) (Out Int) Bool :=
  if d = 0 then .ask ⟨.iter, rfl⟩ fun _ => .ask ⟨.len, rfl⟩ fun _ => .done (.ok (op.ofLt ilt a b))
  else .done (.ok (op.ofLt ilt a b))

def idle : SL.Clients Int where
  cmp d op a b _ := idleCmp d op a b
  pairs xs := xs.zip xs.tail

theorem idle_steadfast : idle.Steadfast intEnv.cmp 1 where
  cmp d op a b w := by
    show (idleCmp d op a b).Always _
    unfold idleCmp
    split
    · exact fun _ _ => rfl
    · rfl
  quiet op a b w := ⟨_, rfl⟩

/-- `sl.update([2, 6]); sl += range(20); sl *= 2; del sl[3:30]; sl._reset(2); sl.add(4)` -/
def idleOps : List (Op Int) :=
  [.update [2, 6], .iadd [0, 1, 2, 3, 4, 5, 6, 7, 8, 9], .imul 2, .delSlice ⟨some 3, some 30, none⟩, .reset 2, .add 4]

theorem idleOps_valid : ∀ op ∈ idleOps, op.Valid := by simp [idleOps, Op.Valid]

example := C76_list_steadfast intEnv_lawful idle_steadfast sl_reachable {} idleOps idleOps_valid
example := C76_list_steadfast_queried intEnv_lawful idle_steadfast sl_reachable {} idleOps idleOps_valid (.remove 8) rfl trivial

/-- A key function that asks `sl.bisect_key_left(3)` and `v in sl`; comparisons of keys that ask `sl[0]`. -/
def nosyKey (d : Nat) (a : Int) : Client (KQuery Int Int) (Out Int) Int :=
  if d = 0 then .ask ⟨.bisectKeyLeft 3, rfl⟩ fun _ => .ask ⟨.op (.contains a), rfl⟩ fun r =>
    match r with
    | .ok (.bool _) => .done (.ok (a / 10))
    | _ => .done (.error .typeError)
  else .done (.ok (a / 10))

def nosyKcmp (d : Nat) (op : CmpOp) (a b : Int) : Client (KQuery Int Int) (Out Int) Bool :=
  if d = 0 then .ask ⟨.op (.getInt 0), rfl⟩ fun _ => .done (.ok (op.ofLt ilt a b)) else .done (.ok (op.ofLt ilt a b))

def nosyK : SKL.Clients Int Int where
  key d a _ := nosyKey d a
  kcmp d op a b _ := nosyKcmp d op a b
  vcmp _ op a b _ := .done (.ok (op.ofLt ilt a b))
  pairs ks := ks.zip ks.tail

theorem nosyK_honest : nosyK.Honest (fun a => a / 10) ilt (Spec.Order.ofKey (fun a => a / 10) ilt (equiv ilt) tensEnv.vcmp)
    tensEnv.key tensEnv.kcmp tensEnv.vcmp 1 where
  of_key d a w l hl := by
    show (nosyKey d a).says _ = _
    unfold nosyKey
    split <;> rfl
  of_kcmp d op a b w l hl := by
    show (nosyKcmp d op a b).says _ = _
    unfold nosyKcmp
    split <;> rfl
  of_vcmp d op a b w l hl := rfl
  quiet_key a w := ⟨_, rfl⟩
  quiet_kcmp op a b w := ⟨_, rfl⟩
  quiet_vcmp op a b w := ⟨_, rfl⟩

example := C76_key_list_queried tensEnv_lawful nosyK_honest skl_reachable {} [.op (.add 36), .op (.discard 31)]
  (by simp [KOp.bulk, Op.bulk, KOp.Valid, Op.Valid]) (.op (.count 31)) rfl trivial

/-- A key function that asks `list(sl)` and does not care about the answer. -/
def idleKey (d : Nat) (a : Int) : Client (KQuery Int Int) (Out Int) Int :=
  if d = 0 then .ask ⟨.op .iter, rfl⟩ fun _ => .done (.ok (a / 10)) else .done (.ok (a / 10))

def idleK : SKL.Clients Int Int where
  key d a _ := idleKey d a
  kcmp d op a b _ := nosyKcmp d op a b
  vcmp _ op a b _ := .done (.ok (op.ofLt ilt a b))
  pairs ks := ks.zip ks.tail

theorem idleK_steadfast : idleK.Steadfast tensEnv.key tensEnv.kcmp tensEnv.vcmp 1 where
  of_key d a w := by
    show (idleKey d a).Always _
    unfold idleKey
    split
    · exact fun _ => rfl
    · rfl
  of_kcmp d op a b w := by
    show (nosyKcmp d op a b).Always _
    unfold nosyKcmp
    split
    · exact fun _ => rfl
    · rfl
  of_vcmp d op a b w := rfl
  quiet_key a w := ⟨_, rfl⟩
  quiet_kcmp op a b w := ⟨_, rfl⟩
  quiet_vcmp op a b w := ⟨_, rfl⟩

def idleKOps : List (KOp Int Int) := [.op (.update [25, 61]), .op (.imul 2), .op (.delSlice ⟨some 3, some 15, none⟩), .op (.reset 2)]

theorem idleKOps_valid : ∀ op ∈ idleKOps, op.Valid := by simp [idleKOps, KOp.Valid, Op.Valid]

example := C76_key_list_steadfast tensEnv_lawful idleK_steadfast skl_reachable {} idleKOps idleKOps_valid
example := C76_key_list_steadfast_queried tensEnv_lawful idleK_steadfast skl_reachable {} idleKOps idleKOps_valid (.op (.remove 35)) rfl trivial

end Demo

/-- `SortedList([5])` -/
def Demo.five : St Int Int := (SL.update Demo.intEnv [5] St.empty).2

/-- Calls that rebuild the list show it half-built to the comparisons they make: on `sl = SortedList([5])`, `sl.update([3])` shows `[5, 3]`,
and `sl *= 2` shows an empty list.  The list contains neither before the call or after it. -/
theorem C76_rebuilding_shows :
    let update := Reent.SL.step (Demo.idle.env Demo.intEnv 1 0) (.update [3]) (Demo.five, {})
    let imul := Reent.SL.step (Demo.idle.env Demo.intEnv 1 0) (.imul 2) (Demo.five, {})
    (SL.api Demo.intEnv).Reachable Demo.five ∧ Core.iter Demo.five = [5] ∧
    (update.1 = .ok .none ∧ Core.iter update.2.1 = [3, 5] ∧ ∃ e ∈ update.2.2.answers, e.1.1 = .iter ∧ e.2 = .ok (.vals [5, 3])) ∧
    imul.1 = .ok .none ∧ Core.iter imul.2.1 = [5, 5] ∧ ∃ e ∈ imul.2.2.answers, e.1.1 = .iter ∧ e.2 = .ok (.vals []) := by
  refine ⟨.new (xs := some [5]) rfl, rfl, ⟨rfl, rfl, (⟨.iter, rfl⟩, .ok (.vals [5, 3])), ?_, rfl, rfl⟩,
    rfl, rfl, (⟨.iter, rfl⟩, .ok (.vals [])), ?_, rfl, rfl⟩
  · exact List.mem_of_getElem? (i := 1) rfl
  · exact List.mem_of_getElem? (i := 1) rfl

end Verif
