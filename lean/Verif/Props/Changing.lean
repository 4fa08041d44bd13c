import Verif.Proofs.Restored
import Verif.Props.Recover
import Verif.Props.DemoWild
/-!
# C79: values that change while they are stored

A sorted list holds references to the client's objects; nothing stops the client from modifying an object that is stored, so
that it compares differently from then on.  While the contents are out of order the methods may answer nonsense.  But the
methods keep nothing about the order except the order itself: if the contents are in order when a method is called, by the
comparisons of that moment, the answers are those of the plain sorted list, whatever happened before.

In the model the values are the objects, and a modification is a change of the environment between two calls.
-/

namespace Verif

section Lists
variable {α κ : Type}

/-- C79: whatever the comparisons said in the calls before (they may have raised, contradicted each other, and changed from
call to call), if the contents are in order by the present comparisons then all calls that follow answer as the plain sorted
list with these contents does. -/
theorem C79_list {E : Env α} {lt : α → α → Bool} (hE : E.Lawful lt) {s : St α α} (hs : SL.Wild s)
    (hsorted : Sorted lt (Core.iter s)) (ops : List (Op α)) (hops : ∀ op ∈ ops, op.Valid) :
    let spec := runHist (Spec.step (Spec.Order.ofValues lt)) ops (Core.iter s)
    let real := runHist (SL.api E).step ops s
    real.1 = spec.1 ∧ Core.iter real.2 = spec.2 := by
  have hi : Inv id lt false s := Restored.ordered (SL.wild_keeps hs) hsorted
  obtain ⟨h1, h2, _⟩ := (SL.api_lawful hE).hist ops hops hi
  exact ⟨h1, h2⟩

/-- C79 for a SortedKeyList: the same, if the keys that were stored are the keys the values have now. -/
theorem C79_key_list {K : KEnv α κ} {key : α → κ} {klt : κ → κ → Bool} {veq : α → α → Bool} (hK : K.Lawful key klt veq)
    {s : St α κ} (hs : SKL.Keyed key s) (hsorted : Sorted (fun a b => klt (key a) (key b)) (Core.iter s))
    (ops : List (KOp α κ)) (hops : ∀ op ∈ ops, op.Valid) :
    let spec := runHist (Spec.kstep key klt (Spec.Order.ofKey key klt veq K.vcmp)) ops (Core.iter s)
    let real := runHist (SKL.kstep K) ops s
    real.1 = spec.1 ∧ Core.iter real.2 = spec.2 := by
  have hi : Inv key klt true s := Restored.ordered (SKL.keyed_keeps hs) hsorted
  obtain ⟨h1, h2, _⟩ := Refines.hist ops (fun op ho => SKL.kstep_refines hK op (hops op ho)) hi
  exact ⟨h1, h2⟩

theorem Restored.keyless {K K' : KEnv α κ} (hlt : K'.kcmp = K.kcmp) (hlog : K'.ilog2 = K.ilog2) (op : KOp α κ)
    (hop : op.keyless = true) : SKL.kstep K' op = SKL.kstep K op := by
  obtain ⟨k, kc, vc, so, lg⟩ := K
  obtain ⟨k', kc', vc', so', lg'⟩ := K'
  cases hlt; cases hlog
  cases op with
  | op o =>
    cases o with
    | getInt i => rfl
    | getSlice sl => rfl
    | delInt i => rfl
    | pop i => rfl
    | islice i j r => rfl
    | iter => rfl
    | reversed => rfl
    | len => rfl
    | clear => rfl
    | unsupported u => rfl
    | _ => cases hop
  | bisectKeyLeft k => rfl
  | bisectKeyRight k => rfl
  | irangeKey lo hi a b r => rfl

/-- C79: a SortedKeyList goes by the keys the values had when they were stored.  If the key function `K'` of today gives other
keys, but keys compare as before, the calls by position and by key answer as if it did not. -/
theorem C79_key_list_stale {K K' : KEnv α κ} {key : α → κ} {klt : κ → κ → Bool} {veq : α → α → Bool}
    (hK : K.Lawful key klt veq) (hlt : K'.kcmp = K.kcmp) (hlog : K'.ilog2 = K.ilog2) {s : St α κ} (hs : SKL.Reachable K s)
    (ops : List (KOp α κ)) (hops : ∀ op ∈ ops, op.Valid ∧ op.keyless = true) :
    let spec := runHist (Spec.kstep key klt (Spec.Order.ofKey key klt veq K.vcmp)) ops (Core.iter s)
    let real := runHist (SKL.kstep K') ops s
    real.1 = spec.1 ∧ Core.iter real.2 = spec.2 := by
  have hi : Inv key klt true s := SKL.reachable_inv hK hs
  obtain ⟨h1, h2, _⟩ := Refines.hist ops (fun op ho => by
    have := SKL.kstep_refines hK op (hops op ho).1
    rwa [← Restored.keyless hlt hlog op (hops op ho).2] at this) hi
  exact ⟨h1, h2⟩

/-- C79: and a search for a value goes by the key the value has today, among the keys of the time of storing. -/
theorem C79_key_list_stale_search {K K' : KEnv α κ} {key : α → κ} {klt : κ → κ → Bool} {veq : α → α → Bool}
    (hK : K.Lawful key klt veq) (hlt : K'.kcmp = K.kcmp) (hlog : K'.ilog2 = K.ilog2) {s : St α κ} (hs : SKL.Reachable K s)
    {v : α} {k : κ} (hk : K'.key v = .ok k) :
    let left := SKL.kstep K' (.op (.bisectLeft v)) s
    let right := SKL.kstep K' (.op (.bisectRight v)) s
    left.1 = .ok (.int ((Core.iter s).countP fun x => klt (key x) k : Nat)) ∧ Core.iter left.2 = Core.iter s ∧
    right.1 = .ok (.int ((Core.iter s).countP fun x => !klt k (key x) : Nat)) ∧ Core.iter right.2 = Core.iter s := by
  have hi : Inv key klt true s := SKL.reachable_inv hK hs
  have h1 : SKL.kstep K' (.op (.bisectLeft v)) s = SKL.kstep K (.bisectKeyLeft k) s := by
    rw [← Restored.keyless hlt hlog (.bisectKeyLeft k) rfl]
    simp only [SKL.kstep, ListAPI.step, SKL.api, Spec.out, SKL.bisect_left, hk]
    rfl
  have h2 : SKL.kstep K' (.op (.bisectRight v)) s = SKL.kstep K (.bisectKeyRight k) s := by
    rw [← Restored.keyless hlt hlog (.bisectKeyRight k) rfl]
    simp only [SKL.kstep, ListAPI.step, SKL.api, Spec.out, SKL.bisect_right, hk]
    rfl
  obtain ⟨a1, a2, _⟩ := SKL.kstep_refines hK (.bisectKeyLeft k) trivial s hi
  obtain ⟨b1, b2, _⟩ := SKL.kstep_refines hK (.bisectKeyRight k) trivial s hi
  intro left right
  simp only [left, right, h1, h2]
  exact ⟨a1, a2, b1, b2⟩

/-- C79: `sl *= 1` puts the contents of any SortedList back in order, values that are equivalent keeping their relative order,
and the calls that follow answer as the plain sorted list with these contents does. -/
theorem C79_list_resort {E : Env α} {lt : α → α → Bool} (hE : E.Lawful lt) {s : St α α} (hs : (ListClass.plain E).Ever s) :
    ∃ s', (SL.api E).step (.imul 1) s = (.ok .none, s') ∧ IsStableSort lt (Core.iter s) (Core.iter s') ∧
      ∀ ops : List (Op α), (∀ op ∈ ops, op.Valid) →
        let spec := runHist (Spec.step (Spec.Order.ofValues lt)) ops (Core.iter s')
        let real := runHist (SL.api E).step ops s'
        real.1 = spec.1 ∧ Core.iter real.2 = spec.2 := by
  obtain ⟨s1, e1, h1, h0⟩ := SL.clear_inv lt (s := s) hs.load_pos
  obtain ⟨s2, e2, h2, h3⟩ := ((SL.api_lawful hE).update (repeatList (Core.iter s) 1)).eq_of h1 rfl
  have e : (SL.api E).imul 1 s = (.ok (), s2) := by
    show (do (SL.methods E).clear; (SL.methods E).update (repeatList (Core.iter s) 1)) s = _
    rw [Py.bind_ok (m := (SL.methods E).clear) e1]; exact e2
  refine ⟨s2, ?_, ?_, fun ops hops => ?_⟩
  · simp only [ListAPI.step, Spec.out, e]
  · have hr : repeatList (Core.iter s) 1 = Core.iter s := by simp [repeatList]
    rw [show Core.iter s2 = _ from h2, show (SL.api E).iter s1 = [] from h0, hr]
    have := Spec.insertAll_isStableSort (O := Spec.Order.ofValues lt) hE.order Spec.sorted_nil (Core.iter s)
    simp only [List.nil_append] at this
    exact this
  · obtain ⟨g1, g2, _⟩ := (SL.api_lawful hE).hist ops hops h3
    exact ⟨g1, g2⟩

/-- C79 for a SortedKeyList: `sl *= 1` computes all keys anew and sorts by them. -/
theorem C79_key_list_resort {K : KEnv α κ} {key : α → κ} {klt : κ → κ → Bool} {veq : α → α → Bool} (hK : K.Lawful key klt veq)
    {s : St α κ} (hs : (ListClass.keyed K).Ever s) :
    ∃ s', SKL.kstep K (.op (.imul 1)) s = (.ok .none, s') ∧
      IsStableSort (fun a b => klt (key a) (key b)) (Core.iter s) (Core.iter s') ∧
      ∀ ops : List (KOp α κ), (∀ op ∈ ops, op.Valid) →
        let spec := runHist (Spec.kstep key klt (Spec.Order.ofKey key klt veq K.vcmp)) ops (Core.iter s')
        let real := runHist (SKL.kstep K) ops s'
        real.1 = spec.1 ∧ Core.iter real.2 = spec.2 := by
  obtain ⟨s1, e1, h1, h0⟩ := SKL.clear_inv key klt (s := s) hs.load_pos
  obtain ⟨s2, e2, h2, h3⟩ := ((SKL.api_lawful hK).update (repeatList (Core.iter s) 1)).eq_of h1 rfl
  have e : (SKL.api K).imul 1 s = (.ok (), s2) := by
    show (do (SKL.methods K).clear; (SKL.methods K).update (repeatList (Core.iter s) 1)) s = _
    rw [Py.bind_ok (m := (SKL.methods K).clear) e1]; exact e2
  refine ⟨s2, ?_, ?_, fun ops hops => ?_⟩
  · simp only [SKL.kstep, ListAPI.step, Spec.out, e]
  · have hr : repeatList (Core.iter s) 1 = Core.iter s := by simp [repeatList]
    rw [show Core.iter s2 = _ from h2, show (SKL.api K).iter s1 = [] from h0, hr]
    have := Spec.insertAll_isStableSort (O := Spec.Order.ofKey key klt veq K.vcmp) (hK.order.comap key) Spec.sorted_nil (Core.iter s)
    simp only [List.nil_append] at this
    exact this
  · obtain ⟨g1, g2, _⟩ := Refines.hist ops (fun op ho => SKL.kstep_refines hK op (hops op ho)) h3
    exact ⟨g1, g2⟩

end Lists

section Sets
variable {α τ : Type} {eqv : α → α → Bool} {S : SetOps τ α}

/-- The relation between the two stores, and the shape of the list. -/
theorem Restored.set_shape [DecidableEq α] (hS : S.Lawful eqv) (heq : ∀ a b, eqv a b = decide (a = b)) {s : SS τ (St α α)}
    (h : SS.Living S eqv s) : Inv id noOrder false s.list ∧ (S.toList s.set).Perm (Core.iter s.list) := by
  have good : ∀ {E : Env α} {lt}, E.Now lt eqv → SS.Good S (SL.api E) (Spec.Order.ofValues lt) eqv (Inv id lt false) :=
    fun hE => ⟨hS, SL.api_lawful hE.lawful, fun a b => (hE.eqv a b).symm⟩
  induction h with
  | new hE e =>
    obtain ⟨s', e', hi, _⟩ := SS.new_ok (good hE) _
    rw [e] at e'; cases e'
    exact ⟨Restored.unordered hi.list, hi.perm⟩
  | step op hE hv _ hsorted ih =>
    have ht : SS.Total (Spec.Order.ofValues _) eqv := ⟨heq, fun a b hab => by
      have := hE.eqv a b
      rw [heq] at this
      exact decide_eq_true_iff.1 (this.trans hab)⟩
    have hi := (SS.step_refines (good hE) ht op hv _ ⟨Restored.ordered ih.1 hsorted, ih.2⟩).2.2
    exact ⟨Restored.unordered hi.list, hi.perm⟩

/-- C79 for a SortedSet: the order of the values may change between calls, as long as the contents are in order whenever a
method is called. -/
theorem C79_set [DecidableEq α] (hS : S.Lawful eqv) (heq : ∀ a b, eqv a b = decide (a = b)) {s : SS τ (St α α)}
    (hs : SS.Living S eqv s) {E : Env α} {lt : α → α → Bool} (hE : E.Now lt eqv)
    (hsorted : Sorted lt (SS.iter (SL.api E) s)) (ops : List (SSOp α)) (hops : ∀ op ∈ ops, op.Valid) :
    let spec := runHist (SetSpec.step (setOrder lt eqv)) ops (SS.iter (SL.api E) s)
    let real := runHist (SS.step S (SL.api E)) ops s
    real.1 = spec.1 ∧ SS.iter (SL.api E) real.2 = spec.2 := by
  have hi := Restored.set_shape hS heq hs
  have h : SS.Good S (SL.api E) (Spec.Order.ofValues lt) eqv (Inv id lt false) :=
    ⟨hS, SL.api_lawful hE.lawful, fun a b => (hE.eqv a b).symm⟩
  have ht : SS.Total (Spec.Order.ofValues lt) eqv := ⟨heq, fun a b hab => by
    have := hE.eqv a b
    rw [heq] at this
    exact decide_eq_true_iff.1 (this.trans hab)⟩
  have hsame : (Spec.Order.ofValues lt).same = eqv := by funext a b; exact h.same a b
  have hstep : SetSpec.step (setOrder lt eqv) = SetSpec.step (Spec.Order.ofValues lt) := by
    funext op; exact (SetSpec.step_congr (Spec.Order.ofValues lt) rfl hsame op).symm
  have hi' : SS.Inv S (SL.api E) (Inv id lt false) s := ⟨Restored.ordered hi.1 hsorted, hi.2⟩
  obtain ⟨r1, r2, _⟩ := Refines.hist ops (fun op ho => SS.step_refines h ht op (hops op ho)) hi'
  intro spec real
  have hsp : spec = runHist (SetSpec.step (Spec.Order.ofValues lt)) ops (SS.iter (SL.api E) s) := by rw [← hstep]
  rw [hsp]
  exact ⟨r1, r2⟩

end Sets

section Dicts
variable {κ ν : Type} {eqv : κ → κ → Bool}

theorem Restored.eq_of_mem (h : IsEquiv eqv) {l : List κ} (hl : Distinct eqv l) {a b : κ} (ha : a ∈ l) (hb : b ∈ l)
    (hab : eqv a b = true) : a = b := by
  obtain ⟨i, hi⟩ := List.getElem?_of_mem ha
  obtain ⟨j, hj⟩ := List.getElem?_of_mem hb
  obtain rfl := hl.eq_of_eqv h hi hj hab
  rw [hi] at hj
  exact Option.some.inj hj

theorem Restored.dict_inv (he : IsEquiv eqv) {s : SD κ ν (St κ κ)} (h1 : Inv id noOrder false s.list)
    (h2 : PyDict.Keyed eqv s.dict) (h3 : (Core.iter s.list).Perm (PyDict.keys s.dict)) {E : Env κ} {lt : κ → κ → Bool}
    (hE : E.Now lt eqv) (hsorted : Sorted lt (Core.iter s.list)) :
    SD.Inv (SL.api E) (Spec.Order.ofValues lt) eqv (Inv id lt false) s := by
  refine ⟨Restored.ordered h1 hsorted, h2, ?_⟩
  have hst := DictSpec.sortedKeys_sort (O := Spec.Order.ofValues lt) hE.lawful.order s.dict
  refine List.Perm.eq_of_pairwise (le := fun a b => lt b a = false) (fun a b ha hb h1 h2' => ?_) hsorted hst.sorted
    (h3.trans hst.perm.symm)
  refine Restored.eq_of_mem he h2 (h3.mem_iff.1 ha) (hst.perm.mem_iff.1 hb) ?_
  rw [hE.eqv]; simp [equiv, h1, h2']

/-- The relation between the two stores, and the shape of the list. -/
theorem Restored.dict_shape (he : IsEquiv eqv) {s : SD κ ν (St κ κ)} (h : SD.Living eqv s) :
    Inv id noOrder false s.list ∧ PyDict.Keyed eqv s.dict ∧ (Core.iter s.list).Perm (PyDict.keys s.dict) := by
  have good : ∀ {E : Env κ} {lt}, E.Now lt eqv → SD.Good (SL.api E) (Spec.Order.ofValues lt) eqv (Inv id lt false) :=
    fun hE => ⟨he, SL.api_lawful hE.lawful, fun a b => (hE.eqv a b).symm⟩
  have out : ∀ {E : Env κ} {lt} {s : SD κ ν (St κ κ)}, E.Now lt eqv → SD.Inv (SL.api E) (Spec.Order.ofValues lt) eqv (Inv id lt false) s →
      Inv id noOrder false s.list ∧ PyDict.Keyed eqv s.dict ∧ (Core.iter s.list).Perm (PyDict.keys s.dict) := by
    intro E lt s hE hi
    refine ⟨Restored.unordered hi.list, hi.keyed, ?_⟩
    rw [show Core.iter s.list = _ from hi.iter]
    exact (DictSpec.sortedKeys_sort (O := Spec.Order.ofValues lt) hE.lawful.order s.dict).perm
  induction h with
  | new hE hf e =>
    obtain ⟨s', e', _, hi⟩ := SD.new_ok (good hE) hf
    rw [e] at e'; cases e'
    exact out hE hi
  | step op hE hv _ hsorted ih =>
    exact out hE (SD.step_refines (good hE) op hv _ (Restored.dict_inv he ih.1 ih.2.1 ih.2.2 hE hsorted)).2.2

/-- C79 for a SortedDict: the order of the keys may change between calls, as long as they are in order whenever a method is
called. -/
theorem C79_dict (he : IsEquiv eqv) {s : SD κ ν (St κ κ)} (hs : SD.Living eqv s) {E : Env κ} {lt : κ → κ → Bool}
    (hE : E.Now lt eqv) (hsorted : Sorted lt (SD.iter (SL.api E) s)) (ops : List (SDOp κ ν)) (hops : ∀ op ∈ ops, op.Valid) :
    let spec := runHist (DictSpec.step eqv (setOrder lt eqv)) ops s.dict
    let real := runHist (SD.step eqv (SL.api E)) ops s
    real.1 = spec.1 ∧ real.2.dict = spec.2 ∧ SD.iter (SL.api E) real.2 = DictSpec.sortedKeys (setOrder lt eqv) spec.2 := by
  obtain ⟨h1, h2, h3⟩ := Restored.dict_shape he hs
  have h : SD.Good (SL.api E) (Spec.Order.ofValues lt) eqv (Inv id lt false) :=
    ⟨he, SL.api_lawful hE.lawful, fun a b => (hE.eqv a b).symm⟩
  have hsame : (Spec.Order.ofValues lt).same = eqv := by funext a b; exact h.same a b
  have hstep : DictSpec.step eqv (setOrder lt eqv) = DictSpec.step (ν := ν) eqv (Spec.Order.ofValues lt) := by
    funext op; exact (DictSpec.step_congr (Spec.Order.ofValues lt) rfl hsame op).symm
  obtain ⟨r1, r2, r3⟩ := Refines.hist ops (fun op ho => SD.step_refines h op (hops op ho))
    (Restored.dict_inv he h1 h2 h3 hE hsorted)
  intro spec real
  have hsp : spec = runHist (DictSpec.step eqv (Spec.Order.ofValues lt)) ops s.dict := by rw [← hstep]
  rw [hsp]
  refine ⟨r1, r2, ?_⟩
  show SD.iter (SL.api E) (runHist (SD.step eqv (SL.api E)) ops _).2 = _
  rw [SD.iter, r3.iter, r2]
  rfl

end Dicts

/-! ## Examples -/

namespace Demo

/-- Objects are numbers, and the client keeps a number in each: `heap i` is what object `i` holds at present.  Objects compare
by what they hold. -/
def heapLt (heap : Int → Int) (a b : Int) : Bool := ilt (heap a) (heap b)

def heapEnv (heap : Int → Int) : Env Int where
  cmp op a b := .ok (op.ofLt (heapLt heap) a b)
  sorted xs := .ok (Spec.insertAll (Spec.Order.ofValues (heapLt heap)) [] xs)
  ilog2 := Nat.log2

theorem heapEnv_lawful (heap : Int → Int) : (heapEnv heap).Lawful (heapLt heap) where
  order := ilt_order.comap heap
  cmp _ _ _ := rfl
  sorted xs := ⟨_, rfl, by
    exact Spec.insertAll_isStableSort (O := Spec.Order.ofValues (heapLt heap)) (ilt_order.comap heap) Spec.sorted_nil xs⟩
  ilog2 := log2_ok

theorem heapEnv_sane (heap : Int → Int) : (heapEnv heap).Sane where
  perm xs ys e := by cases e; simpa using insertAll_perm (Spec.Order.ofValues (heapLt heap)) [] xs
  ilog2 := log2_ok

/-- Object `i` holds `10 * i`. -/
def heap0 (i : Int) : Int := 10 * i
/-- Then object 1 is set to 99, which is out of order. -/
def heap1 (i : Int) : Int := if i = 1 then 99 else 10 * i
/-- Then object 1 is set to 15, which is in order again. -/
def heap2 (i : Int) : Int := if i = 1 then 15 else 10 * i

/-- `sl = SortedList([o2, o0, o3, o1])` -/
def objs : St Int Int := (SL.update (heapEnv heap0) [2, 0, 3, 1] St.empty).2

/-- `sl = SortedList([o2, o0, o3, o1]); o1.x = 99; o1 in sl; sl.discard(o1); sl.add(o5); o1.x = 15` -/
def objs1 : St Int Int := (runHist (SL.api (heapEnv heap1)).step [.contains 1, .discard 1, .add 5] objs).2

/-- While object 1 is out of order it is not found, though it is stored. -/
example : (runHist (SL.api (heapEnv heap1)).step [.contains 1, .discard 1, .add 5] objs).1 =
    [.ok (.bool false), .ok .none, .ok .none] ∧ Core.iter objs1 = [0, 1, 2, 3, 5] := by decide +kernel

theorem objs1_wild : SL.Wild objs1 :=
  .step (E := heapEnv heap1) (.add 5) (heapEnv_sane _) trivial
    (.step (E := heapEnv heap1) (.discard 1) (heapEnv_sane _) trivial
      (.step (E := heapEnv heap1) (.contains 1) (heapEnv_sane _) trivial
        (.new (E := heapEnv heap0) (xs := some [2, 0, 3, 1]) (heapEnv_sane _) (by rfl)) nofun) nofun) nofun

/-- When it holds 15 the list is as good as new. -/
example := C79_list (heapEnv_lawful heap2) objs1_wild (show Sorted _ (Core.iter objs1) from by
    rw [show Core.iter objs1 = [0, 1, 2, 3, 5] by decide +kernel]; simp [Sorted, heapLt, ilt, heap2])
  [.contains 1, .remove 1, .add 4, .bisectLeft 2] (by simp [Op.Valid])

example : (runHist (SL.api (heapEnv heap2)).step [.contains 1, .remove 1, .add 4, .bisectLeft 2] objs1).1 =
    [.ok (.bool true), .ok .none, .ok .none, .ok (.int 1)] := by decide +kernel

theorem objs1_ever : (ListClass.plain (heapEnv heap1)).Ever objs1 :=
  .step (c := .plain (heapEnv heap1)) (L := SL.api (heapEnv heap1)) (.add 5) ⟨_, rfl⟩ trivial
    (.step (c := .plain (heapEnv heap1)) (L := SL.api (heapEnv heap1)) (.discard 1) ⟨_, rfl⟩ trivial
      (.step (c := .plain (heapEnv heap1)) (L := SL.api (heapEnv heap1)) (.contains 1) ⟨_, rfl⟩ trivial
        (.new (c := .plain (heapEnv heap1)) (L := SL.api (heapEnv heap0)) (xs := some [2, 0, 3, 1]) ⟨_, rfl⟩ (by rfl))))

/-- Or it stays 99 and the client says `sl *= 1`: object 1 moves to the end. -/
example := C79_list_resort (heapEnv_lawful heap1) objs1_ever
example : Core.iter ((SL.api (heapEnv heap1)).step (.imul 1) objs1).2 = [0, 2, 3, 5, 1] := by decide +kernel

/-- The key of an object is what it holds; the key list keeps the numbers. -/
def heapKey (heap : Int → Int) : KEnv Int Int where
  key a := .ok (heap a)
  kcmp op a b := .ok (op.ofLt ilt a b)
  vcmp op a b := .ok (op.ofLt ilt a b)
  sortedByKey xs := .ok (Spec.insertAll (Spec.Order.ofKey heap ilt (equiv ilt) fun _ _ _ => .ok true) [] xs)
  ilog2 := Nat.log2

theorem heapKey_lawful (heap : Int → Int) : (heapKey heap).Lawful heap ilt (equiv ilt) where
  order := ilt_order
  key_ok _ := rfl
  kcmp_ok _ _ _ := rfl
  veq_ok _ _ := rfl
  vne_ok _ _ := rfl
  sorted xs := ⟨_, rfl, by
    exact Spec.insertAll_isStableSort
      (O := Spec.Order.ofKey heap ilt (equiv ilt) fun _ _ _ => .ok true) (ilt_order.comap _)
      Spec.sorted_nil xs⟩
  ilog2 := log2_ok

theorem heapKey_sane (heap : Int → Int) : (heapKey heap).Sane where
  perm xs ys e := by
    cases e
    simpa using insertAll_perm (Spec.Order.ofKey heap ilt (equiv ilt) fun _ _ _ => .ok true) [] xs
  ilog2 := log2_ok

/-- `sl = SortedKeyList([o2, o0, o3, o1], key=lambda o: o.x)` -/
def kobjs : St Int Int := (SKL.update (heapKey heap0) [2, 0, 3, 1] St.empty).2

theorem kobjs_reachable : SKL.Reachable (heapKey heap0) kobjs :=
  .new (xs := some [2, 0, 3, 1]) (by rfl)

/-- After `o1.x = 99` the key list still goes by 10: `irange_key(5, 25)` yields objects 1 and 2. -/
example := C79_key_list_stale (heapKey_lawful heap0) (K' := heapKey heap1) rfl rfl kobjs_reachable
  [.irangeKey (some 5) (some 25) true true false, .op (.pop (-1)), .bisectKeyLeft 99] (by simp [KOp.Valid, Op.Valid, KOp.keyless, Op.positional])
example : ((SKL.kstep (heapKey heap1) (.irangeKey (some 5) (some 25) true true false)) kobjs).1 = .ok (.vals [1, 2]) := by
  decide +kernel
/-- `bisect_left(o1)` searches 99 among 0, 10, 20, 30. -/
example := C79_key_list_stale_search (heapKey_lawful heap0) (K' := heapKey heap1) rfl rfl kobjs_reachable (v := 1) (k := 99) rfl

/-- `o1.x = 99; o1 in sl; sl.discard(o1); sl.bisect_left(o1); o1.x = 10`: the list is queried while the keys are stale. -/
def kobjs1 : St Int Int :=
  (SKL.kstep (heapKey heap1) (.op (.bisectLeft 1)) ((SKL.api (heapKey heap1)).step (.discard 1) kobjs).2).2

theorem kobjs1_keyed : SKL.Keyed heap0 kobjs1 :=
  .query (K := heapKey heap1) (.op (.bisectLeft 1)) (heapKey_sane _) rfl
    (.step (K := heapKey heap1) (.discard 1) (heapKey_sane _) trivial (by simp [KEnv.KeyIs, Op.stores])
      (.new (K := heapKey heap0) (xs := some [2, 0, 3, 1]) (heapKey_sane _) (by
        intro v _ k hk
        cases hk; rfl) (by rfl)) nofun)

/-- When object 1 holds 10 again, the list is as good as new. -/
example := C79_key_list (heapKey_lawful heap0) kobjs1_keyed

example := C79_key_list_resort (heapKey_lawful heap1)
  (.new (c := .keyed (heapKey heap1)) (L := SKL.api (heapKey heap0)) (xs := some [2, 0, 3, 1]) ⟨_, rfl⟩ (by rfl))

/-- Objects that never hold the same number. -/
theorem heapEnv_now {heap : Int → Int} (h : ∀ a b, heap a = heap b → a = b) : (heapEnv heap).Now (heapLt heap) (equiv ilt) where
  lawful := heapEnv_lawful heap
  eqv a b := by
    by_cases e : a = b
    · subst e; simp [equiv, heapLt, ilt]
    · have h1 : equiv ilt a b = false := by simp [equiv, ilt]; omega
      have e' : heap a ≠ heap b := fun he => e (h a b he)
      have h2 : equiv (heapLt heap) a b = false := by simp [equiv, heapLt, ilt]; omega
      rw [h1, h2]

/-- Objects 5 and 6 exchange what they hold. -/
def swapped (i : Int) : Int := if i = 5 then 6 else if i = 6 then 5 else i

theorem swapped_inj (a b : Int) (h : swapped a = swapped b) : a = b := by
  simp only [swapped] at h
  repeat' split at h
  all_goals omega

/-- `ss = SortedSet([o9, o5, o1])`; objects 5 and 6 exchange what they hold; `ss.add(o6)` -/
def livingSet : SS { l : List Int // Distinct (equiv ilt) l } (St Int Int) :=
  (SS.step (iset false) (SL.api (heapEnv swapped)) (.add 6)
    { set := (iset false).ofList [9, 5, 1], list := (SL.update (heapEnv id) [9, 5, 1] St.empty).2 }).2

theorem livingSet_living : SS.Living (iset false) (equiv ilt) livingSet :=
  .step (.add 6) (heapEnv_now swapped_inj) trivial
    (.new (E := heapEnv id) (xs := some [9, 5, 1]) (heapEnv_now fun _ _ h => h) (by rfl))
    (show Sorted _ [1, 5, 9] from by simp [Sorted, heapLt, ilt, swapped])

example : SS.iter (SL.api (heapEnv swapped)) livingSet = [1, 6, 5, 9] := by decide +kernel

example := C79_set (iset_lawful false) ieq_decide livingSet_living (heapEnv_now swapped_inj)
  (by rw [show SS.iter (SL.api (heapEnv swapped)) livingSet = [1, 6, 5, 9] by decide +kernel]
      simp [Sorted, heapLt, ilt, swapped])
  [.add 3, .bisectLeft 5, .remove 6, .pop 0] (by simp [SSOp.Valid])

/-- The same with a dict. -/
def livingDict : SD Int String (St Int Int) :=
  (SD.step (equiv ilt) (SL.api (heapEnv swapped)) (.setitem 6 "f")
    { dict := [(9, "i"), (5, "e"), (1, "a")], list := (SL.update (heapEnv id) [9, 5, 1] St.empty).2 }).2

theorem livingDict_living : SD.Living (equiv ilt) livingDict :=
  .step (.setitem 6 "f") (heapEnv_now swapped_inj) trivial
    (.new (E := heapEnv id) (arg := .pairs [(9, "i"), (5, "e"), (1, "a")] none) (heapEnv_now fun _ _ h => h) rfl (by rfl))
    (show Sorted _ [1, 5, 9] from by simp [Sorted, heapLt, ilt, swapped])

example := C79_dict ieqv_equiv livingDict_living (heapEnv_now swapped_inj)
  (by rw [show SD.iter (SL.api (heapEnv swapped)) livingDict = [1, 6, 5, 9] by decide +kernel]
      simp [Sorted, heapLt, ilt, swapped])
  [.setitem 3 "c", .popitem 0, .delitem 6] (by simp [SDOp.Valid])

end Demo
end Verif
