import Verif.Proofs.EqualityKey
import Verif.Props.Demo
/-!
# Values whose `==` does not follow from `<` (C77)

`E.Ordered lt` assumes that `<` is the strict weak order `lt`; nothing is assumed about `==` and `!=`.  `EqSpec.step` says what the calls do to a plain list
that is kept sorted.
-/

namespace Verif
variable {α κ : Type}

/-! ## SortedList -/

section
variable {E : Env α} {lt : α → α → Bool} {s : St α α}

/-- All results and contents are those of a plain list that is kept sorted by `<`, whatever `==` and `!=` say, and if they raise. -/
theorem C77_list (hE : E.Ordered lt) (hs : (SL.api E).Reachable s) (ops : List (Op α)) (hv : ∀ op ∈ ops, op.Valid) :
    (runHist (SL.api E).step ops s).1 = (runHist (EqSpec.step lt E.cmp) ops (Core.iter s)).1 ∧
    Core.iter (runHist (SL.api E).step ops s).2 = (runHist (EqSpec.step lt E.cmp) ops (Core.iter s)).2 ∧
    Sorted lt (Core.iter (runHist (SL.api E).step ops s).2) := by
  obtain ⟨h1, h2, h3⟩ := Refines.hist ops (fun o hm => Equality.SL.step_refines hE o (hv o hm)) (Equality.SL.reachable_inv hE hs)
  exact ⟨h1, h2, h3.sorted⟩

/-- What `in` finds is equal to a stored value. -/
theorem C77_list_found (hE : E.Ordered lt) (hs : (SL.api E).Reachable s) {v : α} (h : ((SL.api E).step (.contains v) s).1 = .ok (.bool true)) :
    ∃ x ∈ Core.iter s, E.cmp .eq x v = .ok true := by
  have hr := (Equality.SL.step_refines hE (.contains v) trivial s (Equality.SL.reachable_inv hE hs)).1
  rw [h] at hr
  simp only [EqSpec.step, Spec.out, EqSpec.contains] at hr
  have hd := List.takeWhile_append_dropWhile (p := (lt · v)) (l := Core.iter s)
  cases hx : (Core.iter s).dropWhile (lt · v) with
  | nil => rw [hx] at hr; cases hr
  | cons x rest =>
    rw [hx] at hr hd
    refine ⟨x, by rw [← hd]; simp, ?_⟩
    simp only at hr
    cases hc : E.cmp .eq x v with
    | error e => rw [hc] at hr; cases hr
    | ok b => rw [hc] at hr; cases b <;> first | rfl | cases hr

/-- `remove` removes one value, which is equal to its argument, or nothing; `discard` does the same. -/
theorem C77_list_removed (hE : E.Ordered lt) (hs : (SL.api E).Reachable s) (v : α) :
    let call := (SL.api E).step (.remove v) s
    (call.1 = .ok .none ∧ ∃ A x B, Core.iter s = A ++ x :: B ∧ E.cmp .eq x v = .ok true ∧ Core.iter call.2 = A ++ B) ∨
    (call.1 ≠ .ok .none ∧ Core.iter call.2 = Core.iter s) := by
  obtain ⟨h1, h2, -⟩ := Equality.SL.step_refines hE (.remove v) trivial s (Equality.SL.reachable_inv hE hs)
  simp only
  rw [h1, h2]
  simp only [EqSpec.step, Spec.out, EqSpec.remove]
  have hd := List.takeWhile_append_dropWhile (p := (lt · v)) (l := Core.iter s)
  cases hx : (Core.iter s).dropWhile (lt · v) with
  | nil => right; simp
  | cons x rest =>
    rw [hx] at hd
    simp only
    cases hc : E.cmp .eq x v with
    | error e => right; simp
    | ok b =>
      cases b
      · right; simp
      · left; exact ⟨rfl, _, x, rest, hd.symm, hc, rfl⟩

theorem C77_list_discarded (hE : E.Ordered lt) (hs : (SL.api E).Reachable s) (v : α) :
    let call := (SL.api E).step (.discard v) s
    (call.1 = .ok .none ∧ ∃ A x B, Core.iter s = A ++ x :: B ∧ E.cmp .eq x v = .ok true ∧ Core.iter call.2 = A ++ B) ∨
    Core.iter call.2 = Core.iter s := by
  obtain ⟨h1, h2, -⟩ := Equality.SL.step_refines hE (.discard v) trivial s (Equality.SL.reachable_inv hE hs)
  simp only
  rw [h1, h2]
  simp only [EqSpec.step, Spec.out, EqSpec.discard]
  have hd := List.takeWhile_append_dropWhile (p := (lt · v)) (l := Core.iter s)
  cases hx : (Core.iter s).dropWhile (lt · v) with
  | nil => right; simp
  | cons x rest =>
    rw [hx] at hd
    simp only
    cases hc : E.cmp .eq x v with
    | error e => right; simp
    | ok b =>
      cases b
      · right; simp
      · left; exact ⟨rfl, _, x, rest, hd.symm, hc, rfl⟩

/-- Enough for `in` and `remove` to find a value: the list has one that `<` does not tell apart from it, and all of these are equal to it. -/
theorem C77_list_complete (hE : E.Ordered lt) (hs : (SL.api E).Reachable s) {v : α} (hm : ∃ x ∈ Core.iter s, equiv lt x v = true)
    (he : ∀ x ∈ Core.iter s, equiv lt x v = true → E.cmp .eq x v = .ok true) :
    ((SL.api E).step (.contains v) s).1 = .ok (.bool true) ∧ ((SL.api E).step (.remove v) s).1 = .ok .none := by
  have hi := Equality.SL.reachable_inv hE hs
  rw [(Equality.SL.step_refines hE (.contains v) trivial s hi).1, (Equality.SL.step_refines hE (.remove v) trivial s hi).1]
  simp only [EqSpec.step, Spec.out, EqSpec.contains, EqSpec.remove]
  have hd := List.takeWhile_append_dropWhile (p := (lt · v)) (l := Core.iter s)
  obtain ⟨y, hy, hyv⟩ := hm
  simp only [equiv, Bool.and_eq_true, Bool.not_eq_true'] at hyv
  cases hx : (Core.iter s).dropWhile (lt · v) with
  | nil =>
    rw [hx, List.append_nil] at hd
    rw [← hd] at hy
    have := List.all_eq_true.1 (List.all_takeWhile (p := (lt · v)) (l := Core.iter s)) y hy
    simp [hyv.1] at this
  | cons x rest =>
    have hxv : lt x v = false := by
      have := List.head_dropWhile_not (lt · v) (l := Core.iter s) (by rw [hx]; simp)
      simpa [hx] using this
    rw [hx] at hd
    have hvx : lt v x = false := by
      have hso : Sorted lt (Core.iter s) := hi.sorted
      rw [← hd] at hy hso
      rcases List.mem_append.1 hy with hy | hy
      · have := List.all_eq_true.1 (List.all_takeWhile (p := (lt · v)) (l := Core.iter s)) y hy
        simp [hyv.1] at this
      · rcases List.mem_cons.1 hy with rfl | hy
        · exact hyv.2
        · have := List.rel_of_pairwise_cons (List.pairwise_append.1 hso).2.1 hy
          exact hE.order.negtrans _ _ _ hyv.2 this
    have := he x (by rw [← hd]; simp) (by simp [equiv, hxv, hvx])
    exact ⟨by simp only [this], by simp only [this]⟩

/-- If `==` and `!=` do follow from `<`, the specification is that of a plain sorted list (C01). -/
theorem C77_list_consistent (hE : E.Lawful lt) {l : List α} (hl : Sorted lt l) (op : Op α) (hv : op.Valid) :
    EqSpec.step lt E.cmp op l = Spec.step (Spec.Order.ofValues lt) op l := by
  obtain ⟨s, -, hi, he⟩ := SL.new_ok hE (some l)
  rw [Option.getD_some, Spec.insertAll_nil_of_sorted hE.order hl] at he
  have hO : E.Ordered lt := ⟨hE.order, fun _ _ => hE.cmp _ _ _, hE.sorted, hE.ilog2⟩
  obtain ⟨a1, a2, -⟩ := Equality.SL.step_refines hO op hv s hi
  obtain ⟨b1, b2, -⟩ := (SL.api_lawful hE).step op hv s hi
  rw [he] at a1 a2
  have e : (SL.api E).iter = Core.iter := rfl
  rw [e, he] at b1 b2
  exact Prod.ext (a1.symm.trans b1) (a2.symm.trans b2)

end

/-! ## SortedKeyList -/

section
variable {K : KEnv α κ} {key : α → κ} {klt : κ → κ → Bool} {s : St α κ}

/-- As `C77_list`; nothing is assumed about `==` of values and about `!=` of keys. -/
theorem C77_key_list (hK : K.Ordered key klt) (hs : SKL.Reachable K s) (ops : List (KOp α κ)) (hv : ∀ op ∈ ops, op.Valid) :
    (runHist (SKL.kstep K) ops s).1 = (runHist (EqSpec.kstep key klt K.kcmp K.vcmp) ops (Core.iter s)).1 ∧
    Core.iter (runHist (SKL.kstep K) ops s).2 = (runHist (EqSpec.kstep key klt K.kcmp K.vcmp) ops (Core.iter s)).2 ∧
    Sorted (fun a b => klt (key a) (key b)) (Core.iter (runHist (SKL.kstep K) ops s).2) := by
  obtain ⟨h1, h2, h3⟩ := Refines.hist ops (fun o hm => Equality.SKL.kstep_refines hK o (hv o hm)) (Equality.SKL.reachable_inv hK hs)
  exact ⟨h1, h2, h3.sorted⟩

theorem EqSpec.seek_some {ne eq : α → Except PyErr Bool} {l : List α} {i : Nat} (h : seek ne eq l = .ok (some i)) :
    ∃ x, l[i]? = some x ∧ ne x = .ok false ∧ eq x = .ok true := by
  induction l generalizing i with
  | nil => simp [seek] at h
  | cons x xs ih =>
    simp only [seek] at h
    split at h
    · cases h
    · cases h
    · rename_i hne
      split at h
      · cases h
      · rename_i heq; cases h; exact ⟨x, rfl, hne, heq⟩
      · split at h
        · cases h
        · rename_i r hr
          cases r with
          | none => cases h
          | some j => cases h; exact ih hr

theorem EqSpec.keyFind_some {kcmp : CmpOp → κ → κ → Except PyErr Bool} {vcmp : CmpOp → α → α → Except PyErr Bool} {v : α} {l : List α} {i : Nat}
    (h : keyFind key klt kcmp vcmp v l = .ok (some i)) :
    ∃ x, l[i]? = some x ∧ kcmp .ne (key x) (key v) = .ok false ∧ vcmp .eq x v = .ok true := by
  unfold keyFind at h
  split at h
  · cases h
  · rename_i r hr
    cases r with
    | none => cases h
    | some j =>
      cases h
      obtain ⟨x, h1, h2, h3⟩ := seek_some hr
      refine ⟨x, ?_, h2, h3⟩
      rw [← List.takeWhile_append_dropWhile (p := fun x => klt (key x) (key v)) (l := l)]
      rw [List.getElem?_append_right (by simp), ← h1]
      simp

/-- What `in` finds is equal to a stored value, and so are their keys. -/
theorem C77_key_list_found (hK : K.Ordered key klt) (hs : SKL.Reachable K s) {v : α}
    (h : (SKL.kstep K (.op (.contains v)) s).1 = .ok (.bool true)) :
    ∃ x ∈ Core.iter s, K.kcmp .ne (key x) (key v) = .ok false ∧ K.vcmp .eq x v = .ok true := by
  have hr := (Equality.SKL.kstep_refines hK (.op (.contains v)) trivial s (Equality.SKL.reachable_inv hK hs)).1
  rw [h] at hr
  simp only [EqSpec.kstep, Spec.out, EqSpec.keyContains] at hr
  cases hf : EqSpec.keyFind key klt K.kcmp K.vcmp v (Core.iter s) with
  | error e => rw [hf] at hr; cases hr
  | ok r =>
    rw [hf] at hr
    cases r with
    | none => cases hr
    | some i =>
      obtain ⟨x, h1, h2⟩ := EqSpec.keyFind_some hf
      exact ⟨x, List.mem_of_getElem? h1, h2⟩

/-- `remove` removes one value, which is equal to its argument, or nothing. -/
theorem C77_key_list_removed (hK : K.Ordered key klt) (hs : SKL.Reachable K s) (v : α) :
    let call := SKL.kstep K (.op (.remove v)) s
    (call.1 = .ok .none ∧ ∃ i x, (Core.iter s)[i]? = some x ∧ K.kcmp .ne (key x) (key v) = .ok false ∧ K.vcmp .eq x v = .ok true ∧
      Core.iter call.2 = (Core.iter s).eraseIdx i) ∨
    (call.1 ≠ .ok .none ∧ Core.iter call.2 = Core.iter s) := by
  obtain ⟨h1, h2, -⟩ := Equality.SKL.kstep_refines hK (.op (.remove v)) trivial s (Equality.SKL.reachable_inv hK hs)
  simp only
  rw [h1, h2]
  simp only [EqSpec.kstep, Spec.out, EqSpec.keyRemove]
  cases hf : EqSpec.keyFind key klt K.kcmp K.vcmp v (Core.iter s) with
  | error e => right; simp
  | ok r =>
    cases r with
    | none => right; simp
    | some i =>
      obtain ⟨x, h1, h2, h3⟩ := EqSpec.keyFind_some hf
      left; exact ⟨rfl, i, x, h1, h2, h3, rfl⟩

theorem C77_key_list_discarded (hK : K.Ordered key klt) (hs : SKL.Reachable K s) (v : α) :
    let call := SKL.kstep K (.op (.discard v)) s
    (call.1 = .ok .none ∧ ∃ i x, (Core.iter s)[i]? = some x ∧ K.kcmp .ne (key x) (key v) = .ok false ∧ K.vcmp .eq x v = .ok true ∧
      Core.iter call.2 = (Core.iter s).eraseIdx i) ∨
    Core.iter call.2 = Core.iter s := by
  obtain ⟨h1, h2, -⟩ := Equality.SKL.kstep_refines hK (.op (.discard v)) trivial s (Equality.SKL.reachable_inv hK hs)
  simp only
  rw [h1, h2]
  simp only [EqSpec.kstep, Spec.out, EqSpec.keyDiscard]
  cases hf : EqSpec.keyFind key klt K.kcmp K.vcmp v (Core.iter s) with
  | error e => right; simp
  | ok r =>
    cases r with
    | none => right; simp
    | some i =>
      obtain ⟨x, h1, h2, h3⟩ := EqSpec.keyFind_some hf
      left; exact ⟨rfl, i, x, h1, h2, h3, rfl⟩

theorem EqSpec.locate_ok {ne eq : α → Except PyErr Bool} {lo hi : Int} {l : List α} {n : Nat} {r : Int}
    (h : locate ne eq lo hi n l = .ok r) :
    ∃ j x, r = ((n + j : Nat) : Int) ∧ l[j]? = some x ∧ eq x = .ok true ∧ lo ≤ r ∧ r < hi := by
  induction l generalizing n with
  | nil => simp [locate] at h
  | cons x xs ih =>
    have next : locate ne eq lo hi (n + 1) xs = .ok r →
        ∃ j y, r = ((n + j : Nat) : Int) ∧ (x :: xs)[j]? = some y ∧ eq y = .ok true ∧ lo ≤ r ∧ r < hi := by
      intro h
      obtain ⟨j, y, h1, h2, h3⟩ := ih h
      exact ⟨j + 1, y, by omega, h2, h3⟩
    simp only [locate] at h
    split at h
    · cases h
    · cases h
    · split at h
      · cases h
      · exact next h
      · rename_i heq
        split at h
        · cases h
        · split at h
          · cases h; exact ⟨0, x, by simp, rfl, heq, by omega, by omega⟩
          · exact next h

/-- The position that `index` returns lies in the window, and the value there is equal to the argument. -/
theorem C77_key_list_indexed (hK : K.Ordered key klt) (hs : SKL.Reachable K s) {v : α} {start stop : Option Int} {r : Int}
    (h : (SKL.kstep K (.op (.index v start stop)) s).1 = .ok (.int r)) :
    ∃ i x, r = ((i : Nat) : Int) ∧ (Core.iter s)[i]? = some x ∧ K.vcmp .eq x v = .ok true ∧
      Spec.indexBound (Core.iter s).length 0 start ≤ r ∧ r < Spec.indexBound (Core.iter s).length (Core.iter s).length stop := by
  have hr := (Equality.SKL.kstep_refines hK (.op (.index v start stop)) trivial s (Equality.SKL.reachable_inv hK hs)).1
  rw [h] at hr
  simp only [EqSpec.kstep, Spec.out, EqSpec.keyIndex] at hr
  split at hr
  · rename_i b s' hb
    cases hr
    split at hb
    · cases hb
    · obtain ⟨hb, -⟩ := Prod.mk.inj hb
      obtain ⟨j, x, h1, h2, h3, h4, h5⟩ := EqSpec.locate_ok hb
      refine ⟨_, x, h1, ?_, h3, h4, by omega⟩
      have := List.takeWhile_append_dropWhile (p := fun x => klt (key x) (key v)) (l := Core.iter s)
      rw [← this, List.getElem?_append_right (by rw [this]; omega), ← h2, this]
      congr 1; omega
  · cases hr

theorem EqSpec.seek_complete {ne eq : α → Except PyErr Bool} {l : List α} {w : α} (A B : List α) (hl : l = A ++ w :: B)
    (hne : ∀ x ∈ A ++ [w], ne x = .ok false) (heq : ∀ x ∈ A, ∃ b, eq x = .ok b) (hw : eq w = .ok true) :
    ∃ i, seek ne eq l = .ok (some i) := by
  subst hl
  induction A with
  | nil => simp [seek, hne w (by simp), hw]
  | cons x xs ih =>
    obtain ⟨i, hi⟩ := ih (fun y hy => hne y (List.mem_cons_of_mem _ hy)) (fun y hy => heq y (by simp [hy]))
    obtain ⟨b, hb⟩ := heq x (by simp)
    simp only [List.cons_append, seek, hne x (by simp), hb, hi]
    cases b
    · exact ⟨i + 1, rfl⟩
    · exact ⟨0, rfl⟩

/-- A stored value that is equal to `v` and has the same key is found, among any number of different values with that key: enough is that `!=` of keys
follows from `<`, and that `==` of values does not raise. -/
theorem C77_key_list_complete (hK : K.Ordered key klt) (hs : SKL.Reachable K s) {v w : α} (hm : w ∈ Core.iter s)
    (hw : equiv klt (key w) (key v) = true) (hwv : K.vcmp .eq w v = .ok true)
    (hne : ∀ x ∈ Core.iter s, K.kcmp .ne (key x) (key v) = .ok (!equiv klt (key x) (key v)))
    (heq : ∀ x ∈ Core.iter s, ∃ b, K.vcmp .eq x v = .ok b) :
    (SKL.kstep K (.op (.contains v)) s).1 = .ok (.bool true) ∧ (SKL.kstep K (.op (.remove v)) s).1 = .ok .none := by
  have hi := Equality.SKL.reachable_inv hK hs
  rw [(Equality.SKL.kstep_refines hK (.op (.contains v)) trivial s hi).1, (Equality.SKL.kstep_refines hK (.op (.remove v)) trivial s hi).1]
  simp only [EqSpec.kstep, Spec.out, EqSpec.keyContains, EqSpec.keyRemove]
  have hf : ∃ i, EqSpec.keyFind key klt K.kcmp K.vcmp v (Core.iter s) = .ok (some i) := by
    unfold EqSpec.keyFind
    have hd := List.takeWhile_append_dropWhile (p := fun x => klt (key x) (key v)) (l := Core.iter s)
    have hw' := hw
    simp only [equiv, Bool.and_eq_true, Bool.not_eq_true'] at hw'
    have hmem : w ∈ (Core.iter s).dropWhile fun x => klt (key x) (key v) := by
      rw [← hd] at hm
      rcases List.mem_append.1 hm with hm | hm
      · have := List.all_eq_true.1 (List.all_takeWhile (p := fun x => klt (key x) (key v)) (l := Core.iter s)) w hm
        simp [hw'.1] at this
      · exact hm
    obtain ⟨A, B, hAB⟩ := List.append_of_mem hmem
    have hso : Sorted (fun a b => klt (key a) (key b)) (Core.iter s) := hi.sorted
    rw [← hd, hAB] at hso
    have hso2 := (List.pairwise_append.1 hso).2.1
    -- nothing from there on is less than `v`
    have hlow : ∀ x ∈ A, klt (key x) (key v) = false := by
      intro x hx
      cases A with
      | nil => cases hx
      | cons a A =>
        have ha : klt (key a) (key v) = false := by
          have := List.head_dropWhile_not (fun x => klt (key x) (key v)) (l := Core.iter s) (by rw [hAB]; simp)
          simpa [hAB] using this
        rcases List.mem_cons.1 hx with rfl | hx
        · exact ha
        · have := List.rel_of_pairwise_cons hso2 (List.mem_append_left _ hx)
          exact hK.order.negtrans _ _ _ this ha
    have hin : ∀ x ∈ A ++ [w], x ∈ Core.iter s := by
      intro x hx
      rw [← hd, hAB, show A ++ w :: B = A ++ [w] ++ B by simp]
      exact List.mem_append_right _ (List.mem_append_left _ hx)
    have := EqSpec.seek_complete (ne := fun x => K.kcmp .ne (key x) (key v)) (eq := (K.vcmp .eq · v)) A B hAB (fun x hx => by
      rw [hne x (hin x hx)]
      rcases List.mem_append.1 hx with hx | hx
      · have h1 := hlow x hx
        have h2 : klt (key w) (key x) = false := (List.pairwise_append.1 hso2).2.2 x hx w (by simp)
        have h3 : klt (key v) (key x) = false := hK.order.negtrans _ _ _ hw'.2 h2
        simp [equiv, h1, h3]
      · cases List.mem_singleton.1 hx
        simp [hw]) (fun x hx => heq x (hin x (by simp [hx]))) hwv
    obtain ⟨i, hi'⟩ := this
    rw [hi']
    exact ⟨_, rfl⟩
  obtain ⟨i, hf⟩ := hf
  exact ⟨by simp only [hf]; rfl, by simp only [hf]⟩

/-- If the operators do follow from `<`, the specification is that of a plain sorted list (C22). -/
theorem C77_key_list_consistent {veq : α → α → Bool} (hK : K.Lawful key klt veq) {l : List α} (hl : Sorted (fun a b => klt (key a) (key b)) l)
    (op : KOp α κ) (hv : op.Valid) :
    EqSpec.kstep key klt K.kcmp K.vcmp op l = Spec.kstep key klt (Spec.Order.ofKey key klt veq K.vcmp) op l := by
  obtain ⟨s, -, hi, he⟩ := SKL.new_ok (cmp := K.vcmp) hK (some l)
  rw [Option.getD_some, Spec.insertAll_nil_of_sorted (O := Spec.Order.ofKey key klt veq K.vcmp) (hK.order.comap key) hl] at he
  have hO : K.Ordered key klt := ⟨hK.order, hK.key_ok, fun _ _ => hK.kcmp_ok _ _ _, hK.sorted, hK.ilog2⟩
  obtain ⟨a1, a2, -⟩ := Equality.SKL.kstep_refines hO op hv s hi
  obtain ⟨b1, b2, -⟩ := SKL.kstep_refines hK op hv s hi
  rw [he] at a1 a2 b1 b2
  exact Prod.ext (a1.symm.trans b1) (a2.symm.trans b2)

end

/-! ## Concrete cases -/

namespace Demo

/-- Jobs `(priority, number)`: `<` compares the priorities, `==` and `!=` compare the jobs, and raise for job number 99. -/
def jobCmp : CmpOp → Int × Nat → Int × Nat → Except PyErr Bool
  | .eq, a, b => if a.2 = 99 ∨ b.2 = 99 then .error .typeError else .ok (a == b)
  | .ne, a, b => if a.2 = 99 ∨ b.2 = 99 then .error .typeError else .ok (a != b)
  | op, a, b => .ok (op.ofLt plt a b)

def jobEnv : Env (Int × Nat) := { pairEnv with cmp := jobCmp }

theorem jobEnv_ordered : jobEnv.Ordered plt := ⟨plt_order, fun _ _ => rfl, pairEnv_lawful.sorted, log2_ok⟩

def jobs : St (Int × Nat) (Int × Nat) := (runHist (SL.api jobEnv).step [.reset 1, .add (1, 5)]
  (SL.update jobEnv [(2, 0), (1, 0), (1, 1), (0, 7), (2, 1), (3, 99)] St.empty).2).2

theorem jobs_reachable : (SL.api jobEnv).Reachable jobs :=
  ListAPI.reachable_iff.2 ⟨some [(2, 0), (1, 0), (1, 1), (0, 7), (2, 1), (3, 99)], _, [.reset 1, .add (1, 5)], rfl, by simp [Op.Valid], rfl⟩

/-- The same jobs in a SortedKeyList, by priority. -/
def jobKEnv : KEnv (Int × Nat) Int where
  key a := .ok a.1
  kcmp op a b := .ok (op.ofLt ilt a b)
  vcmp := jobCmp
  sortedByKey xs := .ok (Spec.insertAll (Spec.Order.ofValues plt) [] xs)
  ilog2 := Nat.log2

theorem jobKEnv_ordered : jobKEnv.Ordered Prod.fst ilt := ⟨ilt_order, fun _ => rfl, fun _ _ => rfl, pairEnv_lawful.sorted, log2_ok⟩

def kjobs : St (Int × Nat) Int := (runHist (SKL.kstep jobKEnv) [.op (.reset 1), .op (.add (1, 5))]
  (SKL.update jobKEnv [(2, 0), (1, 0), (1, 1), (0, 7), (2, 1), (3, 99)] St.empty).2).2

theorem kjobs_reachable : SKL.Reachable jobKEnv kjobs :=
  SKL.reachable_hist (xs := some [(2, 0), (1, 0), (1, 1), (0, 7), (2, 1), (3, 99)]) rfl _ (by simp [KOp.Valid, Op.Valid])

example : jobs.lists = [[(0, 7)], [(1, 0)], [(1, 1)], [(1, 5), (2, 0)], [(2, 1)], [(3, 99)]] := by decide +kernel

example : kjobs.lists = [[(0, 7)], [(1, 0)], [(1, 1)], [(1, 5), (2, 0)], [(2, 1)], [(3, 99)]] := by decide +kernel

/-- `remove((1, 0)); remove((1, 5)); contains((3, 99)); count((1, 0)); index((2, 0), 4)` -/
def jobOps : List (Op (Int × Nat)) := [.remove (1, 0), .remove (1, 5), .contains (3, 99), .count (1, 0), .index (2, 0) (some 4) none]

example := C77_list jobEnv_ordered jobs_reachable jobOps (by simp [jobOps, Op.Valid])

example := C77_key_list jobKEnv_ordered kjobs_reachable (jobOps.map .op) (by simp [jobOps, Op.Valid, KOp.Valid])

/-- The list refuses to remove the stored job `(1, 5)`, and counts two jobs as `(1, 0)`, which is not there. -/
example : (runHist (SL.api jobEnv).step jobOps jobs).1 =
    [.ok .none, .error .valueError, .error .typeError, .ok (.int 2), .ok (.int 4)] := by decide +kernel

/-- The SortedKeyList removes it, and counts none. -/
example : (runHist (SKL.kstep jobKEnv) (jobOps.map .op) kjobs).1 =
    [.ok .none, .ok .none, .error .typeError, .ok (.int 0), .error .valueError] := by
  rw [(C77_key_list jobKEnv_ordered kjobs_reachable (jobOps.map .op) (by simp [jobOps, Op.Valid, KOp.Valid])).1]
  decide +kernel

example : ∃ x ∈ Core.iter jobs, jobEnv.cmp .eq x (1, 0) = .ok true :=
  C77_list_found jobEnv_ordered jobs_reachable (by decide +kernel)

example := C77_list_removed jobEnv_ordered jobs_reachable (1, 0)

example := C77_list_complete (v := (0, 7)) jobEnv_ordered jobs_reachable (by decide +kernel) (by decide +kernel)

theorem kjobs_says (op : KOp (Int × Nat) Int) (hv : op.Valid) :
    (SKL.kstep jobKEnv op kjobs).1 = (EqSpec.kstep Prod.fst ilt jobKEnv.kcmp jobKEnv.vcmp op (Core.iter kjobs)).1 := by
  have := (C77_key_list jobKEnv_ordered kjobs_reachable [op] (by simpa using hv)).1
  simpa [runHist] using this

example := C77_key_list_found (v := (1, 5)) jobKEnv_ordered kjobs_reachable (by rw [kjobs_says (.op (.contains _)) trivial]; decide +kernel)

example := C77_key_list_removed jobKEnv_ordered kjobs_reachable (1, 5)

example := C77_key_list_complete (v := (1, 5)) (w := (1, 5)) jobKEnv_ordered kjobs_reachable (by decide +kernel) (by decide +kernel)
  (by decide +kernel) (by decide +kernel)

example := C77_key_list_indexed (v := (1, 5)) (start := some 2) (stop := none) (r := 3) jobKEnv_ordered kjobs_reachable
  (by rw [kjobs_says (.op (.index _ _ _)) trivial]; decide +kernel)

end Demo

/-- A SortedList does not find a value that it has: `in` is false, `remove` raises ValueError and `discard` keeps it; and the value at the position
that `index` returns is a different one. -/
theorem C77_stored_not_found : ∃ (E : Env (Int × Nat)) (lt : Int × Nat → Int × Nat → Bool) (s : St (Int × Nat) (Int × Nat)) (v u : Int × Nat),
    E.Ordered lt ∧ (SL.api E).Reachable s ∧ v ∈ Core.iter s ∧ E.cmp .eq v v = .ok true ∧
    ((SL.api E).step (.contains v) s).1 = .ok (.bool false) ∧
    ((SL.api E).step (.remove v) s).1 = .error .valueError ∧
    v ∈ Core.iter ((SL.api E).step (.discard v) s).2 ∧
    ∃ i x, ((SL.api E).step (.index u (some 2) none) s).1 = .ok (.int (i : Nat)) ∧ (Core.iter s)[i]? = some x ∧
      E.cmp .ne x u = .ok true :=
  ⟨Demo.jobEnv, Demo.plt, Demo.jobs, (1, 5), (1, 0), Demo.jobEnv_ordered, Demo.jobs_reachable, by decide +kernel, by decide +kernel, by decide +kernel,
    by decide +kernel, by decide +kernel, 2, (1, 1), by decide +kernel, by decide +kernel, by decide +kernel⟩

end Verif
