import Verif.Props.SortedDict
import Verif.Proofs.Views
import Verif.Proofs.Keeps
/-!
# Properties of the self-checks, of the views of a SortedDict as sets and as sequences, and of dict equality
-/

namespace Verif
open PyDict (lookup)

/-! ## C53: the self-checks of SortedSet and SortedDict -/

theorem ListClass.check_ok {α : Type} {c : ListClass α} {lt eqv : α → α → Bool} (hc : c.Orders lt eqv) :
    ∃ O I, c.api.Lawful O I ∧ O.lt = lt ∧ (∀ a b, O.same a b = eqv a b) ∧
      ∀ s, I s → 4 ≤ c.load s → c.check s = .ok () := by
  cases hc with
  | plain hE he =>
    exact ⟨_, _, SL.api_lawful hE, rfl, fun a b => (he a b).symm, fun s hi hl => SL.check_ok hE hi hl⟩
  | keyed hK heq =>
    exact ⟨_, _, SKL.api_lawful hK, rfl, fun a b => by
      show (equiv _ _ _ && _) = _
      rcases Bool.eq_false_or_eq_true (eqv a b) with h | h
      · rw [h, heq a b h]; rfl
      · rw [h]; simp, fun s hi hl => SKL.check_ok hK hi hl⟩

section Check
variable {α τ : Type} {c : ListClass α} {lt eqv : α → α → Bool} {S : SetOps τ α}

/-- C53: `ss._check()` passes on every reachable state with a load factor of 4 or more. -/
theorem C53_set_check {s : SS τ c.State} (hc : c.Orders lt eqv) (hS : S.Lawful eqv) (hs : SS.Reachable S c.api s)
    (hl : 4 ≤ c.load s.list) : SS.check S c s = .ok () := by
  obtain ⟨O, I, h1, _, h3, h4⟩ := ListClass.check_ok hc
  have h : SS.Good S c.api O eqv I := ⟨hS, h1, h3⟩
  have hi := SS.reachable_inv h hs
  have hlen : (S.len s.set == c.api.len s.list) = true := by
    rw [beq_iff_eq, hi.len h]; exact (Except.ok.inj (h1.len _ hi.list).1).symm
  have hmem : ((c.api.iter s.list).all fun v => S.mem v s.set) = true := by
    rw [List.all_eq_true]
    intro x hx
    rw [hi.mem h]; exact any_self h.equiv hx
  simp only [SS.check, h4 _ hi.list hl, SL.assert, hlen, hmem]; rfl

/-- C53: a new set, and any number of calls with valid arguments later (`_reset` only with 4 or more), whether they raise
or not: `ss._check()` passes. -/
theorem C53_set_history {s : SS τ c.State} (hc : c.Orders lt eqv) (hS : S.Lawful eqv) {xs : Option (List α)}
    (e : SS.new S c.api xs = .ok s) (ops : List (SSOp α)) (hv : ∀ op ∈ ops, op.Valid)
    (hr : ∀ op ∈ ops, ∀ l, op = .reset l → 4 ≤ l) :
    SS.check S c (runHist (SS.step S c.api) ops s).2 = .ok () := by
  refine C53_set_check hc hS ?_ (SS.hist_keeps (c.keeps_load (by decide)) ops hr (SS.new_keeps (c.keeps_load (by decide)) e))
  have : ∀ (ops : List (SSOp α)), (∀ op ∈ ops, op.Valid) → ∀ s, SS.Reachable S c.api s →
      SS.Reachable S c.api (runHist (SS.step S c.api) ops s).2 := by
    intro ops
    induction ops with
    | nil => intro _ s h; exact h
    | cons op ops ih =>
      intro hv s h
      exact ih (fun o ho => hv o (by simp [ho])) _ (.step op (hv op (by simp)) h)
  exact this ops hv s (.new e)

end Check

section General
variable {κ ν τ : Type} {c : ListClass κ} {lt eqv : κ → κ → Bool} {s : SD κ ν c.State}

theorem SD.dict_length {O : Spec.Order κ} {I : c.State → Prop} (h : SD.Good c.api O eqv I) (hi : SD.Inv c.api O eqv I s) :
    s.dict.length = (SD.iter c.api s).length := by
  rw [SD.iter, hi.iter, (DictSpec.sortedKeys_sort h.order _).perm.length_eq]
  simp [PyDict.keys]

theorem SD.contains_iter {O : Spec.Order κ} {I : c.State → Prop} (h : SD.Good c.api O eqv I) (hi : SD.Inv c.api O eqv I s)
    (k : κ) : SD.contains eqv k s = (SD.iter c.api s).any (eqv · k) := by
  rw [SD.iter, hi.iter, DictSpec.sortedKeys_any h.order]; rfl

/-- C53: `sd._check()` passes on every reachable state with a load factor of 4 or more. -/
theorem C53_dict_check (hc : c.Orders lt eqv) (he : IsEquiv eqv) (hs : SD.Reachable eqv c.api s)
    (hl : 4 ≤ c.load s.list) : SD.check eqv c s = .ok () := by
  obtain ⟨O, I, h1, _, h3, h4⟩ := ListClass.check_ok hc
  have h : SD.Good c.api O eqv I := ⟨he, h1, h3⟩
  have hi := SD.reachable_inv h hs
  have hlen : (SD.length s == c.api.len s.list) = true := by
    rw [beq_iff_eq, SD.length, SD.dict_length h hi]; exact (Except.ok.inj (h1.len _ hi.list).1).symm
  have hmem : ((c.api.iter s.list).all fun k => SD.contains eqv k s) = true := by
    rw [List.all_eq_true]
    intro x hx
    rw [SD.contains_iter h hi]; exact any_self he hx
  simp only [SD.check, h4 _ hi.list hl, SL.assert, hlen, hmem]; rfl

/-- C53: a new dict, and any number of calls with valid arguments later (`_reset` only with 4 or more), whether they
raise or not: `sd._check()` passes. -/
theorem C53_dict_history (hc : c.Orders lt eqv) (he : IsEquiv eqv) {arg : DictArg κ ν} (hf : arg.fail = none)
    (e : SD.new eqv c.api arg = .ok s) (ops : List (SDOp κ ν)) (hv : ∀ op ∈ ops, op.Valid)
    (hr : ∀ op ∈ ops, ∀ l, op = .reset l → 4 ≤ l) :
    SD.check eqv c (runHist (SD.step eqv c.api) ops s).2 = .ok () := by
  refine C53_dict_check hc he ?_ (SD.hist_keeps (c.keeps_load (by decide)) ops hr (SD.new_keeps (c.keeps_load (by decide)) e))
  have : ∀ (ops : List (SDOp κ ν)), (∀ op ∈ ops, op.Valid) → ∀ s, SD.Reachable eqv c.api s →
      SD.Reachable eqv c.api (runHist (SD.step eqv c.api) ops s).2 := by
    intro ops
    induction ops with
    | nil => intro _ s h; exact h
    | cons op ops ih =>
      intro hv s h
      exact ih (fun o ho => hv o (by simp [ho])) _ (.step op (hv op (by simp)) h)
  exact this ops hv s (.new hf e)

/-! ## C54: the keys and items of a SortedDict as sets -/

/-- `r` is a new sorted set (without key function, so in the order `lt` of its values) of the values with `p`. -/
def IsSetOf {β : Type} (S : SetOps τ β) (c : ListClass β) (lt : β → β → Bool) (r : Except PyErr (SS τ c.State))
    (p : β → Prop) : Prop :=
  ∃ s', r = .ok s' ∧ SS.Reachable S c.api s' ∧ Sorted lt (SS.iter c.api s') ∧ ∀ x, SS.contains S x s' = true ↔ p x

/-- The members of the other operand. -/
def SetOperand.Has {β : Type} (eqv : β → β → Bool) : SetOperand β → β → Prop
  | .set b, x => b.has x = true
  | .iterable xs, x => ∃ y ∈ xs, eqv y x = true

/-- The other operand is any iterable, or an object that behaves as a finite set. -/
def SetOperand.Lawful {β : Type} (eqv : β → β → Bool) : SetOperand β → Prop
  | .set b => ∃ r, b.Lawful eqv r
  | .iterable _ => True

/-- What an operator on sets should answer. -/
def CmpOp.OnSets {β : Type} (p q : β → Prop) : CmpOp → Prop
  | .eq => ∀ x, p x ↔ q x
  | .ne => ¬ ∀ x, p x ↔ q x
  | .le => ∀ x, p x → q x
  | .ge => ∀ x, q x → p x
  | .lt => (∀ x, p x → q x) ∧ ∃ x, q x ∧ ¬ p x
  | .gt => (∀ x, q x → p x) ∧ ∃ x, p x ∧ ¬ q x

section Sets
variable {β : Type} {c0 : ListClass β} {lt0 beq : β → β → Bool} {S : SetOps τ β} {a b : ASet β} {l r : List β}

theorem ASet.compare_ok (he : IsEquiv beq) (ha : a.Lawful beq l) (hb : b.Lawful beq r) (op : CmpOp) :
    ∃ t, ASet.compare op a b = .ok t ∧ (t = true ↔ op.OnSets (fun x => a.has x = true) (fun x => b.has x = true)) := by
  have nall : ∀ {p q : β → Prop}, (¬ ∀ x, p x → q x) ↔ ∃ x, p x ∧ ¬ q x := by
    intro p q; simp only [Classical.not_forall]
    constructor
    · rintro ⟨x, h1, h2⟩; exact ⟨x, h1, h2⟩
    · rintro ⟨x, h1, h2⟩; exact ⟨x, h1, h2⟩
  cases op with
  | le => exact ASet.le_ok he ha hb
  | ge => exact ASet.ge_ok he ha hb
  | lt =>
    obtain ⟨t, e, h⟩ := ASet.lt_ok he ha hb
    exact ⟨t, e, by rw [h, nall]; exact Iff.rfl⟩
  | gt =>
    obtain ⟨t, e, h⟩ := ASet.gt_ok he ha hb
    exact ⟨t, e, by rw [h, nall]; exact Iff.rfl⟩
  | eq =>
    obtain ⟨t, e, h⟩ := ASet.eq_ok he ha hb
    exact ⟨t, e, by rw [h]; exact forall_congr' fun x => Bool.eq_iff_iff⟩
  | ne =>
    obtain ⟨t, e, h⟩ := ASet.eq_ok he ha hb
    refine ⟨!t, ?_, ?_⟩
    · have : ASet.compare .ne a b = (if a.len = b.len then ASet.le a b else .ok false).map (!·) := by
        simp only [ASet.compare]; split <;> rfl
      rw [this, e]; rfl
    have h' : t = true ↔ ∀ x, a.has x = true ↔ b.has x = true := h.trans (forall_congr' fun x => Bool.eq_iff_iff)
    show _ ↔ ¬ _
    rw [← h']; cases t <;> simp

theorem ASet.isdisjoint_ok (a : ASet β) (xs : List β) :
    ASet.isdisjoint xs a = true ↔ ∀ x ∈ xs, ¬ a.has x = true := by
  simp [ASet.isdisjoint]

theorem IsSetOf.new (hc : c0.Orders lt0 beq) (hS : S.Lawful beq) (xs : List β) {p : β → Prop}
    (hp : ∀ x, (∃ y ∈ xs, beq y x = true) ↔ p x) : IsSetOf S c0 lt0 (SS.new S c0.api (some xs)) p := by
  obtain ⟨s', e, hr, hm⟩ := C38_new hc hS (some xs)
  have h36 := C36_two_stores hc hS hr
  exact ⟨s', e, hr, h36.1, fun x => ((h36.2.2.1 x).trans (hm x)).trans (hp x)⟩

theorem exists_filter (he : IsEquiv beq) (xs : List β) {q : β → Bool} (hq : ∀ a b, beq a b = true → q a = q b) (x : β) :
    (∃ y ∈ xs.filter q, beq y x = true) ↔ (∃ y ∈ xs, beq y x = true) ∧ q x = true := by
  constructor
  · rintro ⟨y, hy, hyx⟩
    rw [List.mem_filter] at hy
    exact ⟨⟨y, hy.1, hyx⟩, (hq y x hyx) ▸ hy.2⟩
  · rintro ⟨⟨y, hy, hyx⟩, hx⟩
    exact ⟨y, List.mem_filter.2 ⟨hy, (hq y x hyx) ▸ hx⟩, hyx⟩

theorem ASet.Lawful.has_iff (ha : a.Lawful beq l) (x : β) : a.has x = true ↔ ∃ y ∈ l, beq y x = true := by
  rw [ha.has]; exact any_eq_true_iff

theorem ofSorted_lawful {c1 : ListClass β} {lt1 : β → β → Bool} {t : SS τ c1.State} (hc : c1.Orders lt1 beq)
    (hS : S.Lawful beq) (ht : SS.Reachable S c1.api t) : (ASet.ofSorted S c1.api t).Lawful beq (SS.iter c1.api t) := by
  have h := C36_two_stores hc hS ht
  refine ⟨rfl, h.2.2.2, h.2.1, fun v => ?_⟩
  rw [Bool.eq_iff_iff]
  exact (h.2.2.1 v).trans any_eq_true_iff.symm

theorem ofBuiltin_lawful (hS : S.Lawful beq) (t : τ) : (ASet.ofBuiltin S t).Lawful beq (S.toList t) :=
  ⟨rfl, hS.len t, hS.distinct t, fun v => hS.mem v t⟩

theorem ASet.operand_ok (hc : c0.Orders lt0 beq) (hS : S.Lawful beq) {o : SetOperand β} (ho : o.Lawful beq) :
    ∃ b r, ASet.operand S c0.api o = .ok b ∧ b.Lawful beq r ∧ ∀ x, b.has x = true ↔ o.Has beq x := by
  cases o with
  | set b => obtain ⟨r, hr⟩ := ho; exact ⟨b, r, rfl, hr, fun x => Iff.rfl⟩
  | iterable xs =>
    obtain ⟨s', e, hr, _, hm⟩ := IsSetOf.new hc hS xs (p := fun x => ∃ y ∈ xs, beq y x = true) fun x => Iff.rfl
    refine ⟨_, _, ?_, ofSorted_lawful hc hS hr, hm⟩
    simp only [ASet.operand, ASet.fromIterable, e]; rfl

theorem ASet.operators_ok (hc : c0.Orders lt0 beq) (hS : S.Lawful beq) (ha : a.Lawful beq l) (xs : List β)
    {o : SetOperand β} (ho : o.Lawful beq) :
    IsSetOf S c0 lt0 (ASet.and S c0.api xs a) (fun x => a.has x = true ∧ ∃ y ∈ xs, beq y x = true) ∧
    IsSetOf S c0 lt0 (ASet.or S c0.api xs a) (fun x => a.has x = true ∨ ∃ y ∈ xs, beq y x = true) ∧
    IsSetOf S c0 lt0 (ASet.sub S c0.api o a) (fun x => a.has x = true ∧ ¬ o.Has beq x) ∧
    IsSetOf S c0 lt0 (ASet.rsub S c0.api o a) (fun x => o.Has beq x ∧ ¬ a.has x = true) ∧
    IsSetOf S c0 lt0 (ASet.xor S c0.api o a)
      (fun x => (a.has x = true ∧ ¬ o.Has beq x) ∨ (o.Has beq x ∧ ¬ a.has x = true)) := by
  have he : IsEquiv beq := ⟨hS.refl, hS.symm, hS.trans⟩
  obtain ⟨b, r, eb, hb, hbo⟩ := ASet.operand_ok (S := S) hc hS ho
  have hsub : IsSetOf S c0 lt0 (ASet.sub S c0.api o a) (fun x => a.has x = true ∧ ¬ o.Has beq x) := by
    unfold ASet.sub
    rw [eb, ha.iter]
    refine IsSetOf.new hc hS _ fun x => ?_
    rw [exists_filter he _ (fun u v huv => by rw [hb.congr he huv]), ← ha.has_iff, ← hbo]
    simp
  have hrsub : IsSetOf S c0 lt0 (ASet.rsub S c0.api o a) (fun x => o.Has beq x ∧ ¬ a.has x = true) := by
    unfold ASet.rsub
    rw [eb]
    simp only [bind, Except.bind]
    rw [hb.iter]
    refine IsSetOf.new hc hS _ fun x => ?_
    rw [exists_filter he _ (fun u v huv => by rw [ha.congr he huv]), ← hb.has_iff, ← hbo]
    simp
  refine ⟨?_, ?_, hsub, hrsub, ?_⟩
  · refine IsSetOf.new hc hS _ fun x => ?_
    rw [exists_filter he _ (fun u v huv => ha.congr he huv)]
    exact and_comm
  · unfold ASet.or
    rw [ha.iter]
    refine IsSetOf.new hc hS _ fun x => ?_
    rw [ha.has_iff]
    constructor
    · rintro ⟨y, hy, hyx⟩
      rcases List.mem_append.1 hy with h | h
      · exact .inl ⟨y, h, hyx⟩
      · exact .inr ⟨y, h, hyx⟩
    · rintro (⟨y, hy, hyx⟩ | ⟨y, hy, hyx⟩)
      · exact ⟨y, List.mem_append.2 (.inl hy), hyx⟩
      · exact ⟨y, List.mem_append.2 (.inr hy), hyx⟩
  · obtain ⟨left, el, hlr, _, hlm⟩ := hsub
    have key : ∀ {right : SS τ c0.State}, SS.Reachable S c0.api right →
        (∀ x, SS.contains S x right = true ↔ o.Has beq x ∧ ¬ a.has x = true) →
        IsSetOf S c0 lt0 (SS.union S c0.api [SS.iter c0.api right] left)
          (fun x => (a.has x = true ∧ ¬ o.Has beq x) ∨ (o.Has beq x ∧ ¬ a.has x = true)) := by
      intro right hrr hrm
      obtain ⟨s', e, hr, hm, _, _⟩ := C38_union hc hS hlr [SS.iter c0.api right]
      have h36 := C36_two_stores hc hS hr
      have h36l := C36_two_stores hc hS hlr
      have h36r := C36_two_stores hc hS hrr
      refine ⟨s', e, hr, h36.1, fun x => ?_⟩
      refine (h36.2.2.1 x).trans ((hm x).trans (or_congr ((h36l.2.2.1 x).symm.trans (hlm x)) ?_))
      refine Iff.trans ?_ ((h36r.2.2.1 x).symm.trans (hrm x))
      simp
    unfold ASet.xor
    rw [el]
    simp only [bind, Except.bind]
    cases o with
    | set b' =>
      obtain ⟨right, er, hrr, _, hrm⟩ := hrsub
      simp only [er]
      exact key hrr hrm
    | iterable ys =>
      obtain ⟨o', eo, hor, _, hom⟩ := IsSetOf.new hc hS ys (p := fun x => ∃ y ∈ ys, beq y x = true) fun x => Iff.rfl
      obtain ⟨right, er, hrr, hrm⟩ := C38_difference hc hS hor [l]
      have h36o := C36_two_stores hc hS hor
      have h36r := C36_two_stores hc hS hrr
      simp only [ASet.fromIterable, eo, ha.iter, er]
      refine key hrr fun x => ?_
      rw [h36r.2.2.1 x]
      show _ ↔ (∃ y ∈ ys, beq y x = true) ∧ ¬ a.has x = true
      have hox : (∃ y ∈ SS.iter c0.api o', beq y x = true) ↔ ∃ y ∈ ys, beq y x = true := (h36o.2.2.1 x).symm.trans (hom x)
      rw [← hox]
      constructor
      · rintro ⟨y, hy, hyx⟩
        have := (hrm y).1 hy
        refine ⟨⟨y, this.1, hyx⟩, ?_⟩
        rw [← ha.congr he hyx, ha.has_iff]
        simpa using this.2
      · rintro ⟨⟨y, hy, hyx⟩, hx⟩
        refine ⟨y, (hrm y).2 ⟨hy, ?_⟩, hyx⟩
        rw [← ha.congr he hyx, ha.has_iff] at hx
        simpa using hx

end Sets

/-- `itemEq` is an equivalence. -/
theorem SD.itemEq_equiv {veq : ν → ν → Bool} (he : IsEquiv eqv) (hv : IsEquiv veq) : IsEquiv (SD.itemEq eqv veq) where
  refl a := by simp [SD.itemEq, he.refl, hv.refl]
  symm a b := by simp only [SD.itemEq, he.symm a.1 b.1, hv.symm a.2 b.2]
  trans a b d h1 h2 := by
    simp only [SD.itemEq, Bool.and_eq_true] at h1 h2 ⊢
    exact ⟨he.trans _ _ _ h1.1 h2.1, hv.trans _ _ _ h1.2 h2.2⟩

/-- C54: `sd.keys()` behaves as the finite set of the keys: `len`, iteration (in key order) and `in` agree. -/
theorem C54_keys_set (hc : c.Orders lt eqv) (he : IsEquiv eqv) (hs : SD.Reachable eqv c.api s) :
    (SD.keysView eqv c.api s).Lawful eqv (SD.iter c.api s) := by
  obtain ⟨O, I, h, rfl⟩ := SD.good hc he
  have hi := SD.reachable_inv h hs
  refine ⟨rfl, SD.dict_length h hi, ?_, SD.contains_iter h hi⟩
  rw [SD.iter, hi.iter]; exact DictSpec.sortedKeys_distinct h.order he hi.keyed

/-- C54: `sd.items()` behaves as the finite set of the items. -/
theorem C54_items_set {veq : ν → ν → Bool} (hc : c.Orders lt eqv) (he : IsEquiv eqv)
    (hs : SD.Reachable eqv c.api s) :
    ∃ items, SD.items eqv c.api s = .ok items ∧
      (SD.itemsView eqv veq c.api s).Lawful (SD.itemEq eqv veq) items := by
  obtain ⟨O, I, h, rfl⟩ := SD.good hc he
  have hi := SD.reachable_inv h hs
  refine ⟨_, SD.items_ok h hi, SD.items_ok h hi, ?_, ?_, fun p => ?_⟩
  · show s.dict.length = _
    rw [SD.dict_length h hi, SD.iter, hi.iter, DictSpec.sortedItems_length h.order he]
  · have hk := DictSpec.keyed_sortedItems h.order he hi.keyed
    refine (List.pairwise_map.1 hk).imp ?_
    intro p q hpq
    simp only [SD.itemEq, hpq, Bool.false_and]
  · show (lookup eqv s.dict p.1).any _ = _
    rw [← DictSpec.lookup_sortedItems h.order he hi.keyed, Bool.eq_iff_iff, List.any_eq_true]
    have hk := DictSpec.keyed_sortedItems h.order he hi.keyed
    constructor
    · intro hp
      cases hl : lookup eqv (DictSpec.sortedItems eqv O s.dict) p.1 with
      | none => rw [hl] at hp; cases hp
      | some v =>
        rw [hl] at hp
        obtain ⟨k', hm, hk'⟩ := PyDict.mem_of_lookup hl
        exact ⟨_, hk', by simp only [SD.itemEq, Bool.and_eq_true]; exact ⟨hm, hp⟩⟩
    · rintro ⟨q, hq, hqp⟩
      simp only [SD.itemEq, Bool.and_eq_true] at hqp
      have := (PyDict.lookup_of_keyed he hk p.1 q.2).2 ⟨q.1, hqp.1, hq⟩
      rw [this]; exact hqp.2

/-- C54: the six comparisons of `sd.keys()` with any object that behaves as a finite set. -/
theorem C54_keys_compare (hc : c.Orders lt eqv) (he : IsEquiv eqv) (hs : SD.Reachable eqv c.api s) {b : ASet κ}
    {r : List κ} (hb : b.Lawful eqv r) (op : CmpOp) :
    ∃ t, ASet.compare op (SD.keysView eqv c.api s) b = .ok t ∧
      (t = true ↔ op.OnSets (fun k => SD.contains eqv k s = true) (fun k => b.has k = true)) :=
  ASet.compare_ok he (C54_keys_set hc he hs) hb op

theorem SD.itemsView_has (veq : ν → ν → Bool) (p : κ × ν) :
    (SD.itemsView eqv veq c.api s).has p = true ↔ ∃ v, SD.get eqv p.1 s = some v ∧ veq v p.2 = true := by
  show (SD.get eqv p.1 s).any _ = true ↔ _
  cases SD.get eqv p.1 s <;> simp

/-- C54: the six comparisons of `sd.items()` with any object that behaves as a finite set of items. -/
theorem C54_items_compare {veq : ν → ν → Bool} (hc : c.Orders lt eqv) (he : IsEquiv eqv) (hv : IsEquiv veq)
    (hs : SD.Reachable eqv c.api s) {b : ASet (κ × ν)} {r : List (κ × ν)} (hb : b.Lawful (SD.itemEq eqv veq) r)
    (op : CmpOp) :
    ∃ t, ASet.compare op (SD.itemsView eqv veq c.api s) b = .ok t ∧
      (t = true ↔ op.OnSets (fun p => ∃ v, SD.get eqv p.1 s = some v ∧ veq v p.2 = true) (fun p => b.has p = true)) := by
  obtain ⟨items, _, h⟩ := C54_items_set (veq := veq) hc he hs
  have e : (fun p => (SD.itemsView eqv veq c.api s).has p = true) =
      fun p : κ × ν => ∃ v, SD.get eqv p.1 s = some v ∧ veq v p.2 = true := by
    funext p; exact propext (SD.itemsView_has veq p)
  rw [← e]
  exact ASet.compare_ok (SD.itemEq_equiv he hv) h hb op

/-- C54: `sd.keys().isdisjoint(xs)` and `sd.items().isdisjoint(xs)` -/
theorem C54_isdisjoint (veq : ν → ν → Bool) (ks : List κ) (ps : List (κ × ν)) :
    (ASet.isdisjoint ks (SD.keysView eqv c.api s) = true ↔ ∀ k ∈ ks, ¬ SD.contains eqv k s = true) ∧
    (ASet.isdisjoint ps (SD.itemsView eqv veq c.api s) = true ↔
      ∀ p ∈ ps, ¬ ∃ v, SD.get eqv p.1 s = some v ∧ veq v p.2 = true) := by
  refine ⟨ASet.isdisjoint_ok _ ks, ?_⟩
  rw [ASet.isdisjoint_ok]
  exact forall_congr' fun p => imp_congr_right fun _ => not_congr (SD.itemsView_has veq p)

/-- C54: `sd.keys() & xs`, `sd.keys() | xs` (and reflected, with any iterable of keys), `sd.keys() - other`,
`other - sd.keys()`, `sd.keys() ^ other` (and reflected) are new sorted sets with the members the operator asks for.  They
are in the natural order `lt0` of the keys, also if the dict has a key function. -/
theorem C54_keys_operators {E : Env κ} {lt0 : κ → κ → Bool} {S : SetOps τ κ} (hc : c.Orders lt eqv)
    (hE : (ListClass.plain E).Orders lt0 eqv) (hS : S.Lawful eqv) (hs : SD.Reachable eqv c.api s) (xs : List κ)
    {o : SetOperand κ} (ho : o.Lawful eqv) :
    let keys := SD.keysView eqv c.api s
    IsSetOf S (.plain E) lt0 (ASet.and S (SL.api E) xs keys)
      (fun k => SD.contains eqv k s = true ∧ ∃ y ∈ xs, eqv y k = true) ∧
    IsSetOf S (.plain E) lt0 (ASet.or S (SL.api E) xs keys)
      (fun k => SD.contains eqv k s = true ∨ ∃ y ∈ xs, eqv y k = true) ∧
    IsSetOf S (.plain E) lt0 (ASet.sub S (SL.api E) o keys) (fun k => SD.contains eqv k s = true ∧ ¬ o.Has eqv k) ∧
    IsSetOf S (.plain E) lt0 (ASet.rsub S (SL.api E) o keys) (fun k => o.Has eqv k ∧ ¬ SD.contains eqv k s = true) ∧
    IsSetOf S (.plain E) lt0 (ASet.xor S (SL.api E) o keys)
      (fun k => (SD.contains eqv k s = true ∧ ¬ o.Has eqv k) ∨ (o.Has eqv k ∧ ¬ SD.contains eqv k s = true)) :=
  ASet.operators_ok hE hS (C54_keys_set hc ⟨hS.refl, hS.symm, hS.trans⟩ hs) xs ho

/-- C54: the same for `sd.items()`. -/
theorem C54_items_operators {veq : ν → ν → Bool} {E : Env (κ × ν)} {lt0 : κ × ν → κ × ν → Bool} {S : SetOps τ (κ × ν)}
    (hc : c.Orders lt eqv) (he : IsEquiv eqv) (hE : (ListClass.plain E).Orders lt0 (SD.itemEq eqv veq))
    (hS : S.Lawful (SD.itemEq eqv veq)) (hs : SD.Reachable eqv c.api s) (xs : List (κ × ν)) {o : SetOperand (κ × ν)}
    (ho : o.Lawful (SD.itemEq eqv veq)) :
    let items := SD.itemsView eqv veq c.api s
    let isItem := fun p : κ × ν => ∃ v, SD.get eqv p.1 s = some v ∧ veq v p.2 = true
    IsSetOf S (.plain E) lt0 (ASet.and S (SL.api E) xs items)
      (fun p => isItem p ∧ ∃ y ∈ xs, SD.itemEq eqv veq y p = true) ∧
    IsSetOf S (.plain E) lt0 (ASet.or S (SL.api E) xs items)
      (fun p => isItem p ∨ ∃ y ∈ xs, SD.itemEq eqv veq y p = true) ∧
    IsSetOf S (.plain E) lt0 (ASet.sub S (SL.api E) o items) (fun p => isItem p ∧ ¬ o.Has (SD.itemEq eqv veq) p) ∧
    IsSetOf S (.plain E) lt0 (ASet.rsub S (SL.api E) o items) (fun p => o.Has (SD.itemEq eqv veq) p ∧ ¬ isItem p) ∧
    IsSetOf S (.plain E) lt0 (ASet.xor S (SL.api E) o items)
      (fun p => (isItem p ∧ ¬ o.Has (SD.itemEq eqv veq) p) ∨ (o.Has (SD.itemEq eqv veq) p ∧ ¬ isItem p)) := by
  intro items isItem
  have e : isItem = fun p => items.has p = true := by
    funext p; exact (propext (SD.itemsView_has veq p)).symm
  obtain ⟨l, _, h⟩ := C54_items_set (veq := veq) hc he hs
  rw [e]
  exact ASet.operators_ok hE hS h xs ho

/-- C54: what the other operand can be: the keys or items of another sorted dict (with another key function), a built-in
set, a sorted set. -/
theorem C54_operands {β : Type} {S : SetOps τ β} {beq lt1 : β → β → Bool} {c1 : ListClass β} {t : SS τ c1.State}
    (hc1 : c1.Orders lt1 beq) (hS : S.Lawful beq) (ht : SS.Reachable S c1.api t) (u : τ) :
    (ASet.ofSorted S c1.api t).Lawful beq (SS.iter c1.api t) ∧ (ASet.ofBuiltin S u).Lawful beq (S.toList u) :=
  ⟨ofSorted_lawful hc1 hS ht, ofBuiltin_lawful hS u⟩

/-! ## C55: the views as sequences -/

/-- What `index(value, start, stop)` of a sequence with the entries `l` should do: the least position in the range with
an equal entry, else ValueError.  Negative bounds count from the end. -/
def IndexSpec {β : Type} (beq : β → β → Bool) (l : List β) (value : β) (start : Int) (stop : Option Int)
    (r : Except PyErr Int) : Prop :=
  let inside := fun n : Nat => (if start < 0 then start + l.length else start) ≤ n ∧
    ∀ t, stop = some t → (n : Int) < if t < 0 then t + l.length else t
  let hit := fun n : Nat => inside n ∧ ∃ y, l[n]? = some y ∧ beq y value = true
  (∃ n : Nat, r = .ok n ∧ hit n ∧ ∀ m, m < n → ¬ hit m) ∨ (r = .error .valueError ∧ ∀ n, ¬ hit n)

theorem Seq.index_ok {σ β : Type} {P : σ → Prop} {len : σ → Nat} {at_ : Int → Py σ β} {l : List β}
    (hat : ∀ t, P t → ∀ i, ∃ t', at_ i t = ((Spec.getInt i l).1, t') ∧ P t') (beq : β → β → Bool) (value : β)
    (start : Int) (stop : Option Int) {s : σ} (hs : P s) (hlen : len s = l.length) :
    ∃ r s', Seq.index len at_ beq value start stop s = (r, s') ∧ P s' ∧ IndexSpec beq l value start stop r := by
  unfold Seq.index
  simp only [Py.get_bind]
  rw [hlen]
  obtain ⟨i, hi⟩ : ∃ i : Nat, (if start < 0 then max ((l.length : Int) + start) 0 else start) = i := by
    split
    · exact ⟨(max ((l.length : Int) + start) 0).toNat, by omega⟩
    · exact ⟨start.toNat, by omega⟩
  have hle : ∀ n : Nat, ((if start < 0 then start + l.length else start) ≤ (n : Int)) ↔ i ≤ n := by
    intro n; split at hi <;> split <;> omega
  have hst : ∀ n : Nat, (∀ t, stop = some t → (n : Int) < if t < 0 then t + (l.length : Int) else t) ↔
      (stop.map fun t : Int => if t < 0 then t + (l.length : Int) else t).all ((n : Int) < ·) = true := by
    intro n
    cases stop with
    | none => simp
    | some t => simp
  rw [hi]
  obtain ⟨s', hs', h⟩ := Seq.indexLoop_ok hat beq value
    (stop.map fun t : Int => if t < 0 then t + (l.length : Int) else t) (l.length + 1) i (by omega) (by omega) hs
  rcases h with ⟨n, y, e, h1, h2, h3, h4, h5⟩ | ⟨e, h1⟩
  · refine ⟨_, s', e, hs', .inl ⟨n, rfl, ⟨⟨(hle n).2 h1, (hst n).2 h2⟩, y, h3, h4⟩, ?_⟩⟩
    rintro m hm ⟨⟨ha, hb⟩, z, hz, hz'⟩
    rw [h5 m z ((hle m).1 ha) hm hz] at hz'; cases hz'
  · refine ⟨_, s', e, hs', .inr ⟨rfl, ?_⟩⟩
    rintro m ⟨⟨ha, hb⟩, z, hz, hz'⟩
    rw [h1 m z ((hle m).1 ha) ((hst m).1 hb) hz] at hz'; cases hz'

/-- The states of a dict that only differ in the index of the sorted list. -/
theorem SD.at_ok {O : Spec.Order κ} {I : c.State → Prop} (h : SD.Good c.api O eqv I) (s : SD κ ν c.State) :
    let P := fun t : SD κ ν c.State => SD.Inv c.api O eqv I t ∧ t.dict = s.dict
    (∀ t, P t → ∀ i, ∃ t', SD.keysAt c.api i t = ((Spec.getInt i (DictSpec.sortedKeys O s.dict)).1, t') ∧ P t') ∧
    (∀ t, P t → ∀ i, ∃ t', SD.peekitem eqv c.api i t = ((Spec.getInt i (DictSpec.sortedItems eqv O s.dict)).1, t') ∧ P t') ∧
    (∀ t, P t → ∀ i, ∃ t', SD.valuesAt eqv c.api i t = ((Spec.getInt i (DictSpec.sortedValues eqv O s.dict)).1, t') ∧ P t') := by
  intro P
  refine ⟨fun t ht i => ?_, fun t ht i => ?_, fun t ht i => ?_⟩
  · obtain ⟨t', e, hd, hi'⟩ := (SD.onKeys_refines (h.list.getInt i)
      (fun l => by unfold Spec.getInt; split <;> rfl)).eq_of ht.1 rfl
    rw [ht.2] at e
    exact ⟨t', e, hi', hd.trans ht.2⟩
  · obtain ⟨t', e, hd, hi'⟩ := (SD.peekitem_refines h i).eq_of ht.1 rfl
    rw [ht.2] at e
    exact ⟨t', e, hi', hd.trans ht.2⟩
  · obtain ⟨t', e, hd, hi'⟩ := (SD.valuesAt_refines h i).eq_of ht.1 rfl
    rw [ht.2] at e
    exact ⟨t', e, hi', hd.trans ht.2⟩

theorem SD.lists_length {O : Spec.Order κ} {I : c.State → Prop} (h : SD.Good c.api O eqv I) (hi : SD.Inv c.api O eqv I s) :
    SD.length s = (DictSpec.sortedKeys O s.dict).length ∧ SD.length s = (DictSpec.sortedItems eqv O s.dict).length ∧
    SD.length s = (DictSpec.sortedValues eqv O s.dict).length := by
  have h1 : SD.length s = (DictSpec.sortedKeys O s.dict).length := by
    rw [SD.length, SD.dict_length h hi, SD.iter, hi.iter]
  have h2 : SD.length s = (DictSpec.sortedItems eqv O s.dict).length := by
    rw [h1, DictSpec.sortedItems_length h.order h.equiv]
  exact ⟨h1, h2, by rw [DictSpec.sortedValues, List.length_map]; exact h2⟩

/-- C55: `reversed(view)` yields the keys, items, values in descending order of the keys, and changes nothing. -/
theorem C55_reversed (hc : c.Orders lt eqv) (he : IsEquiv eqv) (hs : SD.Reachable eqv c.api s) :
    ∃ items s1 s2 s3, SD.items eqv c.api s = .ok items ∧ SD.Same c s s1 ∧ SD.Same c s s2 ∧ SD.Same c s s3 ∧
      SD.keysReversed c.api s = (.ok (SD.iter c.api s).reverse, s1) ∧
      SD.itemsReversed eqv c.api s = (.ok items.reverse, s2) ∧
      SD.valuesReversed eqv c.api s = (.ok (items.map Prod.snd).reverse, s3) := by
  obtain ⟨O, I, h, rfl⟩ := SD.good hc he
  have hi := SD.reachable_inv h hs
  have ha := SD.at_ok h s
  have hl := SD.lists_length h hi
  obtain ⟨s1, e1, h1⟩ := Seq.reversed_ok ha.1 ⟨hi, rfl⟩ hl.1
  obtain ⟨s2, e2, h2⟩ := Seq.reversed_ok ha.2.1 ⟨hi, rfl⟩ hl.2.1
  obtain ⟨s3, e3, h3⟩ := Seq.reversed_ok ha.2.2 ⟨hi, rfl⟩ hl.2.2
  refine ⟨_, s1, s2, s3, SD.items_ok h hi, SD.same hi h1.1 h1.2, SD.same hi h2.1 h2.2, SD.same hi h3.1 h3.2, ?_, e2, e3⟩
  rw [SD.iter, hi.iter]; exact e1

/-- C55: `index` of the views -/
theorem C55_index {veq : ν → ν → Bool} (hc : c.Orders lt eqv) (he : IsEquiv eqv) (hs : SD.Reachable eqv c.api s) (k : κ)
    (v : ν) (start : Int) (stop : Option Int) :
    ∃ items r1 r2 r3 s1 s2 s3, SD.items eqv c.api s = .ok items ∧ SD.Same c s s1 ∧ SD.Same c s s2 ∧ SD.Same c s s3 ∧
      SD.keysIndex eqv c.api k start stop s = (r1, s1) ∧ IndexSpec eqv (SD.iter c.api s) k start stop r1 ∧
      SD.itemsIndex eqv veq c.api (k, v) start stop s = (r2, s2) ∧
        IndexSpec (SD.itemEq eqv veq) items (k, v) start stop r2 ∧
      SD.valuesIndex eqv veq c.api v start stop s = (r3, s3) ∧
        IndexSpec veq (items.map Prod.snd) v start stop r3 := by
  obtain ⟨O, I, h, rfl⟩ := SD.good hc he
  have hi := SD.reachable_inv h hs
  have ha := SD.at_ok h s
  have hl := SD.lists_length h hi
  obtain ⟨r1, s1, e1, h1, p1⟩ := Seq.index_ok ha.1 eqv k start stop ⟨hi, rfl⟩ hl.1
  obtain ⟨r2, s2, e2, h2, p2⟩ := Seq.index_ok ha.2.1 (SD.itemEq eqv veq) (k, v) start stop ⟨hi, rfl⟩ hl.2.1
  obtain ⟨r3, s3, e3, h3, p3⟩ := Seq.index_ok ha.2.2 veq v start stop ⟨hi, rfl⟩ hl.2.2
  refine ⟨_, r1, r2, r3, s1, s2, s3, SD.items_ok h hi, SD.same hi h1.1 h1.2, SD.same hi h2.1 h2.2, SD.same hi h3.1 h3.2,
    e1, ?_, e2, p2, e3, p3⟩
  rw [SD.iter, hi.iter]; exact p1

theorem countP_unique {β : Type} {p : β → Bool} {l : List β} (h : l.Pairwise fun a b => ¬ (p a = true ∧ p b = true)) :
    l.countP p = if l.any p then 1 else 0 := by
  induction l with
  | nil => rfl
  | cons a l ih =>
    rw [List.pairwise_cons] at h
    rw [List.countP_cons, ih h.2, List.any_cons]
    cases hp : p a with
    | false => simp
    | true =>
      have : l.any p = false := by
        rw [List.any_eq_false]
        intro x hx hpx
        exact h.1 x hx ⟨hp, hpx⟩
      simp [this]

/-- C55: `count` of the views, and `value in sd.values()` -/
theorem C55_count {veq : ν → ν → Bool} (hc : c.Orders lt eqv) (he : IsEquiv eqv) (hs : SD.Reachable eqv c.api s) (k : κ)
    (v : ν) :
    ∃ items, SD.items eqv c.api s = .ok items ∧
      SD.keysCount eqv c.api k s = .ok (if SD.contains eqv k s then 1 else 0) ∧
      SD.itemsCount eqv veq c.api (k, v) s = .ok (if (SD.get eqv k s).any (veq · v) then 1 else 0) ∧
      SD.valuesCount eqv veq c.api v s = .ok (items.countP fun p => veq p.2 v) ∧
      SD.valuesContains eqv veq c.api v s = .ok (items.any fun p => veq p.2 v) := by
  have hk := C54_keys_set hc he hs
  obtain ⟨items, hit, hl⟩ := C54_items_set (veq := veq) hc he hs
  obtain ⟨O, I, h, rfl⟩ := SD.good hc he
  have hi := SD.reachable_inv h hs
  have hit' := hit
  rw [SD.items_ok h hi] at hit'
  have hitems := Except.ok.inj hit'
  have hkey := DictSpec.keyed_sortedItems h.order he hi.keyed
  rw [hitems] at hkey
  have hvals : SD.values eqv c.api s = .ok (items.map Prod.snd) := by rw [SD.values_ok h hi, ← hitems]; rfl
  have clash : ∀ {a b x : κ}, eqv a b = false → ¬ (eqv a x = true ∧ eqv b x = true) := by
    rintro a b x hab ⟨h1, h2⟩
    rw [he.symm] at h2
    rw [he.trans _ _ _ h1 h2] at hab; cases hab
  refine ⟨items, hit, ?_, ?_, ?_, ?_⟩
  · have hc1 := hk.has k
    change SD.contains eqv k s = _ at hc1
    show Except.ok ((SD.iter c.api s).countP (eqv · k)) = _
    rw [hc1, countP_unique (hk.distinct.imp clash)]
  · have hc1 := hl.has (k, v)
    change (SD.get eqv k s).any (veq · v) = _ at hc1
    simp only [SD.itemsCount, Seq.count, hit]
    show Except.ok (items.countP (SD.itemEq eqv veq · (k, v))) = _
    rw [hc1, countP_unique]
    refine (List.pairwise_map.1 hkey).imp ?_
    intro p q hpq hh
    simp only [SD.itemEq, Bool.and_eq_true] at hh
    exact clash hpq ⟨hh.1.1, hh.2.1⟩
  · simp only [SD.valuesCount, Seq.count, hvals]
    show Except.ok ((items.map Prod.snd).countP (veq · v)) = _
    rw [List.countP_map]; rfl
  · simp only [SD.valuesContains, hvals]
    show Except.ok ((items.map Prod.snd).any (veq · v)) = _
    rw [List.any_map]; rfl

/-! ## C56: equality -/

/-- C56: `sd == other` for a sorted dict or plain dict `other`, whatever the key functions and the histories: True exactly
if both have the same keys with equal values. -/
theorem C56_equality {veq : ν → ν → Bool} (hc : c.Orders lt eqv) (he : IsEquiv eqv) (hs : SD.Reachable eqv c.api s)
    {other : List (κ × ν)} (ho : (PyDict.keys other).Pairwise fun a b => eqv a b = false) :
    SD.eq eqv veq other s = true ↔
      ∀ k, match SD.get eqv k s, lookup eqv other k with
        | some v, some w => veq v w = true
        | none, none => True
        | _, _ => False := by
  obtain ⟨O, I, h, rfl⟩ := SD.good hc he
  have hi := SD.reachable_inv h hs
  have hk := hi.keyed
  have hko : PyDict.Keyed eqv other := ho
  unfold SD.eq PyDict.equal
  rw [Bool.and_eq_true, beq_iff_eq, List.all_eq_true]
  have hlen : ∀ d : List (κ × ν), d.length = (PyDict.keys d).length := fun d => by simp [PyDict.keys]
  constructor
  · rintro ⟨h1, h2⟩ k
    cases hl : SD.get eqv k s with
    | some v =>
      obtain ⟨k', hkk, hm⟩ := PyDict.mem_of_lookup hl
      have := h2 _ hm
      simp only at this
      have hcg : lookup eqv other k' = lookup eqv other k := by
        simp only [lookup, he.congr hkk]
      rw [hcg] at this
      cases ho' : lookup eqv other k with
      | none => rw [ho'] at this; cases this
      | some w => rw [ho'] at this; exact this
    | none =>
      cases ho' : lookup eqv other k with
      | none => trivial
      | some w =>
        exfalso
        have hsub : ∀ x ∈ PyDict.keys s.dict, (PyDict.keys other).any (eqv · x) = true := by
          intro x hx
          rw [PyDict.keys, List.mem_map] at hx
          obtain ⟨p, hp, rfl⟩ := hx
          have := h2 p hp
          rw [← PyDict.has_eq, PyDict.has_eq_lookup]
          cases hl' : lookup eqv other p.1 with
          | none => rw [hl'] at this; cases this
          | some _ => rfl
        have hsup := Distinct.superset_of_length he hk hko hsub (by rw [← hlen, ← hlen]; omega)
        obtain ⟨k', hkk, hm⟩ := PyDict.mem_of_lookup ho'
        have := hsup k' (by rw [PyDict.keys, List.mem_map]; exact ⟨_, hm, rfl⟩)
        rw [any_congr_eqv he hkk, ← PyDict.has_eq, PyDict.has_eq_lookup] at this
        change (SD.get eqv k s).isSome = true at this
        rw [hl] at this; cases this
  · intro hall
    have hhas : ∀ k, PyDict.has eqv s.dict k = PyDict.has eqv other k := by
      intro k
      have := hall k
      rw [PyDict.has_eq_lookup, PyDict.has_eq_lookup]
      change (SD.get eqv k s).isSome = _
      revert this
      cases SD.get eqv k s <;> cases lookup eqv other k <;> simp
    refine ⟨?_, fun p hp => ?_⟩
    · rw [hlen, hlen]
      refine Nat.le_antisymm (Distinct.length_le he hk hko fun x hx => ?_) (Distinct.length_le he hko hk fun x hx => ?_)
      · rw [← PyDict.has_eq, ← hhas, PyDict.has_eq]; exact any_self he hx
      · rw [← PyDict.has_eq, hhas, PyDict.has_eq]; exact any_self he hx
    · have := hall p.1
      have hl : SD.get eqv p.1 s = some p.2 := PyDict.lookup_mem he hk hp
      rw [hl] at this
      revert this
      cases lookup eqv other p.1 <;> simp

/-- C56: two sorted dicts, with any key functions. -/
theorem C56_sorted_dicts {c' : ListClass κ} {lt' : κ → κ → Bool} {t : SD κ ν c'.State} {veq : ν → ν → Bool}
    (hc : c.Orders lt eqv) (hc' : c'.Orders lt' eqv) (he : IsEquiv eqv) (hs : SD.Reachable eqv c.api s)
    (ht : SD.Reachable eqv c'.api t) :
    SD.eq eqv veq t.dict s = true ↔
      ∀ k, match SD.get eqv k s, SD.get eqv k t with
        | some v, some w => veq v w = true
        | none, none => True
        | _, _ => False := by
  obtain ⟨O, I, h, rfl⟩ := SD.good hc' he
  exact C56_equality hc he hs (SD.reachable_inv h ht).keyed

/-- C56: equal sorted dicts with the same order, which tells all keys apart, and identity as `==`: they have the same
items in the same order. -/
theorem C56_equal_items [DecidableEq κ] [DecidableEq ν] {t : SD κ ν c.State} (hc : c.Orders lt eqv)
    (heq : ∀ a b, eqv a b = decide (a = b)) (htotal : ∀ a b, lt a b = false → lt b a = false → a = b)
    (hs : SD.Reachable eqv c.api s) (ht : SD.Reachable eqv c.api t)
    (h : SD.eq eqv (fun a b => decide (a = b)) t.dict s = true) :
    SD.items eqv c.api s = SD.items eqv c.api t := by
  have he : IsEquiv eqv := ⟨fun a => by simp [heq], fun a b => by simp [heq, eq_comm], fun a b d => by
    simp only [heq, decide_eq_true_eq]; exact Eq.trans⟩
  have hall := (C56_sorted_dicts hc hc he hs ht).1 h
  obtain ⟨O, I, hg, rfl⟩ := SD.good hc he
  have hi := SD.reachable_inv hg hs
  have hj := SD.reachable_inv hg ht
  have hlook : ∀ k, lookup eqv s.dict k = lookup eqv t.dict k := by
    intro k
    have := hall k
    revert this
    show (match lookup eqv s.dict k, lookup eqv t.dict k with
      | some v, some w => decide (v = w) = true
      | none, none => True
      | _, _ => False) → _
    cases lookup eqv s.dict k <;> cases lookup eqv t.dict k <;> simp
  have htot : SS.Total O eqv := ⟨heq, fun a b hab => by
    simp only [equiv, Bool.and_eq_true, Bool.not_eq_true'] at hab
    exact htotal a b hab.1 hab.2⟩
  have hkeys : DictSpec.sortedKeys O s.dict = DictSpec.sortedKeys O t.dict := by
    refine htot.unique (DictSpec.sortedKeys_sort hg.order _).sorted (DictSpec.sortedKeys_sort hg.order _).sorted
      (htot.nodup (DictSpec.sortedKeys_distinct hg.order he hi.keyed))
      (htot.nodup (DictSpec.sortedKeys_distinct hg.order he hj.keyed)) fun x => ?_
    have hx : ∀ d : List (κ × ν), x ∈ DictSpec.sortedKeys O d ↔ (lookup eqv d x).isSome = true := by
      intro d
      rw [← PyDict.has_eq_lookup, ← DictSpec.sortedKeys_any hg.order, htot.any, decide_eq_true_eq]
    rw [hx, hx, hlook]
  rw [SD.items_ok hg hi, SD.items_ok hg hj, DictSpec.sortedItems_congr hkeys hlook]

end General

/-! ## Concrete cases -/

namespace Demo

/-- Items of integers, compared as tuples. -/
def lexlt (a b : Int × Int) : Bool := ilt a.1 b.1 || (!ilt b.1 a.1 && ilt a.2 b.2)

theorem lexlt_order : StrictWeakOrder lexlt :=
  ⟨fun a b h => by simp [lexlt, ilt] at *; omega, fun a b d h1 h2 => by simp [lexlt, ilt] at *; omega⟩

def itemEnv : Env (Int × Int) where
  cmp op a b := .ok (op.ofLt lexlt a b)
  sorted xs := .ok (Spec.insertAll (Spec.Order.ofValues lexlt) [] xs)
  ilog2 := Nat.log2

theorem itemEnv_lawful : itemEnv.Lawful lexlt where
  order := lexlt_order
  cmp _ _ _ := rfl
  sorted xs := ⟨_, rfl, by
    exact Spec.insertAll_isStableSort (O := Spec.Order.ofValues lexlt) lexlt_order Spec.sorted_nil xs⟩
  ilog2 := log2_ok

theorem itemClass_orders : (ListClass.plain itemEnv).Orders lexlt (SD.itemEq (equiv ilt) (equiv ilt)) :=
  .plain itemEnv_lawful fun a b => by
    rw [Bool.eq_iff_iff]; simp [SD.itemEq, equiv, lexlt, ilt]; omega

abbrev itemSet := listSet (SD.itemEq (equiv ilt) (equiv ilt)) (SD.itemEq_equiv ieqv_equiv ieqv_equiv) false

theorem itemSet_lawful : itemSet.Lawful (SD.itemEq (equiv ilt) (equiv ilt)) := listSet_lawful _ _ _

example := C53_set_check tensClass_orders (iset_lawful true) (SS.Reachable.new ksetStart_new) (by decide +kernel)
example := C53_set_history tensClass_orders (iset_lawful true) ksetStart_new
  [.reset 4, .add 38, .add 57, .add 31, .remove 99, .getInt 3, .delInt 0] (by simp [SSOp.Valid]) (by simp)
example := C53_dict_check tensClass_orders ieqv_equiv (SD.Reachable.new rfl kdictStart_new) (by decide +kernel)
example := C53_dict_history tensClass_orders ieqv_equiv rfl kdictStart_new
  [.reset 4, .setitem 38 1, .setitem 35 2, .delitem 99, .update (.dict [(30, 5)]), .keysAt 2]
  (by simp [SDOp.Valid, DictArg.fail]) (by simp)
example := C54_keys_compare tensClass_orders ieqv_equiv dict2_reachable
  (C54_keys_set intClass_orders ieqv_equiv dict1_reachable) .lt
example := C54_keys_compare tensClass_orders ieqv_equiv dict2_reachable
  (C54_operands tensClass_orders (iset_lawful true) set2_reachable set2.set).1 .ge
example := C54_keys_operators (E := intEnv) tensClass_orders intClass_orders (iset_lawful true) dict2_reachable [31, 5, 5]
  (o := .set (ASet.ofSorted (iset true) tensClass.api set2)) ⟨_, ofSorted_lawful tensClass_orders (iset_lawful true) set2_reachable⟩
example := C54_keys_operators (E := intEnv) tensClass_orders intClass_orders (iset_lawful true) dict2_reachable []
  (o := .iterable [31, 5, 5]) trivial
example := C54_items_operators (veq := equiv ilt) (E := itemEnv) tensClass_orders ieqv_equiv itemClass_orders itemSet_lawful
  dict2_reachable [(31, 9), (31, 2)] (o := .iterable [(38, 1), (38, 2), (4, 4)]) trivial
example (op : CmpOp) : ∃ t, ASet.compare op (SD.itemsView (equiv ilt) (equiv ilt) tensClass.api dict2)
    (SD.itemsView (equiv ilt) (equiv ilt) intClass.api dict1) = .ok t := by
  obtain ⟨l, _, h⟩ := C54_items_set (veq := equiv ilt) intClass_orders ieqv_equiv dict1_reachable
  obtain ⟨t, ht, _⟩ := C54_items_compare tensClass_orders ieqv_equiv ieqv_equiv dict2_reachable h op
  exact ⟨t, ht⟩
example := C55_reversed tensClass_orders ieqv_equiv dict2_reachable
example := C55_index (veq := equiv ilt) tensClass_orders ieqv_equiv dict2_reachable 35 2 (-7) (some (-1))
example := C55_count (veq := equiv ilt) tensClass_orders ieqv_equiv dict2_reachable 35 2
example := C56_equality (veq := equiv ilt) tensClass_orders ieqv_equiv dict2_reachable (other := [(3, 1), (4, 1)]) (by decide)
example := C56_sorted_dicts (veq := equiv ilt) tensClass_orders intClass_orders ieqv_equiv dict2_reachable dict1_reachable

/-- The order of the dict is not that of the result: `SortedDict(neg, {1: 0, 3: 0, 2: 0}).keys() & [3, 2, 1]` -/
example : ∃ (s : SD Int Int negClass.State) (r : SS _ intClass.State),
    SD.new (equiv ilt) negClass.api (.pairs [(1, 0), (3, 0), (2, 0)] none) = .ok s ∧
    SD.iter negClass.api s = [3, 2, 1] ∧
    ASet.and (iset false) intClass.api [3, 2, 1] (SD.keysView (equiv ilt) negClass.api s) = .ok r ∧
    SS.iter intClass.api r = [1, 2, 3] :=
  ⟨_, _, rfl, rfl, rfl, rfl⟩

/-- `index` finds the first of equal values, in key order. -/
example : (SD.valuesIndex (equiv ilt) (equiv ilt) intClass.api 5 0 none dict1).1 = .ok 0 ∧
    (SD.valuesIndex (equiv ilt) (equiv ilt) intClass.api 5 1 none dict1).1 = .ok 4 ∧
    (SD.valuesIndex (equiv ilt) (equiv ilt) intClass.api 5 (-3) none dict1).1 = .error .valueError := by decide +kernel

/-- Two dicts with different key functions and histories that are equal. -/
example : ∃ (s : SD Int Int negClass.State) (t : SD Int Int intClass.State),
    SD.new (equiv ilt) negClass.api (.pairs [(1, 0), (3, 5), (3, 7)] none) = .ok s ∧
    SD.new (equiv ilt) intClass.api (.pairs [(3, 7), (1, 0)] none) = .ok t ∧
    SD.eq (equiv ilt) (equiv ilt) t.dict s = true ∧ SD.eq (equiv ilt) (equiv ilt) [(3, 7)] s = false :=
  ⟨_, _, rfl, rfl, rfl, rfl⟩

end Demo
end Verif
