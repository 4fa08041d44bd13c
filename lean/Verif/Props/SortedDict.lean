import Verif.Props.SortedSet
import Verif.Proofs.SortedDict
/-!
# Properties of SortedDict

`c` is the class of the sorted list of keys inside the dict: SortedList, or SortedKeyList if there is a key function.
`lt` is the order of the dict (of the keys, or of the key function on them) and `eqv` is `==` of keys.  The results of
`new`, `copy`, `|`, `fromkeys` are new objects: in the model they do not share state with the operands.

The map that a dict stands for is `fun k => SD.get eqv k s`, the answer of `sd.get(k)`.
-/

namespace Verif
open PyDict (lookup)

section General
variable {κ ν : Type} {c : ListClass κ} {lt eqv : κ → κ → Bool} {s : SD κ ν c.State}

theorem SD.good (hc : c.Orders lt eqv) (he : IsEquiv eqv) : ∃ O I, SD.Good c.api O eqv I ∧ O.lt = lt := by
  obtain ⟨O, I, h1, h2, h3⟩ := hc.lawful
  exact ⟨O, I, ⟨he, h1, h3⟩, h2⟩

theorem DictSpec.step_congr (O : Spec.Order κ) (hl : O.lt = lt) (hs : O.same = eqv) (op : SDOp κ ν) :
    DictSpec.step eqv O op = DictSpec.step eqv (setOrder lt eqv) op := by
  subst hl hs
  cases op <;> rfl

/-- The value that the last pair with a key equal to `k` has, if there is one. -/
def lastValue (eqv : κ → κ → Bool) (pairs : List (κ × ν)) (k : κ) : Option ν :=
  (pairs.reverse.find? fun p => eqv p.1 k).map Prod.snd

/-! ## C44 -/

/-- C44: every history of calls gives the answers of a plain dict (with `sorted(d, key=key)` wherever an order is asked
for), and leaves the dict with the same items and with `sorted(d, key=key)` as its iteration. -/
theorem C44_history (hc : c.Orders lt eqv) (he : IsEquiv eqv) {arg : DictArg κ ν} (hf : arg.fail = none)
    (e : SD.new eqv c.api arg = .ok s) (ops : List (SDOp κ ν)) (hv : ∀ op ∈ ops, op.Valid) :
    let spec := runHist (DictSpec.step eqv (setOrder lt eqv)) ops (PyDict.ofPairs eqv arg.items)
    let real := runHist (SD.step eqv c.api) ops s
    real.1 = spec.1 ∧ (∀ k, SD.get eqv k real.2 = lookup eqv spec.2 k) ∧
      (∀ k, SD.contains eqv k real.2 = PyDict.has eqv spec.2 k) ∧ SD.length real.2 = spec.2.length ∧
      SD.iter c.api real.2 = DictSpec.sortedKeys (setOrder lt eqv) spec.2 := by
  obtain ⟨O, I, h, rfl⟩ := SD.good hc he
  have hsame : O.same = eqv := by funext a b; exact h.same a b
  have hstep : DictSpec.step eqv (setOrder O.lt eqv) = DictSpec.step (ν := ν) eqv O := by
    funext op; exact (DictSpec.step_congr O rfl hsame op).symm
  obtain ⟨s', e', h0, hi⟩ := SD.new_ok h hf
  rw [e] at e'; cases e'
  obtain ⟨r1, r2, r3⟩ := Refines.hist ops (fun op ho => SD.step_refines h op (hv op ho)) hi
  rw [h0] at r1 r2
  rw [hstep]
  refine ⟨r1, fun k => ?_, fun k => ?_, ?_, ?_⟩
  · rw [SD.get, r2]
  · rw [SD.contains, r2]
  · rw [SD.length, r2]
  · rw [SD.iter, r3.iter, r2]; rfl

/-- C44: iteration is sorted, no two of the keys are equal; `k in sd` and `sd.get(k)` agree with it; `len` is the number
of keys; `items()` and `values()` give each key with its value, in the order of iteration. -/
theorem C44_two_stores (hc : c.Orders lt eqv) (he : IsEquiv eqv) (hs : SD.Reachable eqv c.api s) :
    Sorted lt (SD.iter c.api s) ∧ (SD.iter c.api s).Pairwise (fun a b => eqv a b = false) ∧
    (∀ k, SD.contains eqv k s = true ↔ ∃ k' ∈ SD.iter c.api s, eqv k' k = true) ∧
    (∀ k, SD.contains eqv k s = true ↔ ∃ v, SD.get eqv k s = some v) ∧
    SD.length s = (SD.iter c.api s).length ∧
    ∃ items, SD.items eqv c.api s = .ok items ∧ items.map Prod.fst = SD.iter c.api s ∧
      SD.values eqv c.api s = .ok (items.map Prod.snd) ∧ ∀ p ∈ items, SD.get eqv p.1 s = some p.2 := by
  obtain ⟨O, I, h, rfl⟩ := SD.good hc he
  have hi := SD.reachable_inv h hs
  have hit : SD.iter c.api s = DictSpec.sortedKeys O s.dict := hi.iter
  rw [hit]
  refine ⟨(DictSpec.sortedKeys_sort h.order _).sorted, DictSpec.sortedKeys_distinct h.order he hi.keyed, fun k => ?_,
    fun k => ?_, ?_, _, SD.items_ok h hi, DictSpec.keys_sortedItems h.order he _, SD.values_ok h hi, fun p hp => ?_⟩
  · rw [SD.contains, ← DictSpec.sortedKeys_any h.order]; exact any_eq_true_iff
  · rw [SD.contains, SD.get, PyDict.has_eq_lookup]; exact Option.isSome_iff_exists
  · rw [(DictSpec.sortedKeys_sort h.order _).perm.length_eq]; simp [SD.length, PyDict.keys]
  · rw [SD.get, ← DictSpec.lookup_sortedItems h.order he hi.keyed]
    exact PyDict.lookup_mem he (DictSpec.keyed_sortedItems h.order he hi.keyed) hp

/-- C44: `sd[k]` is the value of `sd.get(k)`; KeyError exactly if there is none. -/
theorem C44_getitem (k : κ) :
    (SD.getitem eqv k s = match SD.get eqv k s with
      | some v => (.ok v, s)
      | none => (.error .keyError, s)) := by
  simp only [SD.getitem, Py.get_bind, PyDict.getitem, SD.get]
  cases lookup eqv s.dict k <;> rfl

/-- C44: `reversed(sd)` is iteration backwards. -/
theorem C44_reversed (hc : c.Orders lt eqv) (he : IsEquiv eqv) (hs : SD.Reachable eqv c.api s) :
    SD.reversed c.api s = (SD.iter c.api s).reverse := by
  obtain ⟨O, I, h, rfl⟩ := SD.good hc he
  have := (h.list.reversed s.list (SD.reachable_inv h hs).list).1
  exact Except.ok.inj this

/-! ## C45 -/

/-- Nothing that can be observed differs: not the items, not their insertion order, not the iteration. -/
def SD.Same (c : ListClass κ) (s s' : SD κ ν c.State) : Prop :=
  s'.dict = s.dict ∧ SD.iter c.api s' = SD.iter c.api s

/-- `sd` with `k` removed: the other items and the order of the other keys stay. -/
def SD.Without (eqv : κ → κ → Bool) (c : ListClass κ) (k : κ) (s s' : SD κ ν c.State) : Prop :=
  (∀ k', SD.get eqv k' s' = if eqv k k' then none else SD.get eqv k' s) ∧
  SD.iter c.api s' = (SD.iter c.api s).filter fun x => !eqv x k

theorem SD.without {O : Spec.Order κ} {I : c.State → Prop} (h : SD.Good c.api O eqv I) {k : κ} {s' : SD κ ν c.State}
    (hi : SD.Inv c.api O eqv I s) (hi' : SD.Inv c.api O eqv I s') (hd : s'.dict = PyDict.erase eqv s.dict k) :
    SD.Without eqv c k s s' := by
  refine ⟨fun k' => ?_, ?_⟩
  · simp only [SD.get]; rw [hd, PyDict.lookup_erase h.equiv]
  · simp only [SD.iter]; rw [hi'.iter, hi.iter, hd, DictSpec.sortedKeys_erase h.order]

theorem SD.same {O : Spec.Order κ} {I : c.State → Prop} {s' : SD κ ν c.State}
    (hi : SD.Inv c.api O eqv I s) (hi' : SD.Inv c.api O eqv I s') (hd : s'.dict = s.dict) : SD.Same c s s' :=
  ⟨hd, by simp only [SD.iter]; rw [hi'.iter, hi.iter, hd]⟩

/-- `sd` with value `v` for `k`: an existing key keeps its place (and the key object), a new one is put after all keys
that are not greater and before all that are. -/
def SD.With (lt eqv : κ → κ → Bool) (c : ListClass κ) (k : κ) (v : ν) (s s' : SD κ ν c.State) : Prop :=
  (∀ k', SD.get eqv k' s' = if eqv k k' then some v else SD.get eqv k' s) ∧
  ((SD.contains eqv k s = true ∧ SD.iter c.api s' = SD.iter c.api s) ∨
   (SD.contains eqv k s = false ∧ ∃ A B, SD.iter c.api s = A ++ B ∧ SD.iter c.api s' = A ++ k :: B ∧
      (∀ a ∈ A, lt k a = false) ∧ ∀ b ∈ B, lt k b = true))

theorem SD.with {O : Spec.Order κ} {I : c.State → Prop} (h : SD.Good c.api O eqv I) {k : κ} {v : ν} {s' : SD κ ν c.State}
    (hi : SD.Inv c.api O eqv I s) (hi' : SD.Inv c.api O eqv I s') (hd : s'.dict = PyDict.set eqv s.dict k v) :
    SD.With O.lt eqv c k v s s' := by
  refine ⟨fun k' => ?_, ?_⟩
  · simp only [SD.get]; rw [hd, PyDict.lookup_set h.equiv]
  · simp only [SD.iter, SD.contains]; rw [hi'.iter, hi.iter, hd]
    rcases Bool.eq_false_or_eq_true (PyDict.has eqv s.dict k) with hk | hk
    · exact .inl ⟨hk, DictSpec.sortedKeys_set_old hk v⟩
    · obtain ⟨A, B, h3, h4, h5⟩ := Spec.sorted_split_right h.order (DictSpec.sortedKeys_sort h.order s.dict).sorted k
      refine .inr ⟨hk, A, B, h3, ?_, h4, h5⟩
      rw [DictSpec.sortedKeys_set_new hk]
      exact Spec.insert_split h3 h4 h5

/-- C45: `sd[k] = v` -/
theorem C45_setitem (hc : c.Orders lt eqv) (he : IsEquiv eqv) (hs : SD.Reachable eqv c.api s) (k : κ) (v : ν) :
    ∃ s', SD.setitem eqv c.api k v s = (.ok (), s') ∧ SD.With lt eqv c k v s s' := by
  obtain ⟨O, I, h, rfl⟩ := SD.good hc he
  have hi := SD.reachable_inv h hs
  obtain ⟨s', e, hd, hi'⟩ := (SD.setitem_refines h k v).eq_of hi rfl
  exact ⟨s', e, SD.with h hi hi' hd⟩

/-- C45: `del sd[k]` removes exactly the item of `k`; KeyError exactly if there is none, and then nothing changes. -/
theorem C45_delitem (hc : c.Orders lt eqv) (he : IsEquiv eqv) (hs : SD.Reachable eqv c.api s) (k : κ) :
    ∃ s', (SD.contains eqv k s = true ∧ SD.delitem eqv c.api k s = (.ok (), s') ∧ SD.Without eqv c k s s') ∨
      (SD.contains eqv k s = false ∧ SD.delitem eqv c.api k s = (.error .keyError, s') ∧ SD.Same c s s') := by
  obtain ⟨O, I, h, rfl⟩ := SD.good hc he
  have hi := SD.reachable_inv h hs
  rcases Bool.eq_false_or_eq_true (PyDict.has eqv s.dict k) with hk | hk
  · have hf : DictSpec.delitem eqv k s.dict = (.ok (), PyDict.erase eqv s.dict k) := by rw [DictSpec.delitem, if_pos hk]
    obtain ⟨s', e, hd, hi'⟩ := (SD.delitem_refines h k).eq_of hi hf
    exact ⟨s', .inl ⟨hk, e, SD.without h hi hi' hd⟩⟩
  · have hf : DictSpec.delitem eqv k s.dict = (.error .keyError, s.dict) := by
      rw [DictSpec.delitem, if_neg (by rw [hk]; simp)]
    obtain ⟨s', e, hd, hi'⟩ := (SD.delitem_refines h k).eq_of hi hf
    exact ⟨s', .inr ⟨hk, e, SD.same hi hi' hd⟩⟩

/-- C45: `pop(k)` and `pop(k, default)` -/
theorem C45_pop (hc : c.Orders lt eqv) (he : IsEquiv eqv) (hs : SD.Reachable eqv c.api s) (k : κ) (default : Option ν) :
    ∃ s', match SD.get eqv k s, default with
      | some v, _ => SD.pop eqv c.api k default s = (.ok v, s') ∧ SD.Without eqv c k s s'
      | none, some d => SD.pop eqv c.api k default s = (.ok d, s') ∧ SD.Same c s s'
      | none, none => SD.pop eqv c.api k default s = (.error .keyError, s') ∧ SD.Same c s s' := by
  obtain ⟨O, I, h, rfl⟩ := SD.good hc he
  have hi := SD.reachable_inv h hs
  have hr := SD.pop_refines h k default
  unfold SD.get
  cases hl : lookup eqv s.dict k with
  | some v =>
    have hf : DictSpec.pop eqv k default s.dict = (.ok v, PyDict.erase eqv s.dict k) := by simp only [DictSpec.pop, hl]
    obtain ⟨s', e, hd, hi'⟩ := hr.eq_of hi hf
    exact ⟨s', e, SD.without h hi hi' hd⟩
  | none =>
    cases default with
    | some d =>
      have hf : DictSpec.pop eqv k (some d) s.dict = (.ok d, s.dict) := by simp only [DictSpec.pop, hl]
      obtain ⟨s', e, hd, hi'⟩ := hr.eq_of hi hf
      exact ⟨s', e, SD.same hi hi' hd⟩
    | none =>
      have hf : DictSpec.pop eqv k (none : Option ν) s.dict = (.error .keyError, s.dict) := by simp only [DictSpec.pop, hl]
      obtain ⟨s', e, hd, hi'⟩ := hr.eq_of hi hf
      exact ⟨s', e, SD.same hi hi' hd⟩

theorem SD.items_facts {O : Spec.Order κ} {I : c.State → Prop} (h : SD.Good c.api O eqv I) (hi : SD.Inv c.api O eqv I s)
    (i : Int) :
    let items := DictSpec.sortedItems eqv O s.dict
    (∃ (n : Nat) (hn : n < items.length), (i = n ∨ i = (n : Int) - items.length) ∧ (Spec.getInt i items).1 = .ok items[n]) ∨
    ((items.length ≤ i ∨ i < -(items.length : Int)) ∧ (Spec.getInt i items).1 = .error .indexError) := by
  intro items
  rcases position_cases items.length i with ⟨n, hn, rfl, hp⟩ | ⟨n, hn, rfl, hp⟩ | ⟨hi, hp⟩
  · exact .inl ⟨n, hn, .inl rfl, by simp only [Spec.getInt, hp, Option.bind_some, List.getElem?_eq_getElem hn]⟩
  · have hn' : items.length - 1 - n < items.length := by omega
    exact .inl ⟨_, hn', .inr (by omega), by simp only [Spec.getInt, hp, Option.bind_some, List.getElem?_eq_getElem hn']⟩
  · exact .inr ⟨hi, by simp only [Spec.getInt, hp, Option.bind_none]⟩

/-- C45: `peekitem(i)` returns the item at position `i` in key order and changes nothing; IndexError exactly out of
range. -/
theorem C45_peekitem (hc : c.Orders lt eqv) (he : IsEquiv eqv) (hs : SD.Reachable eqv c.api s) (i : Int) :
    ∃ items s', SD.items eqv c.api s = .ok items ∧ SD.Same c s s' ∧
      ((∃ (n : Nat) (hn : n < items.length), (i = n ∨ i = (n : Int) - items.length) ∧
          SD.peekitem eqv c.api i s = (.ok items[n], s')) ∨
       ((items.length ≤ i ∨ i < -(items.length : Int)) ∧ SD.peekitem eqv c.api i s = (.error .indexError, s'))) := by
  obtain ⟨O, I, h, rfl⟩ := SD.good hc he
  have hi := SD.reachable_inv h hs
  obtain ⟨s', e, hd, hi'⟩ := (SD.peekitem_refines h i).eq_of hi rfl
  refine ⟨_, s', SD.items_ok h hi, SD.same hi hi' hd, ?_⟩
  rcases SD.items_facts h hi i with ⟨n, hn, h1, h2⟩ | ⟨h1, h2⟩
  · exact .inl ⟨n, hn, h1, by rw [e, h2]⟩
  · exact .inr ⟨h1, by rw [e, h2]⟩

/-- C45: `popitem(i)` returns the item at position `i` in key order and removes exactly that one; KeyError exactly if the
dict is empty, else IndexError exactly out of range, and then nothing changes. -/
theorem C45_popitem (hc : c.Orders lt eqv) (he : IsEquiv eqv) (hs : SD.Reachable eqv c.api s) (i : Int) :
    ∃ items s', SD.items eqv c.api s = .ok items ∧
      ((items = [] ∧ SD.popitem eqv c.api i s = (.error .keyError, s') ∧ SD.Same c s s') ∨
       (∃ (n : Nat) (hn : n < items.length), (i = n ∨ i = (n : Int) - items.length) ∧
          SD.popitem eqv c.api i s = (.ok items[n], s') ∧ SD.Without eqv c items[n].1 s s') ∨
       (items ≠ [] ∧ (items.length ≤ i ∨ i < -(items.length : Int)) ∧
          SD.popitem eqv c.api i s = (.error .indexError, s') ∧ SD.Same c s s')) := by
  obtain ⟨O, I, h, rfl⟩ := SD.good hc he
  have hi := SD.reachable_inv h hs
  refine ⟨DictSpec.sortedItems eqv O s.dict, ?_⟩
  have hlen : (DictSpec.sortedItems eqv O s.dict).length = s.dict.length := by
    rw [DictSpec.sortedItems_length h.order he, (DictSpec.sortedKeys_sort h.order _).perm.length_eq]
    simp [PyDict.keys]
  by_cases h0 : s.dict.length = 0
  · have hf : DictSpec.popitem eqv O i s.dict = (.error .keyError, s.dict) := by rw [DictSpec.popitem, if_pos h0]
    obtain ⟨s', e, hd, hi'⟩ := (SD.popitem_refines h i).eq_of hi hf
    exact ⟨s', SD.items_ok h hi, .inl ⟨List.length_eq_zero_iff.1 (hlen.trans h0), e, SD.same hi hi' hd⟩⟩
  · rcases SD.items_facts h hi i with ⟨n, hn, h1, h2⟩ | ⟨h1, h2⟩
    · have hf : DictSpec.popitem eqv O i s.dict = (.ok (DictSpec.sortedItems eqv O s.dict)[n],
          PyDict.erase eqv s.dict (DictSpec.sortedItems eqv O s.dict)[n].1) := by
        rw [DictSpec.popitem, if_neg h0, h2]
      obtain ⟨s', e, hd, hi'⟩ := (SD.popitem_refines h i).eq_of hi hf
      exact ⟨s', SD.items_ok h hi, .inr (.inl ⟨n, hn, h1, e, SD.without h hi hi' hd⟩)⟩
    · have hf : DictSpec.popitem eqv O i s.dict = (.error .indexError, s.dict) := by
        rw [DictSpec.popitem, if_neg h0, h2]
      obtain ⟨s', e, hd, hi'⟩ := (SD.popitem_refines h i).eq_of hi hf
      refine ⟨s', SD.items_ok h hi, .inr (.inr ⟨?_, h1, e, SD.same hi hi' hd⟩)⟩
      intro hnil; rw [hnil] at hlen; exact h0 hlen.symm

/-- C45: `setdefault(k, v)` returns the value of `k` if there is one and changes nothing; else it sets it to `v` and
returns `v`. -/
theorem C45_setdefault (hc : c.Orders lt eqv) (he : IsEquiv eqv) (hs : SD.Reachable eqv c.api s) (k : κ) (v : ν) :
    ∃ s', match SD.get eqv k s with
      | some w => SD.setdefault eqv c.api k v s = (.ok w, s') ∧ SD.Same c s s'
      | none => SD.setdefault eqv c.api k v s = (.ok v, s') ∧ SD.With lt eqv c k v s s' := by
  obtain ⟨O, I, h, rfl⟩ := SD.good hc he
  have hi := SD.reachable_inv h hs
  have hr := SD.setdefault_refines h k v
  unfold SD.get
  cases hl : lookup eqv s.dict k with
  | some w =>
    have hf : DictSpec.setdefault eqv k v s.dict = (.ok w, s.dict) := by simp only [DictSpec.setdefault, hl]
    obtain ⟨s', e, hd, hi'⟩ := hr.eq_of hi hf
    exact ⟨s', e, SD.same hi hi' hd⟩
  | none =>
    have hf : DictSpec.setdefault eqv k v s.dict = (.ok v, PyDict.set eqv s.dict k v) := by
      simp only [DictSpec.setdefault, hl]
    obtain ⟨s', e, hd, hi'⟩ := hr.eq_of hi hf
    exact ⟨s', e, SD.with h hi hi' hd⟩

/-- C45: `clear()` -/
theorem C45_clear (hc : c.Orders lt eqv) (he : IsEquiv eqv) (hs : SD.Reachable eqv c.api s) :
    ∃ s', SD.clear c.api s = (.ok (), s') ∧ (∀ k, SD.get eqv k s' = none) ∧ SD.length s' = 0 ∧ SD.iter c.api s' = [] := by
  obtain ⟨O, I, h, rfl⟩ := SD.good hc he
  obtain ⟨s', e, hd, hi'⟩ := (SD.clear_refines h).eq_of (SD.reachable_inv h hs) rfl
  refine ⟨s', e, fun k => ?_, ?_, ?_⟩
  · rw [SD.get, hd]; rfl
  · rw [SD.length, hd]; rfl
  · rw [SD.iter, hi'.iter, hd]; rfl

/-! ## C46 -/

theorem lastValue_eq (pairs : List (κ × ν)) (k : κ) : lastValue eqv pairs k = lookup eqv pairs.reverse k := rfl

/-- C46: `sd.update(pairs)` (also `sd |= m`): the last pair with a key decides its value, keys without a pair keep
theirs. -/
theorem C46_update (hc : c.Orders lt eqv) (he : IsEquiv eqv) (hs : SD.Reachable eqv c.api s) {arg : DictArg κ ν}
    (hf : arg.fail = none) :
    ∃ s', SD.update eqv c.api arg s = (.ok (), s') ∧ SD.Reachable eqv c.api s' ∧
      ∀ k, SD.get eqv k s' = (lastValue eqv arg.items k).or (SD.get eqv k s) := by
  obtain ⟨O, I, h, rfl⟩ := SD.good hc he
  have hi := SD.reachable_inv h hs
  obtain ⟨s', e, hd, hi'⟩ := (SD.update_refines h hf).eq_of hi rfl
  refine ⟨s', e, ?_, fun k => ?_⟩
  · have hr := SD.Reachable.step (.update arg) hf hs
    have : (SD.step eqv c.api (.update arg) s).2 = s' := by
      simp only [SD.step, SD.out]; rw [Py.bind_ok e]; rfl
    rwa [this] at hr
  · simp only [SD.get, lastValue_eq]; rw [hd, PyDict.lookup_update he]

/-- C46: `SortedDict(pairs)` -/
theorem C46_new (hc : c.Orders lt eqv) (he : IsEquiv eqv) {arg : DictArg κ ν} (hf : arg.fail = none) :
    ∃ s', SD.new eqv c.api arg = .ok s' ∧ SD.Reachable eqv c.api s' ∧
      ∀ k, SD.get eqv k s' = lastValue eqv arg.items k := by
  obtain ⟨O, I, h, rfl⟩ := SD.good hc he
  obtain ⟨s', e, hd, hi'⟩ := SD.new_ok h hf
  refine ⟨s', e, .new hf e, fun k => ?_⟩
  rw [SD.get, hd, PyDict.ofPairs, PyDict.lookup_update he]
  show (lookup eqv arg.items.reverse k).or none = _
  rw [Option.or_none]; rfl

/-- C46: the strategy does not matter: `sd.update(pairs)` has the effect of `for k, v in pairs: sd[k] = v`, also on the
order of the keys. -/
theorem C46_strategy (hc : c.Orders lt eqv) (he : IsEquiv eqv) (hs : SD.Reachable eqv c.api s) {arg : DictArg κ ν}
    (hf : arg.fail = none) :
    ∃ s1 s2, SD.update eqv c.api arg s = (.ok (), s1) ∧
      Py.forEach (fun p => SD.setitem eqv c.api p.1 p.2) arg.items s = (.ok (), s2) ∧ SD.Same c s2 s1 := by
  obtain ⟨O, I, h, rfl⟩ := SD.good hc he
  have hi := SD.reachable_inv h hs
  obtain ⟨s1, e1, hd1, hi1⟩ := (SD.update_refines h hf).eq_of hi rfl
  obtain ⟨s2, e2, hd2, hi2⟩ := (SD.forEach_setitem h arg.items).eq_of hi rfl
  exact ⟨s1, s2, e1, e2, SD.same hi2 hi1 (hd1.trans hd2.symm)⟩

/-! ## C47 -/

/-- C47: `sd.keys()[i]`, `sd.items()[i]`, `sd.values()[i]` are the entries at position `i` of the lists of keys, items
and values in key order; IndexError exactly out of range. -/
theorem C47_at (hc : c.Orders lt eqv) (he : IsEquiv eqv) (hs : SD.Reachable eqv c.api s) (i : Int) :
    ∃ items s', SD.items eqv c.api s = .ok items ∧ SD.Same c s s' ∧
      ((∃ (n : Nat) (hn : n < items.length), (i = n ∨ i = (n : Int) - items.length) ∧
          SD.keysAt c.api i s = (.ok items[n].1, s') ∧ SD.peekitem eqv c.api i s = (.ok items[n], s') ∧
          SD.valuesAt eqv c.api i s = (.ok items[n].2, s')) ∨
       ((items.length ≤ i ∨ i < -(items.length : Int)) ∧ SD.keysAt c.api i s = (.error .indexError, s') ∧
          SD.peekitem eqv c.api i s = (.error .indexError, s') ∧ SD.valuesAt eqv c.api i s = (.error .indexError, s'))) := by
  obtain ⟨O, I, h, rfl⟩ := SD.good hc he
  have hi := SD.reachable_inv h hs
  obtain ⟨l', e, hi'⟩ := SD.onList_query (h.list.getInt i) hi (fun l => by unfold Spec.getInt; split <;> rfl)
  refine ⟨_, { s with list := l' }, SD.items_ok h hi, SD.same hi hi' rfl, ?_⟩
  have hg := SD.getInt_keys h s.dict i
  rcases SD.items_facts h hi i with ⟨n, hn, h1, h2⟩ | ⟨h1, h2⟩
  · refine .inl ⟨n, hn, h1, ?_⟩
    rcases hg with ⟨p, k, v, _, _, hv, h3, h4⟩ | ⟨_, _, h4⟩
    · rw [h2] at h4
      have hkv := Except.ok.inj h4
      rw [hkv]
      rw [h3] at e
      have e' : SD.getitem eqv k ({ s with list := l' } : SD κ ν c.State) = (.ok v, { s with list := l' }) := by
        simp only [SD.getitem, Py.get_bind, PyDict.getitem, hv]; rfl
      refine ⟨e, ?_, ?_⟩
      · unfold SD.peekitem; rw [Py.bind_ok e, Py.bind_ok e']; rfl
      · unfold SD.valuesAt; rw [Py.bind_ok e, e']
    · rw [h2] at h4; cases h4
  · refine .inr ⟨h1, ?_⟩
    rcases hg with ⟨p, k, v, _, _, hv, h3, h4⟩ | ⟨_, h3, h4⟩
    · rw [h2] at h4; cases h4
    · rw [h3] at e
      refine ⟨e, ?_, ?_⟩
      · unfold SD.peekitem; rw [Py.bind_error e]
      · unfold SD.valuesAt; rw [Py.bind_error e]

/-- C47: slices of the views are the slices of the lists of keys, items and values in key order; ValueError exactly if
the step is zero. -/
theorem C47_slice (hc : c.Orders lt eqv) (he : IsEquiv eqv) (hs : SD.Reachable eqv c.api s) (sl : PySlice) :
    ∃ items s1 s2 s3, SD.items eqv c.api s = .ok items ∧ SD.Same c s s1 ∧ SD.Same c s s2 ∧ SD.Same c s s3 ∧
      match sl.indices items.length with
      | .error e => SD.keysSlice c.api sl s = (.error e, s1) ∧ SD.itemsSlice eqv c.api sl s = (.error e, s2) ∧
          SD.valuesSlice eqv c.api sl s = (.error e, s3)
      | .ok (start, stop, step) => ∃ r, r = ((pyRange start stop step).map Int.toNat).filterMap (items[·]?) ∧
          SD.keysSlice c.api sl s = (.ok (r.map Prod.fst), s1) ∧ SD.itemsSlice eqv c.api sl s = (.ok r, s2) ∧
          SD.valuesSlice eqv c.api sl s = (.ok (r.map Prod.snd), s3) := by
  obtain ⟨O, I, h, rfl⟩ := SD.good hc he
  have hi := SD.reachable_inv h hs
  obtain ⟨s1, e1, hd1, hi1⟩ := (SD.onKeys_refines (h.list.getSlice sl) (SD.spec_getSlice_snd sl)).eq_of hi rfl
  obtain ⟨s2, e2, hd2, hi2⟩ := (SD.itemsSlice_refines h sl).eq_of hi rfl
  obtain ⟨s3, e3, hd3, hi3⟩ := (SD.valuesSlice_refines h sl).eq_of hi rfl
  refine ⟨_, s1, s2, s3, SD.items_ok h hi, SD.same hi hi1 hd1, SD.same hi hi2 hd2, SD.same hi hi3 hd3, ?_⟩
  have hlen := DictSpec.sortedItems_length h.order he s.dict
  cases hx : sl.indices (DictSpec.sortedItems eqv O s.dict).length with
  | error x =>
    simp only
    refine ⟨e1.trans ?_, e2.trans ?_, e3.trans ?_⟩
    · simp only [Spec.getSlice, Spec.slicePositions, ← hlen, hx]
    · simp only [Spec.getSlice, Spec.slicePositions, hx]
    · simp only [Spec.getSlice, Spec.slicePositions, DictSpec.sortedValues, List.length_map, hx]
  | ok t =>
    obtain ⟨a, b, st⟩ := t
    simp only
    refine ⟨_, rfl, e1.trans ?_, e2.trans ?_, e3.trans ?_⟩
    · simp only [Spec.getSlice, Spec.slicePositions, ← hlen, hx]
      rw [← DictSpec.keys_sortedItems h.order he, List.map_filterMap]
      simp only [PyDict.keys, List.getElem?_map]
    · simp only [Spec.getSlice, Spec.slicePositions, hx]
    · simp only [Spec.getSlice, Spec.slicePositions, DictSpec.sortedValues, List.length_map, hx]
      rw [List.map_filterMap]
      simp only [List.getElem?_map]

/-- C47: `del sd.keys()[i]` (or `.items()[i]`, `.values()[i]`) removes exactly the item at position `i` in key order;
IndexError exactly out of range, and then nothing changes. -/
theorem C47_delete_at (hc : c.Orders lt eqv) (he : IsEquiv eqv) (hs : SD.Reachable eqv c.api s) (i : Int) :
    ∃ items s', SD.items eqv c.api s = .ok items ∧
      ((∃ (n : Nat), n < items.length ∧ (i = n ∨ i = (n : Int) - items.length) ∧
          SD.viewDelInt eqv c.api i s = (.ok (), s') ∧ SD.items eqv c.api s' = .ok (items.eraseIdx n)) ∨
       ((items.length ≤ i ∨ i < -(items.length : Int)) ∧ SD.viewDelInt eqv c.api i s = (.error .indexError, s') ∧
          SD.Same c s s')) := by
  obtain ⟨O, I, h, rfl⟩ := SD.good hc he
  have hi := SD.reachable_inv h hs
  refine ⟨DictSpec.sortedItems eqv O s.dict, ?_⟩
  rcases SD.items_facts h hi i with ⟨n, hn, h1, h2⟩ | ⟨h1, h2⟩
  · rcases SD.getInt_keys h s.dict i with ⟨p, k, v, hp, hk, hv, h3, h4⟩ | ⟨_, _, h4⟩
    · have hf : DictSpec.viewDelInt eqv O i s.dict = (.ok (), PyDict.erase eqv s.dict k) := by
        rw [DictSpec.viewDelInt, h3]
      obtain ⟨s', e, hd, hi'⟩ := (SD.viewDelInt_refines h i).eq_of hi hf
      refine ⟨s', SD.items_ok h hi, .inl ⟨n, hn, h1, e, ?_⟩⟩
      rw [SD.items_ok h hi', hd]
      congr 1
      have hpn : p = n := by
        have hlen := DictSpec.sortedItems_length h.order he s.dict
        unfold Spec.position at hp
        split at hp
        · cases hp; omega
        · split at hp
          · cases hp; omega
          · cases hp
      subst hpn
      exact DictSpec.sortedItems_erase h hi.keyed hk
    · rw [h2] at h4; cases h4
  · rcases SD.getInt_keys h s.dict i with ⟨p, k, v, hp, hk, hv, h3, h4⟩ | ⟨_, h3, h4⟩
    · rw [h2] at h4; cases h4
    · have hf : DictSpec.viewDelInt eqv O i s.dict = (.error .indexError, s.dict) := by
        rw [DictSpec.viewDelInt, h3]
      obtain ⟨s', e, hd, hi'⟩ := (SD.viewDelInt_refines h i).eq_of hi hf
      exact ⟨s', SD.items_ok h hi, .inr ⟨h1, e, SD.same hi hi' hd⟩⟩

/-- C47: `del view[a:b:c]` leaves exactly the items at positions not in `range(*slice(a, b, c).indices(len(sd)))`;
ValueError if `c == 0`, and then nothing changes. -/
theorem C47_delete_slice (hc : c.Orders lt eqv) (he : IsEquiv eqv) (hs : SD.Reachable eqv c.api s) (sl : PySlice) :
    ∃ items s', SD.items eqv c.api s = .ok items ∧
      match sl.indices items.length with
      | .error e => SD.viewDelSlice eqv c.api sl s = (.error e, s') ∧ SD.Same c s s'
      | .ok (start, stop, step) => SD.viewDelSlice eqv c.api sl s = (.ok (), s') ∧
          SD.items eqv c.api s' = .ok ((items.zipIdx.filter fun x =>
            !((pyRange start stop step).map Int.toNat).contains x.2).map Prod.fst) := by
  obtain ⟨O, I, h, rfl⟩ := SD.good hc he
  have hi := SD.reachable_inv h hs
  refine ⟨DictSpec.sortedItems eqv O s.dict, ?_⟩
  have hlen := DictSpec.sortedItems_length h.order he s.dict
  cases hx : sl.indices (DictSpec.sortedItems eqv O s.dict).length with
  | error x =>
    have hf : DictSpec.viewDelSlice eqv O sl s.dict = (.error x, s.dict) := by
      simp only [DictSpec.viewDelSlice, Spec.getSlice, Spec.slicePositions, ← hlen, hx]
    obtain ⟨s', e, hd, hi'⟩ := (SD.viewDelSlice_refines h sl).eq_of hi hf
    exact ⟨s', SD.items_ok h hi, e, SD.same hi hi' hd⟩
  | ok t =>
    obtain ⟨a, b, st⟩ := t
    have hf : DictSpec.viewDelSlice eqv O sl s.dict = (.ok (), DictSpec.eraseAll eqv
        (((pyRange a b st).map Int.toNat).filterMap ((DictSpec.sortedKeys O s.dict)[·]?)) s.dict) := by
      simp only [DictSpec.viewDelSlice, Spec.getSlice, Spec.slicePositions, ← hlen, hx]
    obtain ⟨s', e, hd, hi'⟩ := (SD.viewDelSlice_refines h sl).eq_of hi hf
    refine ⟨s', SD.items_ok h hi, e, ?_⟩
    rw [SD.items_ok h hi', hd]
    congr 1
    exact DictSpec.sortedItems_eraseAll h hi.keyed _

/-! ## C48 -/

/-- C48: `sd.copy()` has the same items and the same order. -/
theorem C48_copy (hc : c.Orders lt eqv) (he : IsEquiv eqv) (hs : SD.Reachable eqv c.api s) :
    ∃ s', SD.copy eqv c.api s = .ok s' ∧ SD.Reachable eqv c.api s' ∧ (∀ k, SD.get eqv k s' = SD.get eqv k s) ∧
      SD.iter c.api s' = SD.iter c.api s ∧ SD.items eqv c.api s' = SD.items eqv c.api s := by
  obtain ⟨O, I, h, rfl⟩ := SD.good hc he
  have hi := SD.reachable_inv h hs
  obtain ⟨s', e, hd, hi'⟩ := SD.copy_ok h hi
  refine ⟨s', e, .copy hs e, fun k => ?_, ?_, ?_⟩
  · rw [SD.get, hd, DictSpec.lookup_sortedItems h.order he hi.keyed]; rfl
  · simp only [SD.iter]; rw [hi'.iter, hi.iter, hd, DictSpec.sortedKeys_idem h.order he]
  · rw [SD.items_ok h hi', SD.items_ok h hi, hd, DictSpec.sortedItems_idem h.order he hi.keyed]

/-- C48: `sd | m`: the items of `m` win. -/
theorem C48_or (hc : c.Orders lt eqv) (he : IsEquiv eqv) (hs : SD.Reachable eqv c.api s) (m : List (κ × ν)) :
    ∃ s', SD.or eqv c.api m s = .ok s' ∧ SD.Reachable eqv c.api s' ∧
      ∀ k, SD.get eqv k s' = (lastValue eqv m k).or (SD.get eqv k s) := by
  obtain ⟨O, I, h, rfl⟩ := SD.good hc he
  have hi := SD.reachable_inv h hs
  obtain ⟨s', e, hd, hi'⟩ := SD.or_ok h hi m
  refine ⟨s', e, .or hs e, fun k => ?_⟩
  simp only [SD.get, lastValue_eq]
  rw [hd, PyDict.lookup_update he, DictSpec.lookup_sortedItems h.order he hi.keyed]

/-- C48: `m | sd`: the items of `sd` win. -/
theorem C48_ror (hc : c.Orders lt eqv) (he : IsEquiv eqv) (hs : SD.Reachable eqv c.api s) (m : List (κ × ν)) :
    ∃ s', SD.ror eqv c.api m s = .ok s' ∧ SD.Reachable eqv c.api s' ∧
      ∀ k, SD.get eqv k s' = (SD.get eqv k s).or (lastValue eqv m k) := by
  obtain ⟨O, I, h, rfl⟩ := SD.good hc he
  have hi := SD.reachable_inv h hs
  obtain ⟨s', e, hd, hi'⟩ := SD.ror_ok h hi m
  refine ⟨s', e, .ror hs e, fun k => ?_⟩
  simp only [SD.get, lastValue_eq]
  rw [hd, PyDict.lookup_update_keyed he _ (DictSpec.keyed_sortedItems h.order he hi.keyed),
    DictSpec.lookup_sortedItems h.order he hi.keyed, PyDict.ofPairs, PyDict.lookup_update he]
  congr 1
  show (lookup eqv m.reverse k).or none = _
  rw [Option.or_none]

/-- C48: `SortedDict.fromkeys(ks, v)` maps exactly the keys `ks` to `v`, sorted without a key function. -/
theorem C48_fromkeys {E : Env κ} (hc : (ListClass.plain E).Orders lt eqv) (he : IsEquiv eqv) (ks : List κ) (v : ν) :
    ∃ s', SD.fromkeys eqv (ListClass.plain E).api ks v = .ok s' ∧ SD.Reachable eqv (ListClass.plain E).api s' ∧
      ∀ k, SD.get eqv k s' = if ks.any (eqv · k) then some v else none := by
  obtain ⟨s', e, hr, h⟩ := C46_new hc he (arg := .pairs (ks.map fun k => (k, v)) none) rfl
  refine ⟨s', e, hr, fun k => ?_⟩
  rw [h k, lastValue_eq]
  show lookup eqv (ks.map fun k => (k, v)).reverse k = _
  rw [← List.map_reverse, ← List.any_reverse]
  induction ks.reverse with
  | nil => rfl
  | cons x xs ih =>
    rw [List.map_cons, PyDict.lookup_cons, ih, List.any_cons]
    cases eqv x k <;> rfl

/-! ## C23 -/

/-- C23: `SortedDict(key, items)` with the arguments from `__reduce__` is a dict of the same class (same key function)
with the same items in the same order. -/
theorem C23_dict_pickle (hc : c.Orders lt eqv) (he : IsEquiv eqv) (hs : SD.Reachable eqv c.api s) :
    ∃ s', SD.new eqv c.api (.dict (SD.reduceArgs s)) = .ok s' ∧ SD.Reachable eqv c.api s' ∧ SD.Same c s s' ∧
      SD.items eqv c.api s' = SD.items eqv c.api s := by
  obtain ⟨O, I, h, rfl⟩ := SD.good hc he
  have hi := SD.reachable_inv h hs
  obtain ⟨s', e, hd, hi'⟩ := SD.new_ok h (arg := .dict s.dict) rfl
  have hd' : s'.dict = s.dict := hd.trans (PyDict.update_nil_keyed hi.keyed)
  exact ⟨s', e, .new rfl e, SD.same hi hi' hd', by rw [SD.items_ok h hi', SD.items_ok h hi, hd']⟩

end General

/-- C44: with a key function, `bisect_key_left(k)`, `bisect_key_right(k)` count the keys whose sort key is `< k` and
`<= k`, and `irange_key` yields the keys whose sort key lies between the bounds. -/
theorem C44_key_searches {α κ ν : Type} {K : KEnv α κ} {key : α → κ} {klt : κ → κ → Bool}
    {eqv : α → α → Bool} (hK : K.Lawful key klt eqv) (hk : ∀ a b, eqv a b = true → equiv klt (key a) (key b) = true)
    (he : IsEquiv eqv) {s : SD α ν (St α κ)} (hs : SD.Reachable eqv (SKL.api K) s) (k : κ) (lo hi : Option κ)
    (incMin incMax rev : Bool) :
    let l := SD.iter (SKL.api K) s
    let between := fun x => (∀ m, lo = some m → klt (key x) m = false ∧ (incMin = true ∨ klt m (key x) = true)) ∧
      (∀ m, hi = some m → klt m (key x) = false ∧ (incMax = true ∨ klt (key x) m = true))
    ∃ s1 s2 s3 r, SD.onList (SKL.bisect_key_left K k) s = (.ok (l.countP fun x => klt (key x) k), s1) ∧
      SD.onList (SKL.bisect_key_right K k) s = (.ok (l.countP fun x => !klt k (key x)), s2) ∧
      SD.onList (SKL.irange_key K lo hi incMin incMax rev) s = (.ok (if rev then r.reverse else r), s3) ∧
      r.Sublist l ∧ (∀ x, x ∈ r ↔ x ∈ l ∧ between x) ∧
      (s1.dict = s.dict ∧ SD.iter (SKL.api K) s1 = l) ∧ (s2.dict = s.dict ∧ SD.iter (SKL.api K) s2 = l) ∧
      (s3.dict = s.dict ∧ SD.iter (SKL.api K) s3 = l) := by
  intro l between
  have h : SD.Good (SKL.api K) (Spec.Order.ofKey key klt eqv K.vcmp) eqv (Inv key klt true) :=
    ⟨he, SKL.api_lawful hK, fun a b => by
      simp only [Spec.Order.ofKey]
      cases hv : eqv a b
      · simp
      · rw [hk a b hv]; rfl⟩
  have hi' := SD.reachable_inv h hs
  have hl : l = DictSpec.sortedKeys (Spec.Order.ofKey key klt eqv K.vcmp) s.dict := hi'.iter
  obtain ⟨l1, e1, h1⟩ := SD.onList_query (SKL.bisect_key_left_refines hK k) hi' (fun _ => rfl)
  obtain ⟨l2, e2, h2⟩ := SD.onList_query (SKL.bisect_key_right_refines hK k) hi' (fun _ => rfl)
  obtain ⟨l3, e3, h3⟩ := SD.onList_query (SKL.irange_key_refines hK lo hi incMin incMax rev) hi' (fun _ => rfl)
  rw [← hl] at e1 e2 e3
  refine ⟨_, _, _, _, e1, e2, e3, List.filter_sublist, fun x => ?_, ⟨rfl, h1.iter.trans hl.symm⟩,
    ⟨rfl, h2.iter.trans hl.symm⟩, ⟨rfl, h3.iter.trans hl.symm⟩⟩
  rw [List.mem_filter]
  refine and_congr_right fun _ => ?_
  rw [Bool.and_eq_true]
  refine and_congr ?_ ?_
  · cases lo with
    | none => simp [Spec.aboveKey]
    | some m =>
      simp only [Spec.aboveKey, Option.some.injEq]
      cases incMin with
      | true => simp
      | false =>
        simp only [Bool.false_eq_true, if_false, false_or]
        exact ⟨fun h m' e => e ▸ ⟨hK.order.asymm _ _ h, h⟩, fun h => (h m rfl).2⟩
  · cases hi with
    | none => simp [Spec.belowKey]
    | some m =>
      simp only [Spec.belowKey, Option.some.injEq]
      cases incMax with
      | true => simp
      | false =>
        simp only [Bool.false_eq_true, if_false, false_or]
        exact ⟨fun h m' e => e ▸ ⟨hK.order.asymm _ _ h, h⟩, fun h => (h m rfl).2⟩

/-! ## Cases that meet the hypotheses -/

namespace Demo

theorem dict_reachable_hist {κ ν σ : Type} {eqv : κ → κ → Bool} {L : ListAPI σ κ} {s : SD κ ν σ}
    (hs : SD.Reachable eqv L s) (ops : List (SDOp κ ν)) (ho : ∀ op ∈ ops, op.Valid) :
    SD.Reachable eqv L (runHist (SD.step eqv L) ops s).2 := by
  induction ops generalizing s with
  | nil => exact hs
  | cons o ops ih => exact ih (.step o (ho o (by simp)) hs) fun o' h' => ho o' (by simp [h'])

/-- `sd._reset(1); sd[62] = 1; del sd[10]; sd.update([(25, 2), (31, 3)]); sd.popitem(-1); sd.setdefault(40, 4);
sd.pop(99, 0); sd.keys()[2]; sd.update({7: 5})` -/
def dictOps : List (SDOp Int Int) := [.reset 1, .setitem 62 1, .delitem 10, .update (.pairs [(25, 2), (31, 3)] none),
  .popitem (-1), .setdefault 40 4, .pop 99 (some 0), .keysAt 2, .update (.dict [(7, 5)])]

theorem dictOps_valid : ∀ op ∈ dictOps, op.Valid := by simp [dictOps, SDOp.Valid, DictArg.fail]

def dictArg : DictArg Int Int := .pairs [(52, 0), (10, 1), (31, 2), (31, 7), (97, 3), (71, 4), (44, 5)] none

/-- `SortedDict([(52, 0), (10, 1), (31, 2), (31, 7), (97, 3), (71, 4), (44, 5)])` -/
def dictStart : SD Int Int intClass.State :=
  (SD.update (equiv ilt) intClass.api dictArg ⟨[], (St.empty : St Int Int)⟩).2

theorem dictStart_new : SD.new (equiv ilt) intClass.api dictArg = .ok dictStart := by rfl

def dict1 : SD Int Int intClass.State := (runHist (SD.step (equiv ilt) intClass.api) dictOps dictStart).2

theorem dict1_reachable : SD.Reachable (equiv ilt) intClass.api dict1 :=
  dict_reachable_hist (.new rfl dictStart_new) _ dictOps_valid

example : SD.items (equiv ilt) intClass.api dict1 =
    .ok [(7, 5), (25, 2), (31, 3), (40, 4), (44, 5), (52, 0), (62, 1), (71, 4)] := by decide +kernel

/-- `SortedDict(lambda x: x // 10, [...])` -/
def kdictStart : SD Int Int tensClass.State :=
  (SD.update (equiv ilt) tensClass.api dictArg ⟨[], (St.empty : St Int Int)⟩).2

theorem kdictStart_new : SD.new (equiv ilt) tensClass.api dictArg = .ok kdictStart := by rfl

/-- `sd._reset(1); sd[38] = 1; sd[35] = 2; sd[31] = 9; sd.update({30: 5}); sd.keys()[2]` -/
def kdictOps : List (SDOp Int Int) := [.reset 1, .setitem 38 1, .setitem 35 2, .setitem 31 9, .update (.dict [(30, 5)]),
  .keysAt 2]

theorem kdictOps_valid : ∀ op ∈ kdictOps, op.Valid := by simp [kdictOps, SDOp.Valid, DictArg.fail]

def dict2 : SD Int Int tensClass.State := (runHist (SD.step (equiv ilt) tensClass.api) kdictOps kdictStart).2

theorem dict2_reachable : SD.Reachable (equiv ilt) tensClass.api dict2 :=
  dict_reachable_hist (.new rfl kdictStart_new) _ kdictOps_valid

/-- Keys with the same sort key stand in the order of insertion. -/
example : SD.items (equiv ilt) tensClass.api dict2 =
    .ok [(10, 1), (31, 9), (38, 1), (35, 2), (30, 5), (44, 5), (52, 0), (71, 4), (97, 3)] := by decide +kernel

/-- The hypotheses of the theorems above are met by both dicts. -/
example := C44_history intClass_orders ieqv_equiv rfl dictStart_new dictOps dictOps_valid
example := C44_history tensClass_orders ieqv_equiv rfl kdictStart_new kdictOps kdictOps_valid
example := C44_two_stores intClass_orders ieqv_equiv dict1_reachable
example := C44_reversed tensClass_orders ieqv_equiv dict2_reachable
example := C44_key_searches tensEnv_lawful (fun a b h => by simp [equiv, ilt] at *; omega) ieqv_equiv dict2_reachable
  3 (some 1) (some 5) true false true
example := C45_setitem tensClass_orders ieqv_equiv dict2_reachable 39 0
example := C45_delitem tensClass_orders ieqv_equiv dict2_reachable 38
example := C45_pop tensClass_orders ieqv_equiv dict2_reachable 36 none
example := C45_popitem tensClass_orders ieqv_equiv dict2_reachable (-2)
example := C45_peekitem tensClass_orders ieqv_equiv dict2_reachable 9
example := C45_setdefault tensClass_orders ieqv_equiv dict2_reachable 36 0
example := C45_clear tensClass_orders ieqv_equiv dict2_reachable
example := C46_update tensClass_orders ieqv_equiv dict2_reachable (arg := .pairs [(33, 1), (38, 2), (33, 3)] none) rfl
example := C46_strategy tensClass_orders ieqv_equiv dict2_reachable (arg := .pairs [(33, 1), (38, 2), (33, 3)] none) rfl
example := C46_strategy intClass_orders ieqv_equiv dict1_reachable (arg := .dict []) rfl
example := C46_new tensClass_orders ieqv_equiv (arg := dictArg) rfl
example := C47_at tensClass_orders ieqv_equiv dict2_reachable (-1)
example := C47_slice tensClass_orders ieqv_equiv dict2_reachable { start := some 1, stop := some (-1), step := some 2 }
example := C47_delete_at tensClass_orders ieqv_equiv dict2_reachable (-3)
example := C47_delete_slice tensClass_orders ieqv_equiv dict2_reachable { start := none, stop := some 1, step := some (-2) }
example := C48_copy tensClass_orders ieqv_equiv dict2_reachable
example := C48_or tensClass_orders ieqv_equiv dict2_reachable [(33, 1), (38, 2)]
example := C48_ror tensClass_orders ieqv_equiv dict2_reachable [(33, 1), (38, 2)]
example := C48_fromkeys intClass_orders ieqv_equiv [3, 1, 3, 2] (0 : Int)
example := C23_dict_pickle tensClass_orders ieqv_equiv dict2_reachable

end Demo
end Verif
