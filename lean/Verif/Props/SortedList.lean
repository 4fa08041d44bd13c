import Verif.Proofs.Laws
import Verif.Proofs.Check
import Verif.Proofs.Load
import Verif.Props.Demo
/-!
# Properties of SortedList (C01-C25, C35, C50)

`E.Lawful lt`: the comparisons of the values do not raise and come from the strict weak order `lt`.
`(SL.api E).Reachable s`: the object `s` was constructed from some iterable and then received any number of calls, some of
which may have raised.  `Core.iter s` is `list(sl)`.
-/

namespace Verif
variable {α : Type} {E : Env α} {lt : α → α → Bool} {s : St α α}

/-- C01: iteration yields the values in nondecreasing order. -/
theorem C01_iteration_sorted (hE : E.Lawful lt) (hs : (SL.api E).Reachable s) : Sorted lt (Core.iter s) :=
  ((SL.api_lawful hE).reachable hs).sorted

/-- C02: construct a SortedList from `xs` and make any calls `ops`: every answer (value or exception) is the one of the
plain list, and at the end `list(sl)` is the plain list.  The plain list starts as the stable sort of `xs`. -/
theorem C02_plain_sorted_list (hE : E.Lawful lt) (xs : Option (List α)) (ops : List (Op α))
    (hops : ∀ op ∈ ops, op.Valid) :
    ∃ s0 plain, SL.new E xs = .ok s0 ∧ IsStableSort lt (xs.getD []) plain ∧ Core.iter s0 = plain ∧
      (runHist (SL.api E).step ops s0).1 = (runHist (Spec.step (Spec.Order.ofValues lt)) ops plain).1 ∧
      Core.iter (runHist (SL.api E).step ops s0).2 = (runHist (Spec.step (Spec.Order.ofValues lt)) ops plain).2 := by
  obtain ⟨s0, e, hi, h0⟩ := (SL.api_lawful hE).new xs
  obtain ⟨h1, h2, _⟩ := (SL.api_lawful hE).hist ops hops hi
  refine ⟨s0, _, e, ?_, rfl, h1, h2⟩
  have := Spec.insertAll_isStableSort (O := Spec.Order.ofValues lt) hE.order Spec.sorted_nil (xs.getD [])
  rw [show Core.iter s0 = _ from h0]
  exact this

/-- C03: `len(sl)` is the number of values. -/
theorem C03_len (hE : E.Lawful lt) (hs : (SL.api E).Reachable s) : Core.length s = (Core.iter s).length :=
  ((SL.api_lawful hE).reachable hs).len_eq

/-- C04: `_check()` passes after any calls, if load factors below 4 are never asked for (`_check` insists on that). -/
theorem C04_check_passes (hE : E.Lawful lt) (xs : Option (List α)) (ops : List (Op α))
    (hops : ∀ op ∈ ops, ∀ load, op = .reset load → 4 ≤ load) :
    ∃ s0, SL.new E xs = .ok s0 ∧ SL.check E (runHist (SL.api E).step ops s0).2 = .ok () := by
  obtain ⟨s0, e, hi, _⟩ := (SL.api_lawful hE).new xs
  refine ⟨s0, e, SL.check_ok hE ?_ (SL.hist_load_ge ops hops ?_)⟩
  · refine ((SL.api_lawful hE).hist ops (fun op ho => ?_) hi).2.2
    cases op <;> first | trivial | exact Nat.le_trans (by decide) (hops _ ho _ rfl)
  · rw [SL.new_load e]; decide

/-- C04, continued: whatever the load factor, the entries of `_maxes` are the last values of the sublists, and `_index`,
if it is built, ends with the lengths of the sublists, from `_offset` on, and has in every inner node the sum of the two
children (0 for a child that does not exist). -/
theorem C04_tables_agree (hE : E.Lawful lt) (hs : (SL.api E).Reachable s) :
    s.maxes.map some = s.lists.map List.getLast? ∧
    (s.index ≠ [] →
      s.index.length = s.offset + s.lists.length ∧
      s.index.drop s.offset = s.lists.map List.length ∧
      ∀ i, i < s.offset → s.index.getD i 0 = s.index.getD (2 * i + 1) 0 + s.index.getD (2 * i + 2) 0) := by
  have hi := (SL.api_lawful hE).reachable hs
  refine ⟨?_, fun hne => ?_⟩
  · have := hi.maxes
    simpa [MaxesOK] using this
  · obtain ⟨ht, _⟩ := hi.index_ok hne
    have hlen := ht.length_eq
    refine ⟨by simpa using hlen, ?_, ht.node⟩
    apply List.ext_getElem
    · simp [hlen]
    · intro i h1 h2
      have h1' : s.offset + i < s.index.length := by simp at h1; omega
      have := ht.leaf i
      rw [Tree.getD_eq h1', Tree.getD_eq h2] at this
      simpa using this

/-- C05: `x in sl` iff some stored value equals `x`. -/
theorem C05_contains (hE : E.Lawful lt) (hs : (SL.api E).Reachable s) (x : α) :
    ∃ b s', SL.contains E x s = (.ok b, s') ∧ (b = true ↔ ∃ y ∈ Core.iter s, equiv lt y x = true) ∧
      Core.iter s' = Core.iter s := by
  obtain ⟨s', e, h⟩ := (SL.contains_refines hE x).run ((SL.api_lawful hE).reachable hs)
  exact ⟨_, s', e, any_eq_true_iff, h⟩

/-- C06: `add(x)` inserts `x` once, after all values `<= x` and before all values `> x`. -/
theorem C06_add (hE : E.Lawful lt) (hs : (SL.api E).Reachable s) (x : α) :
    ∃ s' A B, SL.add E x s = (.ok (), s') ∧ Core.iter s = A ++ B ∧ Core.iter s' = A ++ x :: B ∧
      (∀ a ∈ A, lt x a = false) ∧ (∀ b ∈ B, lt x b = true) := by
  have hi := (SL.api_lawful hE).reachable hs
  obtain ⟨s', e, h⟩ := (SL.add_refines hE x).run hi
  obtain ⟨A, B, h1, h2, h3⟩ := Spec.sorted_split_right (O := Spec.Order.ofValues lt) hE.order hi.sorted x
  exact ⟨s', A, B, e, h1, by rw [h]; exact Spec.insert_split h1 h2 h3, h2, h3⟩

/-- C07: `update(xs)` gives the stable sort of the old values followed by `xs`, and the same as adding them one at a
time. -/
theorem C07_update (hE : E.Lawful lt) (hs : (SL.api E).Reachable s) (xs : List α) :
    ∃ s' s'', SL.update E xs s = (.ok (), s') ∧ IsStableSort lt (Core.iter s ++ xs) (Core.iter s') ∧
      Py.forEach (SL.add E) xs s = (.ok (), s'') ∧ Core.iter s'' = Core.iter s' := by
  have hi := (SL.api_lawful hE).reachable hs
  obtain ⟨s', e, h⟩ := (SL.update_refines hE xs).run hi
  obtain ⟨s'', e', h'⟩ := (Refines.forEach xs fun x _ => SL.add_refines hE x).run hi
  rw [SL.forEach_spec_add] at e' h'
  refine ⟨s', s'', e, ?_, e', h'.trans h.symm⟩
  rw [h]
  exact Spec.insertAll_isStableSort (O := Spec.Order.ofValues lt) hE.order hi.sorted xs

/-- C08: `discard(x)` never raises; it removes the first value equal to `x`, if there is one, and nothing else. -/
theorem C08_discard (hE : E.Lawful lt) (hs : (SL.api E).Reachable s) (x : α) :
    ∃ s', SL.discard E x s = (.ok (), s') ∧
      ((∃ A y B, Core.iter s = A ++ y :: B ∧ equiv lt y x = true ∧ (∀ z ∈ A, equiv lt z x = false) ∧
          Core.iter s' = A ++ B) ∨
       ((∀ y ∈ Core.iter s, equiv lt y x = false) ∧ Core.iter s' = Core.iter s)) := by
  obtain ⟨s', e, h⟩ := (SL.discard_refines hE x).run ((SL.api_lawful hE).reachable hs)
  refine ⟨s', e, ?_⟩
  rw [h]
  exact eraseP_cases _ _

/-- C09: `remove(x)` removes the first value equal to `x`; it raises ValueError exactly if there is none, and then the
contents are unchanged. -/
theorem C09_remove (hE : E.Lawful lt) (hs : (SL.api E).Reachable s) (x : α) :
    ∃ s', (SL.remove E x s = (.ok (), s') ∧
        ∃ A y B, Core.iter s = A ++ y :: B ∧ equiv lt y x = true ∧ (∀ z ∈ A, equiv lt z x = false) ∧
          Core.iter s' = A ++ B) ∨
      (SL.remove E x s = (.error .valueError, s') ∧ (∀ y ∈ Core.iter s, equiv lt y x = false) ∧
        Core.iter s' = Core.iter s) := by
  obtain ⟨s', e, h⟩ := (SL.remove_refines hE x).run ((SL.api_lawful hE).reachable hs)
  refine ⟨s', ?_⟩
  rcases eraseP_cases (equiv lt · x) (Core.iter s) with ⟨A, y, B, h1, h2, h3, h4⟩ | ⟨h1, h2⟩
  · have : (Core.iter s).any (equiv lt · x) = true := any_eq_true_iff.2 ⟨y, by rw [h1]; simp, h2⟩
    simp only [Spec.remove, Spec.Order.ofValues, this, if_true] at e h
    exact .inl ⟨e, A, y, B, h1, h2, h3, h.trans h4⟩
  · have : ¬ (Core.iter s).any (equiv lt · x) = true := by
      rw [any_eq_true_iff]; rintro ⟨y, hy, h⟩; rw [h1 y hy] at h; cases h
    simp only [Spec.remove, Spec.Order.ofValues, this] at e h
    exact .inr ⟨e, h1, h⟩

/-- C10: `sl[i]` is `list(sl)[i]`: counted from the front if `i >= 0`, from the back if `i < 0`, IndexError exactly out
of range.  The three cases cover every integer. -/
theorem C10_getitem (hE : E.Lawful lt) (hs : (SL.api E).Reachable s) (i : Int) :
    ∃ s', Core.iter s' = Core.iter s ∧
      ((∃ (n : Nat) (h : n < (Core.iter s).length), i = n ∧
          Core.getInt E.ilog2 i s = (.ok (Core.iter s)[n], s')) ∨
       (∃ (n : Nat) (h : n < (Core.iter s).length), i = -(n : Int) - 1 ∧
          Core.getInt E.ilog2 i s = (.ok ((Core.iter s)[(Core.iter s).length - 1 - n]), s')) ∨
       (((Core.iter s).length ≤ i ∨ i < -((Core.iter s).length : Int)) ∧
          Core.getInt E.ilog2 i s = (.error .indexError, s'))) := by
  obtain ⟨s', e, h⟩ := (getInt_refines hE.ilog2 i).run ((SL.api_lawful hE).reachable hs)
  refine ⟨s', h.trans ?_, ?_⟩
  · simp only [Spec.getInt]; split <;> rfl
  · rcases position_cases (Core.iter s).length i with ⟨n, hn, rfl, hp⟩ | ⟨n, hn, rfl, hp⟩ | ⟨hi, hp⟩
    · refine .inl ⟨n, hn, rfl, ?_⟩
      rw [e]; simp [Spec.getInt, hp, hn]
    · refine .inr (.inl ⟨n, hn, rfl, ?_⟩)
      rw [e]; simp only [Spec.getInt, hp, Option.bind_some]
      rw [List.getElem?_eq_getElem (by omega)]
    · refine .inr (.inr ⟨hi, ?_⟩)
      rw [e]; simp [Spec.getInt, hp]

/-- C11: `sl[a:b:c]`: the values at the positions `range(*slice(a, b, c).indices(len(sl)))`; ValueError if `c == 0`. -/
theorem C11_getslice (hE : E.Lawful lt) (hs : (SL.api E).Reachable s) (sl : PySlice) :
    ∃ s', Core.iter s' = Core.iter s ∧
      match sl.indices (Core.iter s).length with
      | .error e => e = .valueError ∧ sl.step = some 0 ∧ Core.getSlice E.ilog2 sl s = (.error .valueError, s')
      | .ok (start, stop, step) => Core.getSlice E.ilog2 sl s =
          (.ok ((pyRange start stop step).filterMap fun i => (Core.iter s)[i.toNat]?), s') := by
  obtain ⟨s', e, h⟩ := (getSlice_refines hE.ilog2 sl).run ((SL.api_lawful hE).reachable hs)
  refine ⟨s', h.trans ?_, ?_⟩
  · simp only [Spec.getSlice]; split <;> rfl
  · simp only [Spec.getSlice, Spec.slicePositions] at e
    split
    · rename_i e' he
      rw [he] at e
      simp only at e
      simp only [PySlice.indices] at he
      split at he
      · cases he
        refine ⟨rfl, ?_, e⟩
        rename_i hz
        cases hst : sl.step with
        | none => rw [hst] at hz; simp at hz
        | some c => rw [hst] at hz; simp at hz; rw [hz]
      · cases he
    · rename_i a b c he
      rw [he] at e
      rw [e]
      simp only [List.filterMap_map]
      rfl

/-- C12: `del sl[i]` removes exactly the value `list(sl)[i]`; IndexError exactly out of range, contents unchanged. -/
theorem C12_delitem (hE : E.Lawful lt) (hs : (SL.api E).Reachable s) (i : Int) :
    ∃ s', (∃ n, n < (Core.iter s).length ∧ (i = n ∨ i = (n : Int) - (Core.iter s).length) ∧
          Core.delInt (SL.methods E) i s = (.ok (), s') ∧ Core.iter s' = (Core.iter s).eraseIdx n) ∨
      (((Core.iter s).length ≤ i ∨ i < -((Core.iter s).length : Int)) ∧
          Core.delInt (SL.methods E) i s = (.error .indexError, s') ∧ Core.iter s' = Core.iter s) := by
  obtain ⟨s', e, h⟩ := ((SL.methods_ok hE).delInt_refines i).run ((SL.api_lawful hE).reachable hs)
  refine ⟨s', ?_⟩
  rcases position_cases (Core.iter s).length i with ⟨n, hn, rfl, hp⟩ | ⟨n, hn, rfl, hp⟩ | ⟨hi, hp⟩
  · simp only [Spec.delInt, hp] at e h
    exact .inl ⟨n, hn, .inl rfl, e, h⟩
  · simp only [Spec.delInt, hp] at e h
    exact .inl ⟨_, by omega, .inr (by omega), e, h⟩
  · simp only [Spec.delInt, hp] at e h
    exact .inr ⟨hi, e, h⟩

/-- C13: `del sl[a:b:c]` leaves exactly the values at the positions not in `range(*slice(a, b, c).indices(len(sl)))`, in
order; ValueError if `c == 0`, contents unchanged. -/
theorem C13_delslice (hE : E.Lawful lt) (hs : (SL.api E).Reachable s) (sl : PySlice) :
    ∃ s', match sl.indices (Core.iter s).length with
      | .error e => e = .valueError ∧ sl.step = some 0 ∧
          Core.delSlice (SL.methods E) sl s = (.error .valueError, s') ∧ Core.iter s' = Core.iter s
      | .ok (start, stop, step) => Core.delSlice (SL.methods E) sl s = (.ok (), s') ∧
          Core.iter s' = ((Core.iter s).zipIdx.filter fun x =>
            !((pyRange start stop step).map Int.toNat).contains x.2).map Prod.fst := by
  obtain ⟨s', e, h⟩ := ((SL.methods_ok hE).delSlice_refines sl).run ((SL.api_lawful hE).reachable hs)
  refine ⟨s', ?_⟩
  simp only [Spec.delSlice, Spec.slicePositions] at e h
  split
  · rename_i e' he
    rw [he] at e h
    simp only at e h
    simp only [PySlice.indices] at he
    split at he
    · cases he
      refine ⟨rfl, ?_, e, h⟩
      rename_i hz
      cases hst : sl.step with
      | none => rw [hst] at hz; simp at hz
      | some c => rw [hst] at hz; simp at hz; rw [hz]
    · cases he
  · rename_i a b c he
    rw [he] at e h
    exact ⟨e, h⟩

/-- C14: `pop(i)` returns `list(sl)[i]` and removes exactly that position; IndexError exactly out of range (so always
for an empty list), contents unchanged. -/
theorem C14_pop (hE : E.Lawful lt) (hs : (SL.api E).Reachable s) (i : Int) :
    ∃ s', (∃ (n : Nat) (h : n < (Core.iter s).length), (i = n ∨ i = (n : Int) - (Core.iter s).length) ∧
          Core.pop (SL.methods E) i s = (.ok (Core.iter s)[n], s') ∧ Core.iter s' = (Core.iter s).eraseIdx n) ∨
      (((Core.iter s).length ≤ i ∨ i < -((Core.iter s).length : Int)) ∧
          Core.pop (SL.methods E) i s = (.error .indexError, s') ∧ Core.iter s' = Core.iter s) := by
  obtain ⟨s', e, h⟩ := ((SL.methods_ok hE).pop_refines i).run ((SL.api_lawful hE).reachable hs)
  refine ⟨s', ?_⟩
  rcases position_cases (Core.iter s).length i with ⟨n, hn, rfl, hp⟩ | ⟨n, hn, rfl, hp⟩ | ⟨hi, hp⟩
  · simp only [Spec.pop, hp, List.getElem?_eq_getElem hn] at e h
    exact .inl ⟨n, hn, .inl rfl, e, h⟩
  · have hn' : (Core.iter s).length - 1 - n < (Core.iter s).length := by omega
    simp only [Spec.pop, hp, List.getElem?_eq_getElem hn'] at e h
    exact .inl ⟨_, hn', .inr (by omega), e, h⟩
  · simp only [Spec.pop, hp] at e h
    exact .inr ⟨hi, e, h⟩

/-- C15: `bisect_left(x)` is the number of values `< x`, `bisect_right(x)` the number of values `<= x`; inserting `x` at
either place, or between them, keeps the list sorted. -/
theorem C15_bisect (hE : E.Lawful lt) (hs : (SL.api E).Reachable s) (x : α) :
    ∃ s1 s2 l r, SL.bisect_left E x s = (.ok l, s1) ∧ SL.bisect_right E x s = (.ok r, s2) ∧
      Core.iter s1 = Core.iter s ∧ Core.iter s2 = Core.iter s ∧
      l = (Core.iter s).countP (fun y => lt y x) ∧ r = (Core.iter s).countP (fun y => !lt x y) ∧
      ∀ i, l ≤ i → i ≤ r → Sorted lt ((Core.iter s).take i ++ x :: (Core.iter s).drop i) := by
  have hi := (SL.api_lawful hE).reachable hs
  obtain ⟨s1, e1, h1⟩ := (SL.bisect_left_refines hE x).run hi
  obtain ⟨s2, e2, h2⟩ := (SL.bisect_right_refines hE x).run hi
  refine ⟨s1, s2, _, _, e1, e2, h1, h2, rfl, rfl, ?_⟩
  have hsorted : Sorted lt (Core.iter s) := hi.sorted
  generalize Core.iter s = L at hsorted
  intro i hl hr
  simp only [Spec.Order.ofValues] at hl hr
  have hle : i ≤ L.length := Nat.le_trans hr List.countP_le_length
  have hL : L = L.take i ++ L.drop i := (List.take_append_drop i L).symm
  generalize hA : L.take i = A at *
  generalize hB : L.drop i = B at *
  have hAi : A.length = i := by rw [← hA, List.length_take]; omega
  subst hL
  obtain ⟨p1, p2, p3⟩ := List.pairwise_append.1 hsorted
  rw [List.countP_append] at hl hr
  refine List.pairwise_append.2 ⟨p1, List.pairwise_cons.2 ⟨?_, p2⟩, ?_⟩
  · -- nothing in `B` is less than `x`
    intro b hb
    cases hbx : lt b x with
    | false => rfl
    | true =>
      have : A.countP (fun y => lt y x) = A.length := by
        rw [List.countP_eq_length]
        intro a ha
        exact hE.order.lt_of_not_lt_of_lt (p3 a ha b hb) hbx
      have : 0 < B.countP (fun y => lt y x) := List.countP_pos_iff.2 ⟨b, hb, hbx⟩
      omega
  · intro a ha b hb
    rcases List.mem_cons.1 hb with rfl | hb
    · cases hax : lt b a with
      | false => rfl
      | true =>
        have h1 : A.countP (fun y => !lt b y) < A.length := by
          rcases Nat.lt_or_ge (A.countP (fun y => !lt b y)) A.length with h | h
          · exact h
          · have := List.countP_eq_length.1 (Nat.le_antisymm List.countP_le_length h) a ha
            simp [hax] at this
        have h2 : B.countP (fun y => !lt b y) = 0 := by
          rw [List.countP_eq_zero]
          intro c hc
          simp only [Bool.not_eq_true', Bool.not_eq_false]
          exact hE.order.lt_of_lt_of_not_lt hax (p3 a ha c hc)
        omega
    · exact p3 a ha b hb

/-- C16: `count(x)` is the number of values equal to `x`. -/
theorem C16_count (hE : E.Lawful lt) (hs : (SL.api E).Reachable s) (x : α) :
    ∃ s', SL.count E x s = (.ok ((Core.iter s).countP fun y => equiv lt y x : Nat), s') ∧ Core.iter s' = Core.iter s := by
  obtain ⟨s', e, h⟩ := (SL.count_refines hE x).run ((SL.api_lawful hE).reachable hs)
  exact ⟨s', e, h⟩

/-- C17: `index(x, start, stop)` is the least position in the window `start <= i < stop` whose value equals `x`;
ValueError exactly if there is none.  A negative bound counts from the end (and is then at least 0). -/
theorem C17_index (hE : E.Lawful lt) (hs : (SL.api E).Reachable s) (x : α) (start stop : Option Int) :
    let l := Core.iter s
    let bound : Int → Option Int → Int := fun default o => match o with
      | none => default
      | some i => if i < 0 then max (i + l.length) 0 else i
    let lo := bound 0 start
    let hi := bound l.length stop
    ∃ s', Core.iter s' = l ∧
      ((∃ (n : Nat) (y : α), SL.index E x start stop s = (.ok (n : Int), s') ∧ lo ≤ n ∧ (n : Int) < hi ∧
          l[n]? = some y ∧ equiv lt y x = true ∧
          ∀ (m : Nat) (z : α), lo ≤ m → m < n → l[m]? = some z → equiv lt z x = false) ∨
       (SL.index E x start stop s = (.error .valueError, s') ∧
          ∀ (m : Nat) (z : α), lo ≤ m → (m : Int) < hi → l[m]? = some z → equiv lt z x = false)) := by
  intro l bound lo hi
  obtain ⟨s', e, h⟩ := (SL.index_refines hE x start stop).run ((SL.api_lawful hE).reachable hs)
  have b1 : lo = Spec.indexBound l.length 0 start := by cases start <;> rfl
  have b2 : hi = Spec.indexBound l.length l.length stop := by cases stop <;> rfl
  rw [b1, b2]
  rcases Spec.index_cases (O := Spec.Order.ofValues lt) x start stop (Core.iter s) with
    ⟨n, y, e', h1, h2, h3, h4, h5⟩ | ⟨e', h1⟩
  · rw [e'] at e h
    exact ⟨s', h, .inl ⟨n, y, e, h1, h2, h3, h4, h5⟩⟩
  · rw [e'] at e h
    exact ⟨s', h, .inr ⟨e, h1⟩⟩

/-- C18: `irange(lo, hi, inclusive, reverse)` yields exactly the values between the bounds, in order or reversed. -/
theorem C18_irange (hE : E.Lawful lt) (hs : (SL.api E).Reachable s) (lo hi : Option α) (incLo incHi reverse : Bool) :
    let above : α → Bool := fun x => match lo with
      | none => true
      | some m => if incLo then !lt x m else lt m x
    let below : α → Bool := fun x => match hi with
      | none => true
      | some m => if incHi then !lt m x else lt x m
    let result := (Core.iter s).filter fun x => above x && below x
    ∃ s', SL.irange E lo hi incLo incHi reverse s = (.ok (if reverse then result.reverse else result), s') ∧
      Core.iter s' = Core.iter s := by
  intro above below result
  obtain ⟨s', e, h⟩ := (SL.irange_refines hE lo hi incLo incHi reverse).run ((SL.api_lawful hE).reachable hs)
  refine ⟨s', ?_, h⟩
  rw [e]
  simp only [Spec.irange, Spec.reverseIf]
  have : (fun x => Spec.above (Spec.Order.ofValues lt) lo incLo x && Spec.below (Spec.Order.ofValues lt) hi incHi x)
      = fun x => above x && below x := by
    funext x; cases lo <;> cases hi <;> rfl
  rw [this]

/-- C18, continued: nothing lies between bounds in the wrong order. -/
theorem C18_irange_empty (hE : E.Lawful lt) (hs : (SL.api E).Reachable s) (lo hi : α) (h : lt hi lo = true)
    (incLo incHi reverse : Bool) : ∃ s', SL.irange E (some lo) (some hi) incLo incHi reverse s = (.ok [], s') := by
  obtain ⟨s', e, _⟩ := C18_irange hE hs (some lo) (some hi) incLo incHi reverse
  refine ⟨s', ?_⟩
  rw [e]
  have : (Core.iter s).filter (fun x => (if incLo then !lt x lo else lt lo x) && (if incHi then !lt hi x else lt x hi)) = [] := by
    rw [List.filter_eq_nil_iff]
    intro x _ hx
    simp only [Bool.and_eq_true] at hx
    have h1 : lt x lo = false := by
      cases incLo
      · exact hE.order.asymm _ _ (by simpa using hx.1)
      · simpa using hx.1
    have h2 : lt hi x = false := by
      cases incHi
      · exact hE.order.asymm _ _ (by simpa using hx.2)
      · simpa using hx.2
    have := hE.order.negtrans _ _ _ h2 h1
    rw [h] at this; cases this
  simp [this]

/-- C19: `islice(a, b, reverse)` is `list(sl)[a:b]`, reversed if asked. -/
theorem C19_islice (hE : E.Lawful lt) (hs : (SL.api E).Reachable s) (a b : Option Int) (reverse : Bool) :
    ∃ s' start stop, PySlice.indices { start := a, stop := b } (Core.iter s).length = .ok (start, stop, 1) ∧
      let result := (pyRange start stop 1).filterMap fun i => (Core.iter s)[i.toNat]?
      Core.islice E.ilog2 a b reverse s = (.ok (if reverse then result.reverse else result), s') ∧
      Core.iter s' = Core.iter s := by
  obtain ⟨s', e, h⟩ := (islice_refines hE.ilog2 a b reverse).run ((SL.api_lawful hE).reachable hs)
  have hind : ∃ start stop, PySlice.indices { start := a, stop := b } (Core.iter s).length = .ok (start, stop, 1) := by
    simp only [PySlice.indices, Option.getD_none]
    exact ⟨_, _, rfl⟩
  obtain ⟨start, stop, hind⟩ := hind
  refine ⟨s', start, stop, hind, ?_⟩
  simp only [Spec.islice, Spec.getSlice, Spec.slicePositions, hind, Spec.reverseIf] at e h
  refine ⟨?_, h⟩
  rw [e]
  simp only [List.filterMap_map]
  rfl

/-- C20: `reversed(sl)` yields the values of `iter(sl)` in the opposite order. -/
theorem C20_reversed (s : St α α) : Core.reversed s = (Core.iter s).reverse := reversed_eq s

/-- C21: the six comparison operators are the lexicographic comparison with the other sequence. -/
theorem C21_compare (hE : E.Lawful lt) (hs : (SL.api E).Reachable s) (op : CmpOp) (other : List α) :
    ∃ b, Core.compare E.cmp op other s = .ok b ∧ (b = true ↔ SeqCmp lt op (Core.iter s) other) := by
  obtain ⟨s', e, _⟩ := ((SL.api_lawful hE).compare op other).run ((SL.api_lawful hE).reachable hs)
  obtain ⟨b, e', h⟩ := compare_seqCmp hE.order op (Core.iter s) other
  refine ⟨b, ?_, h⟩
  have := congrArg Prod.fst e
  rw [show (Spec.compare (Spec.Order.ofValues lt) op other ((SL.api E).iter s)).1 = .ok b from by
    rw [show (SL.api E).iter s = Core.iter s from rfl, e']] at this
  exact this

/-- C22: `sl + xs`, `xs + sl`, `sl * n`, `n * sl` and `sl.copy()` give new sorted lists (which are again reachable
objects) with exactly the values of the list operation, sorted stably; `sl += xs` and `sl *= n` turn `sl` into such.
(The functions `concat`, `mul`, `copy` return a new object; they do not change `s`.) -/
theorem C22_concat_mul_copy (hE : E.Lawful lt) (hs : (SL.api E).Reachable s) (xs : List α) (n : Int) :
    (∃ s', SL.concat E xs s = .ok s' ∧ (SL.api E).Reachable s' ∧ IsStableSort lt (Core.iter s ++ xs) (Core.iter s')) ∧
    (∃ s', Core.iadd (SL.methods E) xs s = (.ok (), s') ∧ IsStableSort lt (Core.iter s ++ xs) (Core.iter s')) ∧
    (∃ s', SL.mul E n s = .ok s' ∧ (SL.api E).Reachable s' ∧
      IsStableSort lt (List.replicate n.toNat (Core.iter s)).flatten (Core.iter s')) ∧
    (∃ s', Core.imul (SL.methods E) n s = (.ok (), s') ∧
      IsStableSort lt (List.replicate n.toNat (Core.iter s)).flatten (Core.iter s')) ∧
    (∃ s', SL.copy E s = .ok s' ∧ (SL.api E).Reachable s' ∧ Core.iter s' = Core.iter s) := by
  have L := SL.api_lawful hE
  have hi := L.reachable hs
  have st := fun l (hl : Sorted lt l) vs =>
    Spec.insertAll_isStableSort (O := Spec.Order.ofValues lt) hE.order (l := l) hl vs
  refine ⟨?_, ?_, ?_, ?_, ?_⟩
  · obtain ⟨s', e, _, h⟩ := L.concat xs s hi
    exact ⟨s', e, .new e, by rw [show Core.iter s' = _ from h]; exact st _ hi.sorted xs⟩
  · obtain ⟨s', e, h⟩ := (L.iadd xs).run hi
    exact ⟨s', e, by rw [show Core.iter s' = _ from h]; exact st _ hi.sorted xs⟩
  · obtain ⟨s', e, _, h⟩ := L.mul n s hi
    exact ⟨s', e, .new e, by rw [show Core.iter s' = _ from h]; exact st [] List.Pairwise.nil _⟩
  · obtain ⟨s', e, h⟩ := (L.imul n).run hi
    exact ⟨s', e, by rw [show Core.iter s' = _ from h]; exact st [] List.Pairwise.nil _⟩
  · obtain ⟨s', e, _, h⟩ := L.copy s hi
    exact ⟨s', e, .new e, h⟩

/-- C23 (SortedList): calling the class with the arguments in the `__reduce__` tuple gives an equal list. -/
theorem C23_pickle (hE : E.Lawful lt) (hs : (SL.api E).Reachable s) :
    ∃ s', SL.new E (some (SL.reduceArgs s)) = .ok s' ∧ (SL.api E).Reachable s' ∧ Core.iter s' = Core.iter s := by
  obtain ⟨_, _, _, _, s', e, h, h'⟩ := C22_concat_mul_copy hE hs [] 0
  exact ⟨s', e, h, h'⟩

/-- C24: a query changes neither the contents nor the length, and no answer of any later call; repeated, it gives the
same answer. -/
theorem C24_queries_pure (hE : E.Lawful lt) (hs : (SL.api E).Reachable s) (q : Op α) (hq : q.isQuery = true)
    (ops : List (Op α)) (hops : ∀ op ∈ ops, op.Valid) :
    let s' := ((SL.api E).step q s).2
    Core.iter s' = Core.iter s ∧ Core.length s' = Core.length s ∧
    (runHist (SL.api E).step ops s').1 = (runHist (SL.api E).step ops s).1 ∧
    Core.iter (runHist (SL.api E).step ops s').2 = Core.iter (runHist (SL.api E).step ops s).2 ∧
    ((SL.api E).step q s').1 = ((SL.api E).step q s).1 := by
  have L := SL.api_lawful hE
  have hi := L.reachable hs
  have hv : q.Valid := by cases q <;> simp_all [Op.Valid, Op.isQuery]
  obtain ⟨h1, h2, h3⟩ := L.step q hv s hi
  rw [Spec.step_query q hq] at h2
  have h2' : Core.iter ((SL.api E).step q s).2 = Core.iter s := h2
  obtain ⟨a1, a2, _⟩ := L.hist ops hops hi
  obtain ⟨b1, b2, _⟩ := L.hist ops hops h3
  obtain ⟨c1, _, _⟩ := L.step q hv _ h3
  rw [h2] at b1 b2 c1
  refine ⟨h2, ?_, b1.trans a1.symm, b2.trans a2.symm, c1.trans h1.symm⟩
  show Core.length _ = Core.length _
  rw [Core.length, Core.length, h3.len_eq, hi.len_eq]
  exact congrArg List.length h2'

/-- C25: two lists with the same contents, whatever their load factors and histories, answer every later sequence of
calls alike and keep the same contents (each may also be reloaded with any load factor on the way). -/
theorem C25_load_unobservable (hE : E.Lawful lt) {t : St α α} (hs : (SL.api E).Reachable s)
    (ht : (SL.api E).Reachable t) (heq : Core.iter s = Core.iter t) (ops : List (Op α)) (hops : ∀ op ∈ ops, op.Valid) :
    (runHist (SL.api E).step ops s).1 = (runHist (SL.api E).step ops t).1 ∧
    Core.iter (runHist (SL.api E).step ops s).2 = Core.iter (runHist (SL.api E).step ops t).2 := by
  have L := SL.api_lawful hE
  obtain ⟨a1, a2, _⟩ := L.hist ops hops (L.reachable hs)
  obtain ⟨b1, b2, _⟩ := L.hist ops hops (L.reachable ht)
  rw [show (SL.api E).iter s = (SL.api E).iter t from heq] at a1 a2
  exact ⟨a1.trans b1.symm, a2.trans b2.symm⟩

/-- C25, continued: `_reset(load)` does not raise and does not change the contents. -/
theorem C25_reset (hE : E.Lawful lt) (hs : (SL.api E).Reachable s) (load : Nat) (hload : 1 ≤ load) :
    ∃ s', Core.reset (SL.methods E) load s = (.ok (), s') ∧ Core.iter s' = Core.iter s :=
  ((SL.api_lawful hE).reset load hload).run ((SL.api_lawful hE).reachable hs)

/-- C26: no sublist is empty or longer than twice the load factor, and every sublist but the last has at least half the
load factor. -/
theorem C26_sublist_sizes (hE : E.Lawful lt) (hs : (SL.api E).Reachable s) :
    (∀ l ∈ s.lists, 1 ≤ l.length ∧ l.length ≤ 2 * s.load) ∧ (∀ l ∈ s.lists.dropLast, s.load / 2 ≤ l.length) := by
  have hi := (SL.api_lawful hE).reachable hs
  refine ⟨fun l hl => ⟨List.length_pos_iff.2 (hi.ne_nil l hl), ?_⟩, hi.lower⟩
  rw [Nat.mul_comm]; exact hi.upper l hl

/-- C35 (SortedList): a call that raises leaves the contents and the length unchanged. -/
theorem C35_raising_call (hE : E.Lawful lt) (hs : (SL.api E).Reachable s) (op : Op α) (hop : op.Valid) {e : PyErr}
    (h : ((SL.api E).step op s).1 = .error e) :
    Core.iter ((SL.api E).step op s).2 = Core.iter s ∧ Core.length ((SL.api E).step op s).2 = Core.length s := by
  have L := SL.api_lawful hE
  have hi := L.reachable hs
  obtain ⟨h1, h2, h3⟩ := L.step op hop s hi
  rw [h1] at h
  rw [Spec.step_error op _ h] at h2
  refine ⟨h2, ?_⟩
  rw [Core.length, Core.length, h3.len_eq, hi.len_eq]
  exact congrArg List.length (show Core.iter _ = Core.iter _ from h2)

/-- C50: item assignment, append, extend, insert and reverse raise NotImplementedError and change nothing (of any
object, reachable or not). -/
theorem C50_unsupported (u : Unsupported α) (s : St α α) :
    Core.unsupported u s = (.error .notImplementedError, s) := rfl

/-! ## The hypotheses are met: six sublists, duplicates across sublists, a built index -/

section Examples
open Demo

example : Sorted ilt (Core.iter sl) := C01_iteration_sorted intEnv_lawful sl_reachable
example := C02_plain_sorted_list intEnv_lawful (some [5, 1, 3, 3, 9, 7, 4]) ops ops_valid
example : Core.length sl = 8 ∧ (Core.iter sl).length = 8 := by decide +kernel
example := C04_check_passes intEnv_lawful (some [5, 1, 3, 3, 9, 7, 4]) [.reset 4, .add 3, .delInt 0, .getInt 4]
  (by intro op h load e; subst e; simp at h; omega)
example := C04_tables_agree intEnv_lawful sl_reachable
example : sl.index ≠ [] := by decide +kernel
example := C05_contains intEnv_lawful sl_reachable 3
example := C06_add intEnv_lawful sl_reachable 3
example := C07_update intEnv_lawful sl_reachable [6, 3, 2]
example := C08_discard intEnv_lawful sl_reachable 3
example := C09_remove intEnv_lawful sl_reachable 6
example := C10_getitem intEnv_lawful sl_reachable (-3)
example := C11_getslice intEnv_lawful sl_reachable { start := some 6, stop := some 1, step := some (-2) }
example := C12_delitem intEnv_lawful sl_reachable 5
example := C13_delslice intEnv_lawful sl_reachable { start := some 6, stop := some 1, step := some (-2) }
example := C14_pop intEnv_lawful sl_reachable (-4)
example := C15_bisect intEnv_lawful sl_reachable 3
example := C16_count intEnv_lawful sl_reachable 3
example := C17_index intEnv_lawful sl_reachable 3 (some 1) (some (-1))
example := C18_irange intEnv_lawful sl_reachable (some 3) (some 8) false true true
example := C18_irange_empty intEnv_lawful sl_reachable 8 3 (by decide) true true false
example := C19_islice intEnv_lawful sl_reachable (some 1) (some (-1)) true
example := C21_compare intEnv_lawful sl_reachable .lt [3, 3, 4]
example := C22_concat_mul_copy intEnv_lawful sl_reachable [4, 0] 2
example := C23_pickle intEnv_lawful sl_reachable
example := C24_queries_pure intEnv_lawful sl_reachable (.getInt 3) rfl ops ops_valid
example := C26_sublist_sizes intEnv_lawful sl_reachable

/-- A value equal to, but different from, a stored one. -/
example : (SL.api pairEnv).Reachable ((SL.api pairEnv).step (.add (1, 7)) St.empty).2 :=
  .step _ trivial (.new (xs := none) rfl)

/-- Two different segmentations of the same contents. -/
example : Core.iter start = [1, 3, 3, 4, 5, 7, 9] ∧
    start.lists ≠ ((SL.api intEnv).step (.reset 2) start).2.lists := by decide +kernel

/-- A raising call. -/
example : ∃ e, ((SL.api intEnv).step (.pop 8) sl).1 = .error e := ⟨.indexError, by decide +kernel⟩

end Examples
end Verif
