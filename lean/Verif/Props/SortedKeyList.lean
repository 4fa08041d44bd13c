import Verif.Proofs.Laws
import Verif.Proofs.Check
import Verif.Proofs.Load
import Verif.Props.Demo
/-!
# Properties of SortedKeyList (C23-C32, C35, C50)

`K.Lawful key klt veq`: the key function does not raise and is `key`, comparisons of keys do not raise and come from the
strict weak order `klt`, `==` of values does not raise and is `veq` (any function; `!=` is its negation).
`SKL.Reachable K s`: the object `s` was constructed from some iterable and then received any number of calls, some of
which may have raised.  `Core.iter s` is `list(skl)`.
-/

namespace Verif
variable {α κ : Type} {K : KEnv α κ} {key : α → κ} {klt : κ → κ → Bool} {veq : α → α → Bool} {s : St α κ}

/-- C27: construct a SortedKeyList from `xs` and make any calls `ops`: every answer (value or exception) is the one of the
plain list, and at the end `list(skl)` is the plain list.  The plain list starts as the stable sort of `xs` by key. -/
theorem C27_plain_list_sorted_by_key (hK : K.Lawful key klt veq) (xs : Option (List α)) (ops : List (KOp α κ))
    (hops : ∀ op ∈ ops, op.Valid) :
    let spec := Spec.kstep key klt (Spec.Order.ofKey key klt veq K.vcmp)
    ∃ s0 plain, SKL.new K xs = .ok s0 ∧ IsStableSort (fun a b => klt (key a) (key b)) (xs.getD []) plain ∧
      Core.iter s0 = plain ∧
      (runHist (SKL.kstep K) ops s0).1 = (runHist spec ops plain).1 ∧
      Core.iter (runHist (SKL.kstep K) ops s0).2 = (runHist spec ops plain).2 := by
  intro spec
  obtain ⟨s0, e, hi, h0⟩ := (SKL.api_lawful hK).new xs
  obtain ⟨h1, h2, _⟩ := Refines.hist ops (fun op ho => SKL.kstep_refines hK op (hops op ho)) hi
  refine ⟨s0, _, e, ?_, rfl, h1, h2⟩
  have := Spec.insertAll_isStableSort (O := Spec.Order.ofKey key klt veq K.vcmp) (hK.order.comap key) Spec.sorted_nil
    (xs.getD [])
  rw [show Core.iter s0 = _ from h0]
  exact this

/-- C28: iteration is in nondecreasing key order, and among the values with one and the same key (that of `v`) it yields
part of what was inserted (at construction, with add, update or `+=`), in the order of insertion. -/
theorem C28_key_order_stable (hK : K.Lawful key klt veq) (xs : Option (List α)) (ops : List (KOp α κ))
    (hops : ∀ op ∈ ops, op.Valid) (hmul : ∀ op ∈ ops, ∀ n, op ≠ .op (.imul n)) {s0 : St α κ}
    (hnew : SKL.new K xs = .ok s0) :
    let s := (runHist (SKL.kstep K) ops s0).2
    let inserted := xs.getD [] ++ ops.flatMap KOp.inserted
    Sorted (fun a b => klt (key a) (key b)) (Core.iter s) ∧
    ∀ v, ((Core.iter s).filter fun x => equiv klt (key v) (key x)).Sublist
      (inserted.filter fun x => equiv klt (key v) (key x)) := by
  intro s inserted
  have hO : StrictWeakOrder (Spec.Order.ofKey key klt veq K.vcmp).lt := hK.order.comap key
  obtain ⟨s0', e, hi, h0⟩ := (SKL.api_lawful hK).new xs
  rw [show (SKL.api K).new xs = _ from hnew] at e
  cases e
  obtain ⟨_, h2, h3⟩ := Refines.hist ops (fun op ho => SKL.kstep_refines hK op (hops op ho)) hi
  refine ⟨h3.sorted, fun v => ?_⟩
  have hst := Spec.insertAll_isStableSort hO Spec.sorted_nil (xs.getD [])
  have h0' : Core.iter s0 = Spec.insertAll (Spec.Order.ofKey key klt veq K.vcmp) [] (xs.getD []) := h0
  have := Spec.hist_sublist (key := key) (klt := klt) hO ops hmul (Core.iter s0) (xs.getD []) (by rw [h0']; exact hst.sorted) v
    (by rw [h0', hst.stable]; exact List.Sublist.refl _)
  rw [← h2] at this
  exact this

/-- C28, continued: if no call removes values, the list is exactly the stable sort by key of everything inserted. -/
theorem C28_insertions_only (hK : K.Lawful key klt veq) (xs : Option (List α)) (ops : List (KOp α κ))
    (hops : ∀ op ∈ ops, op.Valid ∧ op.keeps = true) {s0 : St α κ} (hnew : SKL.new K xs = .ok s0) :
    IsStableSort (fun a b => klt (key a) (key b)) (xs.getD [] ++ ops.flatMap KOp.inserted)
      (Core.iter (runHist (SKL.kstep K) ops s0).2) := by
  have hO : StrictWeakOrder (Spec.Order.ofKey key klt veq K.vcmp).lt := hK.order.comap key
  obtain ⟨s0', e, hi, h0⟩ := (SKL.api_lawful hK).new xs
  rw [show (SKL.api K).new xs = _ from hnew] at e
  cases e
  obtain ⟨_, h2, h3⟩ := Refines.hist ops (fun op ho => SKL.kstep_refines hK op (hops op ho).1) hi
  rw [h2, Spec.hist_insertAll ops (fun op ho => (hops op ho).2),
    show Core.iter s0 = _ from h0, Spec.insertAll, Spec.insertAll, ← List.foldl_append]
  exact Spec.insertAll_isStableSort hO Spec.sorted_nil _

/-- C29: membership, count, index, remove and discard act on the values that have the key of `x` and equal `x`, wherever
the run of values with that key lies. -/
theorem C29_equal_keys (hK : K.Lawful key klt veq) (hs : SKL.Reachable K s) (x : α) :
    let l := Core.iter s
    let same : α → Bool := fun y => equiv klt (key y) (key x) && veq y x
    (∃ b s', SKL.contains K x s = (.ok b, s') ∧ (b = true ↔ ∃ y ∈ l, same y = true) ∧ Core.iter s' = l) ∧
    (∃ s', SKL.count K x s = (.ok (l.countP same), s') ∧ Core.iter s' = l) ∧
    (∃ s', SKL.discard K x s = (.ok (), s') ∧
      ((∃ A y B, l = A ++ y :: B ∧ same y = true ∧ (∀ z ∈ A, same z = false) ∧ Core.iter s' = A ++ B) ∨
       ((∀ y ∈ l, same y = false) ∧ Core.iter s' = l))) ∧
    (∃ s', (SKL.remove K x s = (.ok (), s') ∧
          ∃ A y B, l = A ++ y :: B ∧ same y = true ∧ (∀ z ∈ A, same z = false) ∧ Core.iter s' = A ++ B) ∨
        (SKL.remove K x s = (.error .valueError, s') ∧ (∀ y ∈ l, same y = false) ∧ Core.iter s' = l)) := by
  intro l same
  have hi := SKL.reachable_inv hK hs
  refine ⟨?_, ?_, ?_, ?_⟩
  · obtain ⟨s', e, h⟩ := (SKL.contains_refines (cmp := K.vcmp) hK x).run hi
    exact ⟨_, s', e, any_eq_true_iff, h⟩
  · exact ⟨s, SKL.count_ok hK hi x, rfl⟩
  · obtain ⟨s', e, h⟩ := (SKL.discard_refines (cmp := K.vcmp) hK x).run hi
    refine ⟨s', e, ?_⟩
    rw [h]
    exact eraseP_cases _ _
  · obtain ⟨s', e, h⟩ := (SKL.remove_refines (cmp := K.vcmp) hK x).run hi
    refine ⟨s', ?_⟩
    rcases eraseP_cases same l with ⟨A, y, B, h1, h2, h3, h4⟩ | ⟨h1, h2⟩
    · have : l.any same = true := any_eq_true_iff.2 ⟨y, by rw [h1]; simp, h2⟩
      have hif : Spec.remove (Spec.Order.ofKey key klt veq K.vcmp) x l = (.ok (), l.eraseP same) := if_pos this
      rw [hif] at e h
      exact .inl ⟨e, A, y, B, h1, h2, h3, h.trans h4⟩
    · have : ¬ l.any same = true := by
        rw [any_eq_true_iff]; rintro ⟨y, hy, h⟩; rw [h1 y hy] at h; cases h
      have hif : Spec.remove (Spec.Order.ofKey key klt veq K.vcmp) x l = (.error .valueError, l) := if_neg this
      rw [hif] at e h
      exact .inr ⟨e, h1, h⟩

/-- C29, continued: `index(x, start, stop)` is the least position in the window whose value has the key of `x` and equals
`x`; ValueError exactly if there is none. -/
theorem C29_index (hK : K.Lawful key klt veq) (hs : SKL.Reachable K s) (x : α) (start stop : Option Int) :
    let l := Core.iter s
    let same : α → Bool := fun y => equiv klt (key y) (key x) && veq y x
    let bound : Int → Option Int → Int := fun default o => match o with
      | none => default
      | some i => if i < 0 then max (i + l.length) 0 else i
    let lo := bound 0 start
    let hi := bound l.length stop
    ∃ s', Core.iter s' = l ∧
      ((∃ (n : Nat) (y : α), SKL.index K x start stop s = (.ok (n : Int), s') ∧ lo ≤ n ∧ (n : Int) < hi ∧
          l[n]? = some y ∧ same y = true ∧
          ∀ (m : Nat) (z : α), lo ≤ m → m < n → l[m]? = some z → same z = false) ∨
       (SKL.index K x start stop s = (.error .valueError, s') ∧
          ∀ (m : Nat) (z : α), lo ≤ m → (m : Int) < hi → l[m]? = some z → same z = false)) := by
  intro l same bound lo hi
  obtain ⟨s', e, h⟩ := (SKL.index_refines (cmp := K.vcmp) hK x start stop).run (SKL.reachable_inv hK hs)
  have b1 : lo = Spec.indexBound l.length 0 start := by cases start <;> rfl
  have b2 : hi = Spec.indexBound l.length l.length stop := by cases stop <;> rfl
  rw [b1, b2]
  rcases Spec.index_cases (O := Spec.Order.ofKey key klt veq K.vcmp) x start stop (Core.iter s) with
    ⟨n, y, e', h1, h2, h3, h4, h5⟩ | ⟨e', h1⟩
  · rw [e'] at e h
    exact ⟨s', h, .inl ⟨n, y, e, h1, h2, h3, h4, h5⟩⟩
  · rw [e'] at e h
    exact ⟨s', h, .inr ⟨e, h1⟩⟩

/-- C30: `bisect_key_left(k)` / `bisect_key_right(k)` count the values with key `< k` / `<= k`; `bisect_left(x)` and
`bisect_right(x)` are the same with `key(x)`. -/
theorem C30_bisect_key (hK : K.Lawful key klt veq) (hs : SKL.Reachable K s) (k : κ) :
    (∃ s', SKL.bisect_key_left K k s = (.ok ((Core.iter s).countP fun y => klt (key y) k), s') ∧
      Core.iter s' = Core.iter s) ∧
    (∃ s', SKL.bisect_key_right K k s = (.ok ((Core.iter s).countP fun y => !klt k (key y)), s') ∧
      Core.iter s' = Core.iter s) ∧
    ∀ x, key x = k → SKL.bisect_left K x s = SKL.bisect_key_left K k s ∧
      SKL.bisect_right K x s = SKL.bisect_key_right K k s := by
  have hi := SKL.reachable_inv hK hs
  refine ⟨(SKL.bisect_key_left_refines hK k).run hi, (SKL.bisect_key_right_refines hK k).run hi, ?_⟩
  rintro x rfl
  simp only [SKL.bisect_left, SKL.bisect_right, hK.key_ok, Py.lift_ok_bind, and_self]

/-- C30, continued: `irange_key(lo, hi, inclusive, reverse)` yields exactly the values whose key lies between the bounds,
in order or reversed; `irange(x, y, ...)` is the same with `key(x)`, `key(y)`. -/
theorem C30_irange_key (hK : K.Lawful key klt veq) (hs : SKL.Reachable K s) (lo hi : Option κ)
    (incLo incHi reverse : Bool) :
    let above : α → Bool := fun x => match lo with
      | none => true
      | some m => if incLo then !klt (key x) m else klt m (key x)
    let below : α → Bool := fun x => match hi with
      | none => true
      | some m => if incHi then !klt m (key x) else klt (key x) m
    let result := (Core.iter s).filter fun x => above x && below x
    (∃ s', SKL.irange_key K lo hi incLo incHi reverse s = (.ok (if reverse then result.reverse else result), s') ∧
      Core.iter s' = Core.iter s) ∧
    ∀ x y : Option α, x.map key = lo → y.map key = hi →
      SKL.irange K x y incLo incHi reverse s = SKL.irange_key K lo hi incLo incHi reverse s := by
  intro above below result
  constructor
  · obtain ⟨s', e, h⟩ := (SKL.irange_key_refines hK lo hi incLo incHi reverse).run (SKL.reachable_inv hK hs)
    refine ⟨s', ?_, h⟩
    rw [e]
    simp only [Spec.irangeKey, Spec.reverseIf]
    have : (fun x => Spec.aboveKey klt lo incLo (key x) && Spec.belowKey klt hi incHi (key x))
        = fun x => above x && below x := by
      funext x; cases lo <;> cases hi <;> rfl
    rw [this]
  · rintro x y rfl rfl
    unfold SKL.irange SKL.irangeWith
    rw [SKL.keyOpt_ok hK, SKL.keyOpt_ok hK]
    rfl

/-- C31, the part that holds: `copy`, `skl + xs`, `xs + skl`, `skl * n` give new sorted-key lists with the same key
function (they are reachable objects of the same `K`) and exactly the expected values, sorted stably by key.
Missing: `n * skl`, for which the claim is false, see `C31_rmul_forgets_key`. -/
theorem C31_derived_lists_partial (hK : K.Lawful key klt veq) (hs : SKL.Reachable K s) (xs : List α) (n : Int) :
    let byKey := fun a b => klt (key a) (key b)
    (∃ s', SKL.copy K s = .ok s' ∧ SKL.Reachable K s' ∧ Core.iter s' = Core.iter s) ∧
    (∃ s', SKL.concat K xs s = .ok s' ∧ SKL.Reachable K s' ∧ IsStableSort byKey (Core.iter s ++ xs) (Core.iter s')) ∧
    (∃ s', SKL.mul K n s = .ok s' ∧ SKL.Reachable K s' ∧
      IsStableSort byKey (List.replicate n.toNat (Core.iter s)).flatten (Core.iter s')) := by
  intro byKey
  have L := SKL.api_lawful hK
  have hi := SKL.reachable_inv hK hs
  have st := fun l (hl : Sorted byKey l) vs =>
    Spec.insertAll_isStableSort (O := Spec.Order.ofKey key klt veq K.vcmp) (hK.order.comap key) (l := l) hl vs
  refine ⟨?_, ?_, ?_⟩
  · obtain ⟨s', e, _, h⟩ := L.copy s hi
    exact ⟨s', e, .new (xs := some (Core.iter s)) e, h⟩
  · obtain ⟨s', e, _, h⟩ := L.concat xs s hi
    exact ⟨s', e, .new (xs := some (Core.iter s ++ xs)) e, by
      rw [show Core.iter s' = _ from h]; exact st _ hi.sorted xs⟩
  · obtain ⟨s', e, _, h⟩ := L.mul n s hi
    exact ⟨s', e, .new (xs := some (repeatList (Core.iter s) n)) e, by
      rw [show Core.iter s' = _ from h]; exact st [] List.Pairwise.nil _⟩

/-- C31 is false for `n * skl`: `1 * SortedKeyList([1, 2, 3], key=neg)` is `[1, 2, 3]`, not `[3, 2, 1]`.  (The result is a
SortedKeyList with the identity as key function, environment `idEnv`.) -/
theorem C31_rmul_forgets_key :
    ∃ s s' : St Int Int, SKL.new Demo.negEnv (some [1, 2, 3]) = .ok s ∧ SKL.rmul Demo.idEnv 1 s = .ok s' ∧
      Core.iter s = [3, 2, 1] ∧ Core.iter s' = [1, 2, 3] ∧
      ¬ Sorted (fun a b => Demo.ilt (-a) (-b)) (Core.iter s') :=
  ⟨_, _, rfl, rfl, by decide +kernel, by decide +kernel, by unfold Sorted; decide +kernel⟩

/-- What `n * skl` is: the repeated values sorted by themselves, for values with an order `lt` of their own. -/
theorem C31_rmul_result {lt : α → α → Bool} {Kid : KEnv α α} (hid : Kid.Lawful id lt veq) (s : St α κ) (n : Int) :
    ∃ s', SKL.rmul Kid n s = .ok s' ∧ SKL.Reachable Kid s' ∧
      IsStableSort lt (List.replicate n.toNat (Core.iter s)).flatten (Core.iter s') := by
  obtain ⟨s', e, _, h⟩ := (SKL.api_lawful hid).new (some (repeatList (Core.iter s) n))
  refine ⟨s', e, .new (xs := some (repeatList (Core.iter s) n)) e, ?_⟩
  rw [show Core.iter s' = _ from h]
  exact Spec.insertAll_isStableSort (O := Spec.Order.ofKey id lt veq Kid.vcmp) (hid.order.comap id) Spec.sorted_nil _

/-- C32: `_check()` passes after any calls, if load factors below 4 are never asked for (`_check` insists on that). -/
theorem C32_check_passes (hK : K.Lawful key klt veq) (xs : Option (List α)) (ops : List (KOp α κ))
    (hops : ∀ op ∈ ops, ∀ load, op = .op (.reset load) → 4 ≤ load) :
    ∃ s0, SKL.new K xs = .ok s0 ∧ SKL.check K (runHist (SKL.kstep K) ops s0).2 = .ok () := by
  obtain ⟨s0, e, hi, _⟩ := (SKL.api_lawful hK).new xs
  refine ⟨s0, e, SKL.check_ok hK ?_ (SKL.hist_load_ge ops hops ?_)⟩
  · refine (Refines.hist ops (fun op ho => SKL.kstep_refines hK op ?_) hi).2.2
    cases op with
    | op o => cases o <;> first | trivial | exact Nat.le_trans (by decide) (hops _ ho _ rfl)
    | _ => trivial
  · rw [SKL.new_load e]; decide

/-- C32, continued: whatever the load factor, the cached keys are the keys of the stored values, sublist by sublist, and
the entries of `_maxes` are the keys of the last values of the sublists. -/
theorem C32_cached_keys (hK : K.Lawful key klt veq) (hs : SKL.Reachable K s) :
    s.keys = s.lists.map (List.map key) ∧ s.maxes.map some = s.lists.map fun l => l.getLast?.map key :=
  ⟨(SKL.reachable_inv hK hs).keys_eq rfl, (SKL.reachable_inv hK hs).maxes⟩

/-! ## The counterparts of C03, C10-C14, C19-C26, C35 and C50 -/

/-- C03 (SortedKeyList): `len(skl)` is the number of values. -/
theorem C03_len_key (hK : K.Lawful key klt veq) (hs : SKL.Reachable K s) : Core.length s = (Core.iter s).length :=
  (SKL.reachable_inv hK hs).len_eq

/-- C23 (SortedKeyList): calling the class with the arguments in the `__reduce__` tuple (values and key function) gives an
equal list. -/
theorem C23_pickle_key (hK : K.Lawful key klt veq) (hs : SKL.Reachable K s) :
    ∃ s', SKL.new K (some (SKL.reduceArgs s)) = .ok s' ∧ SKL.Reachable K s' ∧ Core.iter s' = Core.iter s :=
  (C31_derived_lists_partial hK hs [] 0).1

/-- C24 (SortedKeyList): a query changes neither the contents nor the length, and no answer of any later call; repeated,
it gives the same answer. -/
theorem C24_queries_pure_key (hK : K.Lawful key klt veq) (hs : SKL.Reachable K s) (q : KOp α κ) (hq : q.isQuery = true)
    (ops : List (KOp α κ)) (hops : ∀ op ∈ ops, op.Valid) :
    let s' := (SKL.kstep K q s).2
    Core.iter s' = Core.iter s ∧ Core.length s' = Core.length s ∧
    (runHist (SKL.kstep K) ops s').1 = (runHist (SKL.kstep K) ops s).1 ∧
    Core.iter (runHist (SKL.kstep K) ops s').2 = Core.iter (runHist (SKL.kstep K) ops s).2 ∧
    (SKL.kstep K q s').1 = (SKL.kstep K q s).1 := by
  have hi := SKL.reachable_inv hK hs
  have R := fun ops (ho : ∀ op ∈ ops, KOp.Valid op) s (hs : Inv key klt true s) =>
    Refines.hist ops (fun op h => SKL.kstep_refines hK op (ho op h)) hs
  have hv : q.Valid := by
    cases q with
    | op o => cases o <;> simp_all [KOp.Valid, KOp.isQuery, Op.Valid, Op.isQuery]
    | _ => trivial
  obtain ⟨h1, h2, h3⟩ := SKL.kstep_refines hK q hv s hi
  rw [Spec.kstep_query q hq] at h2
  obtain ⟨a1, a2, _⟩ := R ops hops s hi
  obtain ⟨b1, b2, _⟩ := R ops hops _ h3
  obtain ⟨c1, _, _⟩ := SKL.kstep_refines hK q hv _ h3
  rw [h2] at b1 b2 c1
  refine ⟨h2, ?_, b1.trans a1.symm, b2.trans a2.symm, c1.trans h1.symm⟩
  show Core.length _ = Core.length _
  rw [Core.length, Core.length, h3.len_eq, hi.len_eq]
  exact congrArg List.length h2

/-- C25 (SortedKeyList): two lists with the same contents, whatever their load factors and histories, answer every later
sequence of calls alike and keep the same contents. -/
theorem C25_load_unobservable_key (hK : K.Lawful key klt veq) {t : St α κ} (hs : SKL.Reachable K s)
    (ht : SKL.Reachable K t) (heq : Core.iter s = Core.iter t) (ops : List (KOp α κ)) (hops : ∀ op ∈ ops, op.Valid) :
    (runHist (SKL.kstep K) ops s).1 = (runHist (SKL.kstep K) ops t).1 ∧
    Core.iter (runHist (SKL.kstep K) ops s).2 = Core.iter (runHist (SKL.kstep K) ops t).2 := by
  have R := fun s (hs : Inv key klt true s) =>
    Refines.hist ops (fun op h => SKL.kstep_refines hK op (hops op h)) hs
  obtain ⟨a1, a2, _⟩ := R s (SKL.reachable_inv hK hs)
  obtain ⟨b1, b2, _⟩ := R t (SKL.reachable_inv hK ht)
  rw [heq] at a1 a2
  exact ⟨a1.trans b1.symm, a2.trans b2.symm⟩

/-- C25 (SortedKeyList), continued: `_reset(load)` does not raise and does not change the contents. -/
theorem C25_reset_key (hK : K.Lawful key klt veq) (hs : SKL.Reachable K s) (load : Nat) (hload : 1 ≤ load) :
    ∃ s', Core.reset (SKL.methods K) load s = (.ok (), s') ∧ Core.iter s' = Core.iter s :=
  ((SKL.api_lawful hK).reset load hload).run (SKL.reachable_inv hK hs)

/-- C26 (SortedKeyList): no sublist is empty or longer than twice the load factor, and every sublist but the last has at
least half the load factor. -/
theorem C26_sublist_sizes_key (hK : K.Lawful key klt veq) (hs : SKL.Reachable K s) :
    (∀ l ∈ s.lists, 1 ≤ l.length ∧ l.length ≤ 2 * s.load) ∧ (∀ l ∈ s.lists.dropLast, s.load / 2 ≤ l.length) := by
  have hi := SKL.reachable_inv hK hs
  refine ⟨fun l hl => ⟨List.length_pos_iff.2 (hi.ne_nil l hl), ?_⟩, hi.lower⟩
  rw [Nat.mul_comm]; exact hi.upper l hl

/-- C35 (SortedKeyList): a call that raises leaves the contents and the length unchanged. -/
theorem C35_raising_call_key (hK : K.Lawful key klt veq) (hs : SKL.Reachable K s) (op : KOp α κ) (hop : op.Valid)
    {e : PyErr} (h : (SKL.kstep K op s).1 = .error e) :
    Core.iter (SKL.kstep K op s).2 = Core.iter s ∧ Core.length (SKL.kstep K op s).2 = Core.length s := by
  have hi := SKL.reachable_inv hK hs
  obtain ⟨h1, h2, h3⟩ := SKL.kstep_refines hK op hop s hi
  rw [h1] at h
  rw [Spec.kstep_error op _ h] at h2
  refine ⟨h2, ?_⟩
  rw [Core.length, Core.length, h3.len_eq, hi.len_eq]
  exact congrArg List.length h2

/-- C50 (SortedKeyList). -/
theorem C50_unsupported_key (u : Unsupported α) (s : St α κ) :
    Core.unsupported u s = (.error .notImplementedError, s) := rfl

/-! ## The hypotheses are met: seven sublists, a run of equal keys over five of them -/

section Examples
open Demo

example := C27_plain_list_sorted_by_key tensEnv_lawful (some [52, 10, 31, 35, 97, 31, 44]) kops kops_valid
example := C28_key_order_stable tensEnv_lawful (some [52, 10, 31, 35, 97, 31, 44]) kops kops_valid
  (by intro op h n e; subst e; simp [kops] at h) kstart_new
example := C28_insertions_only tensEnv_lawful (some [52, 10, 31, 35, 97, 31, 44])
  [.op (.add 33), .op (.update [39, 30]), .bisectKeyLeft 3] (by simp [KOp.Valid, Op.Valid, KOp.keeps, KOp.isQuery])
  kstart_new
example := C29_equal_keys tensEnv_lawful skl_reachable 33
example := C29_index tensEnv_lawful skl_reachable 33 (some 1) (some (-1))
example := C30_bisect_key tensEnv_lawful skl_reachable 3
example := C30_irange_key tensEnv_lawful skl_reachable (some 3) (some 5) false true true
example := C31_derived_lists_partial tensEnv_lawful skl_reachable [31, 99] 2
example := C31_rmul_result idEnv_lawful skl 2
example := C32_check_passes tensEnv_lawful (some [52, 10, 31, 35, 97, 31, 44])
  [.op (.reset 4), .op (.add 33), .op (.delInt 0), .op (.getInt 4)]
  (by intro op h load e; subst e; simp at h; omega)
example := C32_cached_keys tensEnv_lawful skl_reachable
example := C23_pickle_key tensEnv_lawful skl_reachable
example := C24_queries_pure_key tensEnv_lawful skl_reachable (.op (.index 33 none none)) rfl kops kops_valid
example := C26_sublist_sizes_key tensEnv_lawful skl_reachable

/-- Two different segmentations of the same contents. -/
example : kstart.lists ≠ (SKL.kstep tensEnv (.op (.reset 2)) kstart).2.lists ∧
    Core.iter kstart = Core.iter (SKL.kstep tensEnv (.op (.reset 2)) kstart).2 := by decide +kernel

/-- A raising call. -/
example : ∃ e, (SKL.kstep tensEnv (.op (.pop 8)) skl).1 = .error e := ⟨.indexError, by decide +kernel⟩

end Examples
end Verif
