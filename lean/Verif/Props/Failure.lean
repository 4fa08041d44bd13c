import Verif.Proofs.RobustKey
import Verif.Proofs.SortedSet
import Verif.Proofs.SortedDict
import Verif.Props.DemoWild
import Verif.Props.DemoSet
/-!
# When comparisons or the key function raise or contradict each other (C33, C34, C43, C49, C52)

`SL.Wild s` / `SKL.Wild s`: the object was constructed and then received any calls, with comparisons and key functions of
which nothing is assumed and which may differ from call to call; see Verif/Wild.lean.  `E.Sane` and `K.Sane` assume
only that `sorted` returns a rearrangement if it returns, and that `int(log(n, 2))` is not too small.
-/

namespace Verif
variable {α κ ν σ τ : Type}

/-- With well-behaved comparisons this covers every reachable object. -/
theorem SL.Reachable.wild {E : Env α} {lt : α → α → Bool} (hE : E.Lawful lt) {s : St α α} (h : (SL.api E).Reachable s) : SL.Wild s :=
  SL.wild_of_reachable hE h

theorem SKL.Reachable.wild {K : KEnv α κ} {key : α → κ} {klt : κ → κ → Bool} {veq : α → α → Bool} (hK : K.Lawful key klt veq)
    {s : St α κ} (h : SKL.Reachable K s) : SKL.Wild s := SKL.wild_of_reachable hK h

/-! ## add -/

/-- C33 (SortedList): an `add` that raises, wherever in the binary searches, leaves the object exactly as it was. -/
theorem C33_failing_add {s : St α α} (hs : SL.Wild s) (E : Env α) (x : α) {e : PyErr} {s' : St α α}
    (h : SL.add E x s = (.error e, s')) : s' = s := by
  rcases SL.add_whole E (SL.wild_whole hs) x with ⟨e', he⟩ | ⟨s1, e1, _⟩
  · rw [he] at h; cases h; rfl
  · rw [e1] at h; cases h

/-- C33 (SortedKeyList): the same; here the key function may raise too. -/
theorem C33_failing_add_key {s : St α κ} (hs : SKL.Wild s) (K : KEnv α κ) (x : α) {e : PyErr} {s' : St α κ}
    (h : SKL.add K x s = (.error e, s')) : s' = s := by
  rcases SKL.add_whole K (SKL.wild_whole hs) x with ⟨e', he⟩ | ⟨s1, e1, _⟩
  · rw [he] at h; cases h; rfl
  · rw [e1] at h; cases h

/-! ## What remains true without any order -/

/-- C52: the calls that go by position (`sl[i]`, `sl[a:b:c]`, `del sl[i]`, `pop`, `islice`, iteration, `reversed`, `len`,
`clear`) answer as the plain list `list(sl)` does and leave it as they would leave a plain list. -/
theorem C52_positional {s : St α α} (hs : SL.Wild s) {E : Env α} (hE : E.Sane) (op : Op α) (hp : op.positional = true)
    (O : Spec.Order α) :
    ((SL.api E).step op s).1 = (Spec.step O op (Core.iter s)).1 ∧
    Core.iter ((SL.api E).step op s).2 = (Spec.step O op (Core.iter s)).2 := by
  have h := SL.wild_whole hs
  have hR := SL.methods_robust hE
  have done : ∀ {β : Type} {f : β → Out α} {m : Py (St α α) β} {g : Py (List α) β}, Refines SL.W Core.iter m g →
      (Spec.out f m s).1 = (Spec.out f g (Core.iter s)).1 ∧ Core.iter (Spec.out f m s).2 = (Spec.out f g (Core.iter s)).2 := by
    intro β f m g hm
    have := hm.out f s h
    exact ⟨this.1, this.2.1⟩
  cases op <;> simp only [Op.positional] at hp <;> first | contradiction | skip
  case getInt i => exact done ((getInt_refines hE.ilog2 i).whole (Core.getInt_sim _ _))
  case getSlice sl => exact done ((getSlice_refines hE.ilog2 sl).whole (Core.getSlice_sim _ _))
  case delInt i => exact done (hR.delInt i)
  case pop i => exact done (hR.pop i)
  case clear => exact done hR.clear_refines
  case islice a b r => exact done ((islice_refines hE.ilog2 a b r).whole (Core.islice_sim _ _ _ _))
  case iter => exact ⟨rfl, rfl⟩
  case reversed => exact ⟨congrArg (fun l => Except.ok (Out.vals l)) (reversed_eq s), rfl⟩
  case len => exact ⟨congrArg (fun n : Nat => Except.ok (Out.int n)) h.len_eq, rfl⟩
  case unsupported u => exact ⟨rfl, rfl⟩

/-- C52 (SortedKeyList) -/
theorem C52_positional_key {s : St α κ} (hs : SKL.Wild s) {K : KEnv α κ} (hK : K.Sane) (op : Op α) (hp : op.positional = true)
    (O : Spec.Order α) :
    ((SKL.api K).step op s).1 = (Spec.step O op (Core.iter s)).1 ∧
    Core.iter ((SKL.api K).step op s).2 = (Spec.step O op (Core.iter s)).2 := by
  have h := SKL.wild_whole hs
  have hR := SKL.methods_robust hK
  have done : ∀ {β : Type} {f : β → Out α} {m : Py (St α κ) β} {g : Py (List α) β}, Refines SKL.W Core.iter m g →
      (Spec.out f m s).1 = (Spec.out f g (Core.iter s)).1 ∧ Core.iter (Spec.out f m s).2 = (Spec.out f g (Core.iter s)).2 := by
    intro β f m g hm
    have := hm.out f s h
    exact ⟨this.1, this.2.1⟩
  cases op <;> simp only [Op.positional] at hp <;> first | contradiction | skip
  case getInt i => exact done ((getInt_refines hK.ilog2 i).whole (Core.getInt_sim _ _))
  case getSlice sl => exact done ((getSlice_refines hK.ilog2 sl).whole (Core.getSlice_sim _ _))
  case delInt i => exact done (hR.delInt i)
  case pop i => exact done (hR.pop i)
  case clear => exact done hR.clear_refines
  case islice a b r => exact done ((islice_refines hK.ilog2 a b r).whole (Core.islice_sim _ _ _ _))
  case iter => exact ⟨rfl, rfl⟩
  case reversed => exact ⟨congrArg (fun l => Except.ok (Out.vals l)) (reversed_eq s), rfl⟩
  case len => exact ⟨congrArg (fun n : Nat => Except.ok (Out.int n)) h.len_eq, rfl⟩
  case unsupported u => exact ⟨rfl, rfl⟩

/-- C52: an `add` that returns puts in the value, once, and moves nothing else. -/
theorem C52_add {s : St α α} (hs : SL.Wild s) (E : Env α) (x : α) {s' : St α α} (h : SL.add E x s = (.ok (), s')) :
    Inserted x (Core.iter s) (Core.iter s') := by
  rcases SL.add_whole E (SL.wild_whole hs) x with ⟨e', he⟩ | ⟨s1, e1, _, h1⟩
  · rw [he] at h; cases h
  · rw [e1] at h; cases h; exact h1

theorem C52_add_key {s : St α κ} (hs : SKL.Wild s) (K : KEnv α κ) (x : α) {s' : St α κ} (h : SKL.add K x s = (.ok (), s')) :
    Inserted x (Core.iter s) (Core.iter s') := by
  rcases SKL.add_whole K (SKL.wild_whole hs) x with ⟨e', he⟩ | ⟨s1, e1, _, h1⟩
  · rw [he] at h; cases h
  · rw [e1] at h; cases h; exact h1

/-- C52: `discard(x)` and `remove(x)`, whether they return or raise, leave the object exactly as it was or take out one
value that compares equal to `x`; a `remove` that returns has taken one out. -/
theorem C52_discard_remove {s : St α α} (hs : SL.Wild s) (E : Env α) (x : α) :
    ((SL.discard E x s).2 = s ∨ Removed (fun y => E.cmp .eq y x = .ok true) (Core.iter s) (Core.iter (SL.discard E x s).2)) ∧
    ((SL.remove E x s).2 = s ∧ (∃ e, (SL.remove E x s).1 = .error e) ∨
      (SL.remove E x s).1 = .ok () ∧ Removed (fun y => E.cmp .eq y x = .ok true) (Core.iter s) (Core.iter (SL.remove E x s).2)) := by
  constructor
  · rcases SL.discard_whole E (SL.wild_whole hs) x with ⟨r, e⟩ | ⟨s1, e, _, h⟩
    · rw [e]; exact .inl rfl
    · rw [e]; exact .inr h
  · rcases SL.remove_whole E (SL.wild_whole hs) x with ⟨r, e⟩ | ⟨s1, e, _, h⟩
    · rw [e]; exact .inl ⟨rfl, r, rfl⟩
    · rw [e]; exact .inr ⟨rfl, h⟩

theorem C52_discard_remove_key {s : St α κ} (hs : SKL.Wild s) (K : KEnv α κ) (x : α) :
    ((SKL.discard K x s).2 = s ∨ Removed (fun y => K.vcmp .eq y x = .ok true) (Core.iter s) (Core.iter (SKL.discard K x s).2)) ∧
    ((SKL.remove K x s).2 = s ∧ (∃ e, (SKL.remove K x s).1 = .error e) ∨
      (SKL.remove K x s).1 = .ok () ∧ Removed (fun y => K.vcmp .eq y x = .ok true) (Core.iter s) (Core.iter (SKL.remove K x s).2)) := by
  constructor
  · rcases SKL.discard_whole K (SKL.wild_whole hs) x with ⟨r, e⟩ | ⟨s1, e, _, h⟩
    · rw [e]; exact .inl rfl
    · rw [e]; exact .inr h
  · rcases SKL.remove_whole K (SKL.wild_whole hs) x with ⟨r, e⟩ | ⟨s1, e, _, h⟩
    · rw [e]; exact .inl ⟨rfl, r, rfl⟩
    · rw [e]; exact .inr ⟨rfl, h⟩

/-- C52: bulk calls that return lose and invent nothing: `update(xs)` leaves the old values and `xs`, `sl *= n` the old
values `n` times, `del sl[a:b:c]` the values outside of the slice, `_reset` the old values, each in some order. -/
theorem C52_bulk {s : St α α} (hs : SL.Wild s) {E : Env α} (hE : E.Sane) {s' : St α α} :
    (∀ xs, SL.update E xs s = (.ok (), s') → (Core.iter s').Perm (Core.iter s ++ xs)) ∧
    (∀ n, Core.imul (SL.methods E) n s = (.ok (), s') →
      (Core.iter s').Perm (List.replicate n.toNat (Core.iter s)).flatten) ∧
    (∀ sl, Core.delSlice (SL.methods E) sl s = (.ok (), s') → (Core.iter s').Perm (Spec.delSlice sl (Core.iter s)).2) ∧
    (∀ load, 1 ≤ load → Core.reset (SL.methods E) load s = (.ok (), s') → (Core.iter s').Perm (Core.iter s)) := by
  have h := SL.wild_whole hs
  have hR := SL.methods_robust hE
  exact ⟨fun _ e => (SL.update_whole hE h e).2, fun _ e => (hR.imul h e).2, fun _ e => (hR.delSlice h e).2,
    fun _ hl e => (hR.reset h hl e).2⟩

theorem C52_bulk_key {s : St α κ} (hs : SKL.Wild s) {K : KEnv α κ} (hK : K.Sane) {s' : St α κ} :
    (∀ xs, SKL.update K xs s = (.ok (), s') → (Core.iter s').Perm (Core.iter s ++ xs)) ∧
    (∀ n, Core.imul (SKL.methods K) n s = (.ok (), s') →
      (Core.iter s').Perm (List.replicate n.toNat (Core.iter s)).flatten) ∧
    (∀ sl, Core.delSlice (SKL.methods K) sl s = (.ok (), s') → (Core.iter s').Perm (Spec.delSlice sl (Core.iter s)).2) ∧
    (∀ load, 1 ≤ load → Core.reset (SKL.methods K) load s = (.ok (), s') → (Core.iter s').Perm (Core.iter s)) := by
  have h := SKL.wild_whole hs
  have hR := SKL.methods_robust hK
  exact ⟨fun _ e => (SKL.update_whole hK h e).2, fun _ e => (hR.imul h e).2, fun _ e => (hR.delSlice h e).2,
    fun _ hl e => (hR.reset h hl e).2⟩

/-- C52: queries change nothing, whether they return or raise. -/
theorem C52_queries {s : St α α} (hs : SL.Wild s) {E : Env α} (hE : E.Sane) (op : Op α) (hq : op.isQuery = true) :
    Core.iter ((SL.api E).step op s).2 = Core.iter s := SL.query_whole hE op hq (SL.wild_whole hs)

theorem C52_queries_key {s : St α κ} (hs : SKL.Wild s) {K : KEnv α κ} (hK : K.Sane) (op : KOp α κ) (hq : op.isQuery = true) :
    Core.iter (SKL.kstep K op s).2 = Core.iter s := (SKL.query_whole hK op hq (SKL.wild_whole hs)).1

/-- C52: the bounds on the sizes of sublists do not depend on the comparisons. -/
theorem C52_sublist_sizes {s : St α α} (hs : SL.Wild s) :
    Core.length s = (Core.iter s).length ∧
    (∀ l ∈ s.lists, 1 ≤ l.length ∧ l.length ≤ 2 * s.load) ∧ (∀ l ∈ s.lists.dropLast, s.load / 2 ≤ l.length) := by
  have h := SL.wild_whole hs
  refine ⟨h.len_eq, ?_⟩
  obtain ⟨t, hl, hi⟩ := h
  rw [hl.lists, hl.load]
  refine ⟨fun l hl => ⟨List.length_pos_iff.2 (hi.ne_nil l hl), ?_⟩, hi.lower⟩
  rw [Nat.mul_comm]; exact hi.upper l hl

theorem C52_sublist_sizes_key {s : St α κ} (hs : SKL.Wild s) :
    Core.length s = (Core.iter s).length ∧ s.keys.map List.length = s.lists.map List.length ∧
    (∀ l ∈ s.lists, 1 ≤ l.length ∧ l.length ≤ 2 * s.load) ∧ (∀ l ∈ s.lists.dropLast, s.load / 2 ≤ l.length) := by
  have h := SKL.wild_whole hs
  refine ⟨h.len_eq, h.keys_lens rfl, ?_⟩
  obtain ⟨t, hl, hi⟩ := h
  rw [hl.lists, hl.load]
  refine ⟨fun l hl => ⟨List.length_pos_iff.2 (hi.ne_nil l hl), ?_⟩, hi.lower⟩
  rw [Nat.mul_comm]; exact hi.upper l hl

/-! ## update -/

/-- C34 does not hold: with integers and strings, `sl = SortedList([1, 3, 5, 9]); sl.update(['a'])` raises TypeError and
leaves the string in the list, at the end, not counted by `len`. -/
theorem C34_update_not_atomic : ∃ (E : Env Int) (s s' : St Int Int) (xs : List Int) (e : PyErr), E.Sane ∧
    (SL.api E).Reachable s ∧ SL.Wild s ∧ SL.update E xs s = (.error e, s') ∧
    Core.iter s' = Core.iter s ++ xs ∧ xs ≠ [] ∧ Core.length s' ≠ (Core.iter s').length :=
  ⟨Demo.mixedEnv, Demo.mixed, (SL.update Demo.mixedEnv [-1] Demo.mixed).2, [-1], .typeError, Demo.mixedEnv_sane,
    Demo.mixed_reachable, Demo.mixed_wild, Prod.ext (by decide +kernel) rfl, by decide +kernel, by decide, by decide +kernel⟩

/-- C34, the part that holds, and all that can happen otherwise.  If `update(xs)` raises, then
* `sorted(xs)` raised, and the object is exactly as before; or
* there were few new values, one `add` raised, the values before it are in and the object is consistent; or
* there were many, sorting old and new values together raised, and the object has the new values at the end and the
  old length (that is the defect).
What is missing from C34: in the last two cases the object is not as before. -/
theorem C34_update_partial {s : St α α} (hs : SL.Wild s) (E : Env α) (xs : List α) {e : PyErr} {s' : St α α}
    (h : SL.update E xs s = (.error e, s')) :
    (E.sorted xs = .error e ∧ s' = s) ∨
    (∃ done rest, E.sorted xs = .ok (done ++ rest) ∧ 4 * (done ++ rest).length < Core.length s ∧
      (Core.iter s').Perm (Core.iter s ++ done) ∧ Core.length s' = (Core.iter s').length) ∨
    (∃ ys, E.sorted xs = .ok ys ∧ Core.length s ≤ 4 * ys.length ∧ E.sorted (Core.iter s ++ ys) = .error e ∧
      Core.iter s' = Core.iter s ++ ys ∧ Core.length s' = Core.length s) := by
  have hw := SL.wild_whole hs
  unfold SL.update at h
  cases es : E.sorted xs with
  | error er => rw [es] at h; cases h; exact .inl ⟨rfl, rfl⟩
  | ok ys =>
    refine .inr ?_
    simp only [es, Py.lift_ok_bind, Py.get_bind] at h
    by_cases hm0 : s.maxes = []
    · rw [if_neg (by simp [hm0])] at h
      obtain ⟨s1, e1, _⟩ := SL.fill_whole hw.load_pos (hw.maxes_nil.1 hm0) hm0 ys
      rw [e1] at h; cases h
    · rw [if_pos hm0] at h
      by_cases hbig : ys.length * 4 ≥ s.len
      · refine .inr ⟨ys, rfl, by simp only [Core.length]; omega, ?_⟩
        rw [if_pos hbig] at h
        simp only [Py.modify_bind, Py.get_bind] at h
        have hit : Core.iter { s with lists := s.lists ++ [ys] } = Core.iter s ++ ys := by simp [Core.iter]
        rw [hit] at h
        cases es2 : E.sorted (Core.iter s ++ ys) with
        | error er =>
          rw [es2] at h
          cases h
          exact ⟨rfl, hit, rfl⟩
        | ok zs =>
          simp only [es2, Py.lift_ok_bind, SL.clear, Py.modify_bind] at h
          obtain ⟨s1, e1, _⟩ := SL.fill_whole (s := { s with lists := [], len := 0, maxes := [], index := [], offset := 0 })
            hw.load_pos rfl rfl zs
          rw [e1] at h; cases h
      · refine .inl ?_
        rw [if_neg hbig] at h
        obtain ⟨r, s1, d, rest, e1, rfl, hw1, hp, _⟩ := SL.addAll_whole E hw ys
        rw [e1] at h; cases h
        exact ⟨d, rest, rfl, by simp only [Core.length]; omega, hp, hw1.len_eq⟩

/-- C34 does not hold of SortedKeyList either. -/
theorem C34_update_key_not_atomic : ∃ (K : KEnv Int Int) (s s' : St Int Int) (xs : List Int) (e : PyErr), K.Sane ∧
    SKL.Reachable K s ∧ SKL.Wild s ∧ SKL.update K xs s = (.error e, s') ∧
    Core.iter s' = Core.iter s ++ xs ∧ xs ≠ [] ∧ Core.length s' ≠ (Core.iter s').length :=
  ⟨Demo.mixedKEnv, Demo.mixedK, (SKL.update Demo.mixedKEnv [-1] Demo.mixedK).2, [-1], .typeError, Demo.mixedKEnv_sane,
    Demo.mixedK_reachable, Demo.mixedK_wild, Prod.ext (by decide +kernel) rfl, by decide +kernel, by decide, by decide +kernel⟩

/-- C34 for SortedKeyList, the part that holds.  If `update(xs)` raises, then sorting `xs` by key raised and the object is
exactly as before; or there were few new values, one `add` raised, the values before it are in and the object is
consistent; or there were many and the values that iteration yields are the old and the new ones (in this case nothing
is said about `len`; that is the defect). -/
theorem C34_update_key_partial {s : St α κ} (hs : SKL.Wild s) {K : KEnv α κ} (hK : K.Sane) (xs : List α) {e : PyErr} {s' : St α κ}
    (h : SKL.update K xs s = (.error e, s')) :
    (K.sortedByKey xs = .error e ∧ s' = s) ∨
    (∃ done rest, K.sortedByKey xs = .ok (done ++ rest) ∧ 4 * (done ++ rest).length < Core.length s ∧
      (Core.iter s').Perm (Core.iter s ++ done) ∧ Core.length s' = (Core.iter s').length) ∨
    (∃ ys, K.sortedByKey xs = .ok ys ∧ Core.length s ≤ 4 * ys.length ∧ (Core.iter s').Perm (Core.iter s ++ xs)) := by
  have hw := SKL.wild_whole hs
  have fill : ∀ (vs : List α) (s1 s2 : St α κ) (r : Except PyErr Unit), 1 ≤ s1.load → s1.lists = [] →
      SKL.fill K vs s1 = (r, s2) → Core.iter s2 = vs := by
    intro vs s1 s2 r hload hl e
    obtain ⟨cs, ec, h1, -⟩ := chunks_ok hload vs
    unfold SKL.fill at e
    simp only [Py.get_bind, ec, Py.lift_ok_bind, Py.modify_bind, hl, List.nil_append] at e
    have hloop : ∀ (L : List (List α)) (t : St α κ), (Py.forEach (fun l => do
        let ks ← Py.lift (mapE K.key l)
        Py.modify fun (s : St α κ) => { s with keys := s.keys ++ [ks] }) L t).2.lists = t.lists := by
      intro L
      induction L with
      | nil => intro t; rfl
      | cons l L ih =>
        intro t
        simp only [Py.forEach]
        cases em : mapE K.key l with
        | error er => rfl
        | ok ks => exact ih _
    have h2 := hloop cs { s1 with lists := cs }
    rcases ef : Py.forEach (fun l => do
        let ks ← Py.lift (mapE K.key l)
        Py.modify fun (s : St α κ) => { s with keys := s.keys ++ [ks] }) cs { s1 with lists := cs } with ⟨r', s3⟩
    rw [ef] at h2
    have h3 : s3.lists = cs := h2
    cases r' with
    | error er =>
      rw [Py.bind_error ef] at e; cases e
      rw [Core.iter, h3, h1]
    | ok u =>
      rw [Py.bind_ok ef] at e
      simp only [Py.get_bind] at e
      cases em : mapE lastItem s3.keys with
      | error er => rw [em] at e; cases e; rw [Core.iter, h3, h1]
      | ok ms =>
        simp only [em, Py.lift_ok_bind, Py.modify_bind, Py.modify_apply] at e
        cases e
        show s3.lists.flatten = vs
        rw [h3, h1]
  unfold SKL.update at h
  cases es : K.sortedByKey xs with
  | error er => rw [es] at h; cases h; exact .inl ⟨rfl, rfl⟩
  | ok ys =>
    refine .inr ?_
    have hp := hK.perm _ _ es
    simp only [es, Py.lift_ok_bind, Py.get_bind] at h
    by_cases hm0 : s.maxes = []
    · have hl0 := hw.maxes_nil.1 hm0
      rw [if_neg (by simp [hm0])] at h
      refine .inr ⟨ys, rfl, ?_, ?_⟩
      · have hn := hw.len_eq
        rw [hl0] at hn
        simp only [Core.length, hn]; simp
      · rw [fill ys s s' _ hw.load_pos hl0 h, Core.iter, hl0]
        exact hp
    · rw [if_pos hm0] at h
      by_cases hbig : ys.length * 4 ≥ s.len
      · refine .inr ⟨ys, rfl, by simp only [Core.length]; omega, ?_⟩
        rw [if_pos hbig] at h
        simp only [Py.modify_bind, Py.get_bind] at h
        have hit : Core.iter { s with lists := s.lists ++ [ys] } = Core.iter s ++ ys := by simp [Core.iter]
        rw [hit] at h
        cases es2 : K.sortedByKey (Core.iter s ++ ys) with
        | error er =>
          rw [es2] at h
          cases h
          rw [hit]
          exact hp.append_left _
        | ok zs =>
          simp only [es2, Py.lift_ok_bind, SKL.clear, Py.modify_bind] at h
          have := fill zs { s with lists := [], len := 0, maxes := [], index := [], keys := [] } s' _ hw.load_pos rfl h
          rw [this]
          exact (hK.perm _ _ es2).trans (hp.append_left _)
      · refine .inl ?_
        rw [if_neg hbig] at h
        obtain ⟨r, s1, d, rest, e1, rfl, hw1, hp, _⟩ := SKL.addAll_whole K hw ys
        rw [e1] at h; cases h
        exact ⟨d, rest, rfl, by simp only [Core.length]; omega, hp, hw1.len_eq⟩

/-! ## SortedSet.add -/

theorem ListClass.failing_add {c : ListClass α} {l l' : c.State} (hl : c.Wild l) {x : α} {e : PyErr}
    (h : c.api.add x l = (.error e, l')) : l' = l := by
  cases c with
  | plain E => exact C33_failing_add hl E x h
  | keyed K => exact C33_failing_add_key hl K x h

/-- C43 does not hold: with integers and strings, `ss = SortedSet([3, 1]); ss.add('a')` raises TypeError, but then
`'a' in ss` is true and `len(ss)` is 3, while iteration yields two values. -/
theorem C43_add_not_atomic : ∃ (E : Env Int) (S : SetOps { l : List Int // Distinct (fun a b : Int => a == b) l } Int)
    (s s' : SS { l : List Int // Distinct (fun a b : Int => a == b) l } (St Int Int)) (x : Int) (e : PyErr),
    E.Sane ∧ S.Lawful (fun a b : Int => a == b) ∧ SS.Reachable S (SL.api E) s ∧ SL.Wild s.list ∧
    SS.add S (SL.api E) x s = (.error e, s') ∧
    SS.contains S x s = false ∧ SS.contains S x s' = true ∧ SS.length S s' = SS.length S s + 1 ∧
    SS.iter (SL.api E) s' = SS.iter (SL.api E) s :=
  ⟨Demo.mixedEnv, Demo.listSet (fun a b : Int => a == b) Demo.beq_equiv false, Demo.mixedSet,
    (SS.add (Demo.listSet (fun a b : Int => a == b) Demo.beq_equiv false) (SL.api Demo.mixedEnv) (-1) Demo.mixedSet).2,
    -1, .typeError, Demo.mixedEnv_sane, Demo.listSet_lawful _ Demo.beq_equiv false,
    Demo.mixedSet_reachable, Demo.mixedSet_wild, Prod.ext (by decide +kernel) rfl, by decide +kernel, by decide +kernel,
    by decide +kernel, by decide +kernel⟩

/-- C43, the part that holds: if `add(x)` raises, the sorted list is exactly as before, so iteration, indexing and
slicing do not show `x`.  What is missing: the built-in set has `x` in it. -/
theorem C43_add_partial {c : ListClass α} {S : SetOps τ α} {s s' : SS τ c.State} (hs : c.Wild s.list) {x : α} {e : PyErr}
    (h : SS.add S c.api x s = (.error e, s')) :
    s'.list = s.list ∧ SS.contains S x s = false ∧ s'.set = S.add x s.set := by
  unfold SS.add at h
  simp only [Py.get_bind] at h
  cases hm : S.mem x s.set with
  | true => rw [hm, if_pos rfl] at h; cases h
  | false =>
    rw [hm, if_neg (by simp), SS.onSet, Py.modify_bind] at h
    simp only [SS.onList] at h
    have h1 : (c.api.add x s.list).1 = .error e := congrArg Prod.fst h
    have h2 := congrArg Prod.snd h
    subst h2
    exact ⟨ListClass.failing_add hs (x := x) (e := e) (Prod.ext h1 rfl), hm, rfl⟩

/-! ## Writing to a SortedDict -/

/-- C49, `sd[k] = v`: if it raises, the sorted dict is exactly as before. -/
theorem C49_failing_setitem {c : ListClass κ} {eqv : κ → κ → Bool} {s s' : SD κ ν c.State} (hs : c.Wild s.list) {k : κ} {v : ν}
    {e : PyErr} (h : SD.setitem eqv c.api k v s = (.error e, s')) : s' = s := by
  unfold SD.setitem at h
  simp only [Py.get_bind] at h
  cases hm : SD.contains eqv k s with
  | true => rw [hm, if_pos rfl] at h; cases h
  | false =>
    rw [hm, if_neg (by simp)] at h
    rcases ea : c.api.add k s.list with ⟨r, l'⟩
    have e1 : SD.onList (κ := κ) (ν := ν) (c.api.add k) s = (r, { s with list := l' }) := by simp only [SD.onList, ea]
    cases r with
    | ok u => rw [Py.bind_ok e1] at h; cases h
    | error er =>
      rw [Py.bind_error e1] at h; cases h
      rw [ListClass.failing_add hs ea]

/-- C49 does not hold of `setdefault`: with integers and strings, `sd = SortedDict({3: 30, 1: 10}); sd.setdefault('a', 0)`
raises TypeError, but then `'a' in sd` is true and `len(sd)` is 3, while iteration yields two keys. -/
theorem C49_setdefault_not_atomic : ∃ (E : Env Int) (s s' : SD Int Nat (St Int Int)) (k : Int) (v : Nat) (e : PyErr),
    E.Sane ∧ SD.Reachable (fun a b : Int => a == b) (SL.api E) s ∧ SL.Wild s.list ∧
    SD.setdefault (fun a b : Int => a == b) (SL.api E) k v s = (.error e, s') ∧
    SD.contains (fun a b : Int => a == b) k s = false ∧ SD.contains (fun a b : Int => a == b) k s' = true ∧
    SD.length s' = SD.length s + 1 ∧ SD.iter (SL.api E) s' = SD.iter (SL.api E) s :=
  ⟨Demo.mixedEnv, Demo.mixedDict, (SD.setdefault (fun a b : Int => a == b) (SL.api Demo.mixedEnv) (-1) 0 Demo.mixedDict).2,
    -1, 0, .typeError, Demo.mixedEnv_sane, Demo.mixedDict_reachable, Demo.mixedDict_wild, Prod.ext (by decide +kernel) rfl,
    by decide +kernel, by decide +kernel, by decide +kernel, by decide +kernel⟩

/-- C49 does not hold of `update`: `sd.update({'a': 0})` raises TypeError, but then `'a' in sd` is true and `len(sd)` is 3,
while iteration yields nothing. -/
theorem C49_update_not_atomic : ∃ (E : Env Int) (s s' : SD Int Nat (St Int Int)) (k : Int) (v : Nat) (e : PyErr),
    E.Sane ∧ SD.Reachable (fun a b : Int => a == b) (SL.api E) s ∧ SL.Wild s.list ∧
    SD.update (fun a b : Int => a == b) (SL.api E) (.dict [(k, v)]) s = (.error e, s') ∧
    SD.contains (fun a b : Int => a == b) k s = false ∧ SD.contains (fun a b : Int => a == b) k s' = true ∧
    SD.length s' = SD.length s + 1 ∧ SD.iter (SL.api E) s ≠ [] ∧ SD.iter (SL.api E) s' = [] :=
  ⟨Demo.mixedEnv, Demo.mixedDict,
    (SD.update (fun a b : Int => a == b) (SL.api Demo.mixedEnv) (.dict [(-1, 0)]) Demo.mixedDict).2,
    -1, 0, .typeError, Demo.mixedEnv_sane, Demo.mixedDict_reachable, Demo.mixedDict_wild, Prod.ext (by decide +kernel) rfl,
    by decide +kernel, by decide +kernel, by decide +kernel, by decide +kernel, by decide +kernel⟩

/-- C49 does not hold of `update` with well-behaved keys either: an iterable of pairs that raises after its first pair,
given to an empty sorted dict, leaves a dict of length 1 over which iteration yields nothing. -/
theorem C49_update_raising_iterable : ∃ (E : Env Int) (lt : Int → Int → Bool) (s s' : SD Int Nat (St Int Int)) (e : PyErr),
    E.Lawful lt ∧ SD.Reachable (fun a b : Int => a == b) (SL.api E) s ∧ SD.length s = 0 ∧
    SD.update (fun a b : Int => a == b) (SL.api E) (.pairs [(1, 10)] (some e)) s = (.error e, s') ∧
    SD.contains (fun a b : Int => a == b) 1 s' = true ∧ SD.length s' = 1 ∧ SD.iter (SL.api E) s' = [] :=
  ⟨Demo.intEnv, Demo.ilt, { dict := [], list := ((SL.api Demo.intEnv).step (.update []) St.empty).2 }, _, .other 0, Demo.intEnv_lawful,
    .new (arg := .pairs [] none) rfl rfl, rfl, Prod.ext (by decide +kernel) rfl, by decide +kernel, by decide +kernel, by decide +kernel⟩

/-- C49, `setdefault`, the part that holds: if it raises, the sorted list of keys is exactly as before.  What is missing:
the item is in the dict. -/
theorem C49_setdefault_partial {c : ListClass κ} {eqv : κ → κ → Bool} {s s' : SD κ ν c.State} (hs : c.Wild s.list) {k : κ} {v : ν}
    {e : PyErr} (h : SD.setdefault eqv c.api k v s = (.error e, s')) (hk : SD.contains eqv k s = false) :
    s'.list = s.list ∧ s'.dict = PyDict.set eqv s.dict k v := by
  unfold SD.setdefault at h
  simp only [Py.get_bind] at h
  rw [hk, if_neg (by simp), SD.onDict, Py.modify_bind] at h
  rcases ea : c.api.add k s.list with ⟨r, l'⟩
  have e1 : SD.onList (κ := κ) (ν := ν) (c.api.add k) { s with dict := PyDict.set eqv s.dict k v } =
      (r, { s with dict := PyDict.set eqv s.dict k v, list := l' }) := by simp only [SD.onList, ea]
  cases r with
  | ok u => rw [Py.bind_ok e1] at h; cases h
  | error er =>
    rw [Py.bind_error e1] at h; cases h
    exact ⟨ListClass.failing_add hs ea, rfl⟩

theorem ListClass.wild_add {c : ListClass α} (hc : c.Sane) {l : c.State} (hl : c.Wild l) (x : α) : c.Wild (c.api.add x l).2 := by
  cases c with
  | plain E =>
    have := SL.Wild.step (E := E) (.add x) hc trivial hl nofun
    rw [show ((SL.api E).step (.add x) l).2 = (SL.add E x l).2 from SKL.out_snd _ _ _] at this
    exact this
  | keyed K =>
    have := SKL.Wild.step (K := K) (.add x) hc trivial hl nofun
    rw [show ((SKL.api K).step (.add x) l).2 = (SKL.add K x l).2 from SKL.out_snd _ _ _] at this
    exact this

theorem SD.setitem_list {c : ListClass κ} {eqv : κ → κ → Bool} (hc : c.Sane) {s : SD κ ν c.State} (hs : c.Wild s.list) (k : κ) (v : ν) :
    c.Wild (SD.setitem eqv c.api k v s).2.list := by
  unfold SD.setitem
  simp only [Py.get_bind]
  cases hm : SD.contains eqv k s with
  | true => rw [if_pos rfl]; exact hs
  | false =>
    rw [if_neg (by simp)]
    have := ListClass.wild_add hc hs k
    rcases ea : c.api.add k s.list with ⟨r, l'⟩
    rw [ea] at this
    have e1 : SD.onList (κ := κ) (ν := ν) (c.api.add k) s = (r, { s with list := l' }) := by simp only [SD.onList, ea]
    cases r with
    | ok u => rw [Py.bind_ok e1]; exact this
    | error er => rw [Py.bind_error e1]; exact this

theorem SD.forEach_setitem_error {c : ListClass κ} {eqv : κ → κ → Bool} (hc : c.Sane) {e : PyErr} {s' : SD κ ν c.State}
    (pairs : List (κ × ν)) {s : SD κ ν c.State} (hs : c.Wild s.list)
    (h : Py.forEach (fun p => SD.setitem eqv c.api p.1 p.2) pairs s = (.error e, s')) :
    ∃ done p rest, pairs = done ++ p :: rest ∧ SD.setitem eqv c.api p.1 p.2 s' = (.error e, s') ∧
      Py.forEach (fun p => SD.setitem eqv c.api p.1 p.2) done s = (.ok (), s') := by
  induction pairs generalizing s with
  | nil => cases h
  | cons p ps ih =>
    rcases ei : SD.setitem eqv c.api p.1 p.2 s with ⟨r, s1⟩
    have hw := SD.setitem_list (eqv := eqv) hc hs p.1 p.2
    rw [ei] at hw
    cases r with
    | error er =>
      simp only [Py.forEach] at h
      rw [Py.bind_error ei] at h; cases h
      have := C49_failing_setitem hs ei
      subst this
      exact ⟨[], p, ps, rfl, ei, rfl⟩
    | ok u =>
      simp only [Py.forEach] at h
      rw [Py.bind_ok ei] at h
      obtain ⟨d, q, rest, h1, h2, h3⟩ := ih hw h
      refine ⟨p :: d, q, rest, by rw [h1]; rfl, h2, ?_⟩
      simp only [Py.forEach]
      rw [Py.bind_ok ei]; exact h3

/-- C49, `update` of a non-empty sorted dict with few items (at most a tenth), the part that holds: if making a dict of the
arguments raises, the sorted dict is exactly as before; otherwise the items before the offending one are set, as by
`sd[k] = v`, and nothing else has changed.  What is missing: these items are set, and with more items nothing is guaranteed
(see `C49_update_not_atomic`). -/
theorem C49_update_partial {c : ListClass κ} (hc : c.Sane) {eqv : κ → κ → Bool} {s s' : SD κ ν c.State} (hs : c.Wild s.list)
    {arg : DictArg κ ν} {e : PyErr} (h0 : SD.length s ≠ 0)
    (hsmall : ∀ pairs, SD.pairsOf eqv arg = .ok pairs → 10 * pairs.length ≤ SD.length s)
    (h : SD.update eqv c.api arg s = (.error e, s')) :
    (SD.pairsOf eqv arg = .error e ∧ s' = s) ∨
    ∃ done p rest, SD.pairsOf eqv arg = .ok (done ++ p :: rest) ∧
      Py.forEach (fun p => SD.setitem eqv c.api p.1 p.2) done s = (.ok (), s') ∧
      SD.setitem eqv c.api p.1 p.2 s' = (.error e, s') := by
  unfold SD.update at h
  simp only [Py.get_bind] at h
  rw [if_neg (show ¬s.dict.length = 0 from h0)] at h
  cases ep : SD.pairsOf eqv arg with
  | error er => rw [ep] at h; cases h; exact .inl ⟨rfl, rfl⟩
  | ok pairs =>
    have := hsmall pairs ep
    rw [ep, Py.lift_ok_bind, if_neg (by simp only [SD.length] at this; omega)] at h
    obtain ⟨d, p, rest, h1, h2, h3⟩ := SD.forEach_setitem_error hc pairs hs h
    subst h1
    exact .inr ⟨d, p, rest, rfl, h3, h2⟩

/-! ## The hypotheses are met -/

section Examples
open Demo

theorem of_fst {β γ : Type} {p : β × γ} {r : β} (h : p.1 = r) : p = (r, p.2) := Prod.ext h rfl

/-- An `add` that raises in the first binary search, and one that raises in the second. -/
example : SL.add mixedEnv (-1) mixed = (.error .typeError, mixed) :=
  have h : (SL.add mixedEnv (-1) mixed).1 = .error .typeError := by decide +kernel
  Prod.ext h (C33_failing_add mixed_wild mixedEnv (-1) (e := .typeError) (Prod.ext h rfl))
example : ∃ E : Env Int, ∃ s', SL.add E 5 mixed = (.error (.other 1), s') :=
  ⟨{ mixedEnv with cmp := fun op a b => if b = 9 ∧ a = 5 ∧ op = .lt then .ok true else if b = 5 then .error (.other 1) else mixedEnv.cmp op a b },
    _, Prod.ext (by decide +kernel) rfl⟩

/-- A key function that raises, and a comparison of keys that raises. -/
example := C33_failing_add_key mixedK_wild mixedKEnv 7 (of_fst (p := SKL.add mixedKEnv 7 mixedK) (r := .error (.other 7)) (by decide +kernel))
example := C33_failing_add_key mixedK_wild mixedKEnv (-5) (of_fst (p := SKL.add mixedKEnv (-5) mixedK) (r := .error .typeError) (by decide +kernel))

example := C52_positional nans_wild nanEnv_sane (.getInt (-2)) rfl (Spec.Order.ofValues ilt)
example := C52_positional_key mixedK_wild mixedKEnv_sane (.pop 1) rfl (Spec.Order.ofValues ilt)
example := C52_add nans_wild nanEnv 4 (of_fst (p := SL.add nanEnv 4 nans) (r := .ok ()) (by decide +kernel))
example := C52_discard_remove nans_wild nanEnv 4
example := C52_bulk nans_wild nanEnv_sane (s' := (SL.update nanEnv [0, 9] nans).2)
example : (SL.update nanEnv [0, 9] nans).1 = .ok () := by decide +kernel
example := C52_queries nans_wild nanEnv_sane (.count 4) rfl
example := C52_sublist_sizes nans_wild

/-- `update` raising after some of few values were added. -/
example : ∃ s', SL.update { mixedEnv with sorted := fun xs => .ok xs } [2, -3] ((SL.api mixedEnv).step (.update [1, 2, 3, 4, 5, 6]) mixed).2 =
    (.error .typeError, s') := ⟨_, Prod.ext (by decide +kernel) rfl⟩

example := C43_add_partial (c := .plain mixedEnv) (S := listSet (fun a b : Int => a == b) beq_equiv false) mixedSet_wild (x := -1)
  (of_fst (p := SS.add (listSet (fun a b : Int => a == b) beq_equiv false) (SL.api mixedEnv) (-1) mixedSet) (r := .error .typeError) (by decide +kernel))
example := C49_failing_setitem (c := .plain mixedEnv) (eqv := fun a b : Int => a == b) (s := mixedDict) mixedDict_wild (k := -1) (v := 5)
  (of_fst (p := SD.setitem (fun a b : Int => a == b) (SL.api mixedEnv) (-1) 5 mixedDict) (r := .error .typeError) (by decide +kernel))

end Examples
end Verif
