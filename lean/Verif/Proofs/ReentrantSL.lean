import Verif.Proofs.Reentrant
/-!
# A SortedList whose comparisons query it
-/

namespace Verif
namespace Reent
variable {W α κ β γ : Type} {J : W → Prop}

/-- A query that does not call the client's code. -/
theorem Sim.of_refines {I : St α κ → Prop} {s0 : St α κ} {f : Py (St α κ) β} {g : Py (List α) β} (hr : Refines I Core.iter f g)
    (hq : Quiet f) : Sim I J s0 (free f) f := by
  intro p t hp ht hi
  obtain ⟨e1, -, i1⟩ := hr p.1 hp.inv
  obtain ⟨e2, -, i2⟩ := hr t hi
  have e : Core.iter p.1 = Core.iter t := by
    show p.1.lists.flatten = t.lists.flatten
    rw [hp.re.lists, ht.lists]
  exact ⟨e1.trans (e ▸ e2.symm), ⟨hp.re.trans (hq.reindexed _), i1, hp.world⟩, ht.trans (hq.reindexed _), i2⟩

/-! ## Answers to nested queries -/

/-- The answers that the client got since it had seen `old` are those that `ans` gives. -/
def Answered {Q R : Type} (ans : Q → Except PyErr R) (old : List (Q × Except PyErr R)) (w : Seen Q R) : Prop :=
  ∃ new, w.answers = new ++ old ∧ ∀ e ∈ new, e.2 = ans e.1

section Client
variable {Q R : Type} {I : St α κ → Prop} {s0 : St α κ} {ans : Q → Except PyErr R} {old : List (Q × Except PyErr R)}
  {query : Q → RPy (Seen Q R) (St α κ) R}

theorem exec_ask (q : Q) (k : Except PyErr R → Client Q R β) {p : St α κ × Seen Q R} {r : Except PyErr R} {s : St α κ} {w : Seen Q R}
    (h : query q p = (r, s, w)) : exec query (.ask q k) p = exec query (k r) (s, { w with answers := (q, r) :: w.answers }) := by
  show (match query q p with
    | (r, s, w) => exec query (k r) (s, { w with answers := (q, r) :: w.answers })) = _
  rw [h]

/-- Right code, if the queries are answered as by `ans`. -/
theorem exec_sim (hq : ∀ q p, Held I (Answered ans old) s0 p → (query q p).1 = ans q ∧ Held I (Answered ans old) s0 (query q p).2)
    (c : Client Q R β) : Sim I (Answered ans old) s0 (exec query c) (Py.lift (c.says ans)) := by
  induction c with
  | done r => exact fun p t h h1 h2 => ⟨rfl, h, h1, h2⟩
  | ask q k ih =>
    intro p t hp ht hi
    obtain ⟨e, h⟩ := hq q p hp
    rcases hp' : query q p with ⟨r, s, w⟩
    rw [exec_ask q k hp']
    rw [hp'] at e h
    simp only at e h
    subst e
    refine ih (ans q) (s, { w with answers := (q, ans q) :: w.answers }) t ⟨h.re, h.inv, ?_⟩ ht hi
    obtain ⟨new, hn, ha⟩ := h.world
    refine ⟨(q, ans q) :: new, by rw [show w.answers = new ++ old from hn]; rfl, fun e he => ?_⟩
    rcases List.mem_cons.1 he with rfl | he
    · rfl
    · exact ha e he

theorem calling_sim (hq : ∀ q p, Held I (Answered ans old) s0 p → (query q p).1 = ans q ∧ Held I (Answered ans old) s0 (query q p).2)
    {code : Seen Q R → Client Q R β} {x : Except PyErr β} (hc : ∀ w, (code w).says ans = x) :
    Sim I (Answered ans old) s0 (calling query code) (Py.lift x) := by
  intro p t hp ht hi
  have := exec_sim hq (code p.2) (p.1, { p.2 with calls := p.2.calls + 1 }) t ⟨hp.re, hp.inv, hp.world⟩ ht hi
  rw [hc] at this
  exact this

/-- Right code that does not ask. -/
theorem calling_done {J : Seen Q R → Prop} (hJ : ∀ w : Seen Q R, J w → J { w with calls := w.calls + 1 })
    {code : Seen Q R → Client Q R β} {x : Except PyErr β} (hc : ∀ w, code w = .done x) :
    Sim I J s0 (calling query code) (Py.lift x) := by
  intro p t hp ht hi
  unfold calling
  rw [hc]
  exact ⟨rfl, ⟨hp.re, hp.inv, hJ _ hp.world⟩, ht, hi⟩

theorem Answered.tick (w : Seen Q R) (h : Answered ans old w) : Answered ans old { w with calls := w.calls + 1 } := h

/-- Code that is right whatever it is told. -/
theorem calling_always (hq : ∀ q, Preserves (fun p : St α κ × Seen Q R => Reindexed s0 p.1 ∧ True) (query q))
    {code : Seen Q R → Client Q R β} {x : Except PyErr β} (hc : ∀ w, (code w).Always x) :
    Sim (fun _ => True) (fun _ => True) s0 (calling query code) (Py.lift x) := by
  have he : ∀ (c : Client Q R β), c.Always x → Sim (fun _ => True) (fun _ => True) s0 (exec query c) (Py.lift x) := by
    intro c
    induction c with
    | done r => rintro ⟨⟩; exact fun p t h h1 h2 => ⟨rfl, h, h1, h2⟩
    | ask q k ih =>
      intro hc p t hp ht hi
      have h := (hq q p ⟨hp.re, trivial⟩).1
      rcases hp' : query q p with ⟨r, s, w⟩
      rw [exec_ask q k hp']
      rw [hp'] at h
      exact ih r (hc r) (s, { w with answers := (q, r) :: w.answers }) t ⟨h, trivial, trivial⟩ ht hi
  intro p t hp ht hi
  exact he (code p.2) (hc p.2) (p.1, { p.2 with calls := p.2.calls + 1 }) t ⟨hp.re, trivial, trivial⟩ ht hi

end Client

theorem Always.says {Q R : Type} {ans : Q → Except PyErr R} {x : Except PyErr β} {c : Client Q R β} (h : c.Always x) : c.says ans = x := by
  induction c with
  | done r => exact h
  | ask q k ih => exact ih _ (h _)

namespace SL
variable {s0 : St α α} {E' : REnv W α} {E : Env α} {lt : α → α → Bool}

theorem newValues_eq (E : Env α) (g : St α α → List α) :
    (SL.api E).valuesOf (fun s => SL.new E (some (g s))) = (do
      let s ← Py.get
      let values ← Py.lift (E.sorted (g s))
      Py.lift (match Verif.SL.fill values St.empty with
        | (.ok (), t) => .ok (Core.iter t)
        | (.error e, _) => .error e)) := by
  funext s
  simp only [ListAPI.valuesOf, SL.new, Verif.SL.update, Py.get_bind]
  cases E.sorted (g s) with
  | error e => rfl
  | ok values =>
    simp only [Py.lift_ok_bind, Py.get_bind]
    rw [if_neg (by simp [St.empty])]
    rcases Verif.SL.fill values St.empty with ⟨_ | _, t⟩ <;> rfl

variable (h : EnvSim (Inv id lt false) J s0 E' E) (hE : E.Lawful lt)
include h hE

omit hE in
theorem newValues_sim (g : St α α → List α) (hg : ∀ i o, g { s0 with index := i, offset := o } = g s0) :
    Sim (Inv id lt false) J s0 (do let s ← free Py.get; newValues E' (g s)) ((SL.api E).valuesOf fun s => SL.new E (some (g s))) := by
  rw [newValues_eq]
  refine Sim.get_bind (fun i o => by rw [hg]) (fun i o => by rw [hg]) ?_
  exact Sim.lifted_bind (h.sorted _) fun _ _ => Sim.lift _

theorem step_sim (op : Op α) (hq : op.isQuery = true) : Sim (Inv id lt false) J s0 (step E' op) ((SL.api E).step op) := by
  have hL := SL.api_lawful hE
  have hlog := h.ilog2
  cases op with
  | contains v => exact (contains_sim h v).out _
  | getInt i => unfold step; rw [hlog]; exact (Sim.of_refines (hL.getInt i) (Core.getInt_quiet _ i)).out _
  | getSlice sl => unfold step; rw [hlog]; exact (Sim.of_refines (hL.getSlice sl) (Core.getSlice_quiet _ sl)).out _
  | bisectLeft v => exact (bisect_left_sim h hE v).out _
  | bisectRight v => exact (bisect_right_sim h hE v).out _
  | count v => exact (count_sim h hE v).out _
  | index v a b => exact (index_sim h hE v a b).out _
  | irange lo hi a b r => exact (irange_sim h lo hi a b r).out _
  | islice a b r => unfold step; rw [hlog]; exact (Sim.of_refines (hL.islice a b r) (Core.islice_quiet _ a b r)).out _
  | iter => exact (Sim.of_refines (f := ListAPI.read fun s => .ok (Core.iter s)) (g := Spec.iter) (fun _ hi => ⟨rfl, rfl, hi⟩) (Quiet.read _)).out _
  | reversed => exact (Sim.of_refines hL.reversed (Quiet.read _)).out _
  | len => exact (Sim.of_refines hL.len (Quiet.read _)).out _
  | compare op other => exact (compare_sim h.cmp op other).out _
  | copy => exact (newValues_sim h Core.iter fun _ _ => rfl).out _
  | concat xs => exact (newValues_sim h (fun s => Core.iter s ++ xs) fun _ _ => rfl).out _
  | mul n => exact (newValues_sim h (fun s => repeatList (Core.iter s) n) fun _ _ => rfl).out _
  | _ => cases hq

omit hE in
theorem step_ends (op : Op α) (hq : op.isQuery = false) (hb : op.bulk = false) :
    Ends (Inv id lt false) J s0 (step E' op) ((SL.api E).step op) := by
  have hlog := h.ilog2
  cases op with
  | add v => exact (add_ends h v).out _
  | discard v => exact (discard_ends h v).out _
  | remove v => exact (remove_ends h v).out _
  | clear => exact (Ends.of_free (Frees.free Verif.SL.clear)).out fun _ => .none
  | delInt i =>
    have e : Core.delInt (methods E') i = Core.delInt (Verif.SL.methods E) i := by simp only [Core.delInt, methods, Verif.SL.methods, hlog]
    show Ends _ _ _ (Spec.out (fun _ => .none) (free (Core.delInt (methods E') i))) _
    rw [e]
    exact (Ends.of_free (Frees.free (Core.delInt (Verif.SL.methods E) i))).out fun _ => .none
  | pop i =>
    have e : Core.pop (methods E') i = Core.pop (Verif.SL.methods E) i := by simp only [Core.pop, methods, Verif.SL.methods, hlog]
    show Ends _ _ _ (Spec.out .val (free (Core.pop (methods E') i))) _
    rw [e]
    exact (Ends.of_free (Frees.free (Core.pop (Verif.SL.methods E) i))).out .val
  | unsupported u => exact (Ends.of_free (Frees.free (Core.unsupported u))).out fun _ => .none
  | update | delSlice | iadd | imul | reset => cases hb
  | _ => cases hq

end SL

/-! ## Right comparisons -/

namespace SL
variable {E : Env α} {lt : α → α → Bool} {C : SL.Clients α} {D : Nat}

/-- The answers of a plain list. -/
def answers (lt : α → α → Bool) (l : List α) (q : Query α) : Except PyErr (Out α) := (Spec.step (Spec.Order.ofValues lt) q.1 l).1

theorem sorting_sim {I : St α α → Prop} {s0 : St α α} {cmp : CmpOp → α → α → RPy W (St α α) Bool} (hE : E.Lawful lt)
    (h : ∀ op a b, Sim I J s0 (cmp op a b) (Py.lift (E.cmp op a b))) (pairs : List α → List (α × α)) (xs : List α) :
    Sim I J s0 (sorting cmp pairs E.sorted xs) (Py.lift (E.sorted xs)) := by
  have h1 : Sim I J s0 (Py.forEach (fun ab : α × α => do let _ ← cmp .lt ab.1 ab.2; pure ()) (pairs xs)) (Py.lift (.ok ())) := by
    generalize pairs xs = ps
    induction ps with
    | nil => exact Sim.pure ()
    | cons ab ps ih =>
      refine Sim.ok_bind (b := ()) (Sim.ok_bind (b := CmpOp.ofLt lt .lt ab.1 ab.2) ?_ (Sim.pure ())) ih
      have := h .lt ab.1 ab.2
      rwa [hE.cmp] at this
  exact Sim.ok_bind h1 (Sim.lift _)

theorem env_sim (hE : E.Lawful lt) (hC : C.Honest (Spec.Order.ofValues lt) E.cmp D) {s0 : St α α} (h0 : Inv id lt false s0)
    (old : List (Query α × Except PyErr (Out α))) : ∀ n d, n + d = D →
      EnvSim (Inv id lt false) (Answered (answers lt (Core.iter s0)) old) s0 (C.env E n d) E := by
  intro n
  induction n with
  | zero =>
    intro d hd
    obtain rfl : d = D := by omega
    have h : ∀ op a b, Sim (Inv id lt false) (Answered (answers lt (Core.iter s0)) old) s0 ((C.env E 0 d).cmp op a b) (Py.lift (E.cmp op a b)) := by
      intro op a b
      refine calling_done Answered.tick fun w => ?_
      obtain ⟨r, hr⟩ := hC.quiet op a b w
      have := hC.cmp d op a b w [] .nil
      rw [hr] at this ⊢
      exact congrArg _ this
    exact ⟨h, sorting_sim hE h _, rfl⟩
  | succ n ih =>
    intro d hd
    have hn := ih (d + 1) (by omega)
    have h : ∀ op a b, Sim (Inv id lt false) (Answered (answers lt (Core.iter s0)) old) s0 ((C.env E (n + 1) d).cmp op a b)
        (Py.lift (E.cmp op a b)) := by
      intro op a b
      refine calling_sim (fun q p hp => ?_) fun w => hC.cmp d op a b w _ h0.sorted
      obtain ⟨e, h1, -, -⟩ := step_sim hn hE q.1 q.2 p p.1 hp hp.re hp.inv
      refine ⟨e.trans ?_, h1⟩
      have hv : q.1.Valid := by
        obtain ⟨op, hq⟩ := q
        cases op <;> first | trivial | cases hq
      have := ((SL.api_lawful hE).step q.1 hv p.1 hp.inv).1
      rw [this]
      show (Spec.step _ q.1 p.1.lists.flatten).1 = (Spec.step _ q.1 s0.lists.flatten).1
      rw [hp.re.lists]
    exact ⟨h, sorting_sim hE h _, rfl⟩

end SL

/-! ## Queries change the positional index at most, whatever the state of the object -/

/-- The call changes the positional index at most, and keeps `J` true of the client's world. -/
abbrev Still (J : W → Prop) (s0 : St α κ) (m : RPy W (St α κ) β) : Prop := Preserves (fun p : St α κ × W => Reindexed s0 p.1 ∧ J p.2) m

theorem still_free {s0 : St α κ} {f : Py (St α κ) β} (h : Preserves (Reindexed s0) f) : Still J s0 (free f) := fun p hp => ⟨h p.1 hp.1, hp.2⟩

theorem Still.out {s0 : St α κ} {m : RPy W (St α κ) β} (f : β → Out α) (h : Still J s0 m) : Still J s0 (Spec.out f m) := fun p hp => by
  rw [Spec.out_snd]; exact h p hp

/-- Decompose a do-block. -/
macro "still_parts" : tactic => `(tactic| repeat' (with_reducible first
  | contradiction
  | refine Preserves.bind ?_ fun _ => ?_
  | refine Preserves.ite ?_ ?_
  | exact Preserves.pure _
  | exact still_free Preserves.get
  | exact still_free (Preserves.lift _)
  | exact still_free (Preserves.raise _)
  | (refine still_free ?_; solve_by_elim only [*])
  | refine Preserves.forEach (fun _ => ?_) _
  | refine Preserves.mapEach (fun _ => ?_) _
  | solve_by_elim only [*]
  | dsimp only
  | split))

section
variable {ρ : Type} {s0 : St α κ} {lt : ρ → ρ → RPy W (St α κ) Bool} (h : ∀ a b, Still J s0 (lt a b))
include h

theorem bisectRightLoop_still (l : List ρ) (x : ρ) (lo hi : Nat) : Still J s0 (bisectRightLoop lt l x lo hi) := by
  fun_induction bisectRightLoop lt l x lo hi <;> still_parts

theorem bisectLeftLoop_still (l : List ρ) (x : ρ) (lo hi : Nat) : Still J s0 (bisectLeftLoop lt l x lo hi) := by
  fun_induction bisectLeftLoop lt l x lo hi <;> still_parts

theorem bisectRight_still (l : List ρ) (x : ρ) : Still J s0 (bisectRight lt l x) := bisectRightLoop_still h l x _ _

theorem bisectLeft_still (l : List ρ) (x : ρ) : Still J s0 (bisectLeft lt l x) := bisectLeftLoop_still h l x _ _

end

theorem compare_still {s0 : St α κ} {cmp : CmpOp → α → α → RPy W (St α κ) Bool} (h : ∀ op a b, Still J s0 (cmp op a b)) (op : CmpOp)
    (other : List α) : Still J s0 (compare cmp op other) := by
  have hl : ∀ n m (as bs : List α), Still J s0 (cmpLoop cmp op n m as bs) := by
    intro n m as
    induction as with
    | nil => intro bs; rw [cmpLoop.eq_def]; exact .pure _
    | cons a as ih =>
      intro bs
      cases bs with
      | nil => rw [cmpLoop.eq_def]; exact .pure _
      | cons b bs =>
        rw [cmpLoop]
        still_parts
  unfold compare
  still_parts

namespace SL
variable {s0 : St α α} {E' : REnv W α} (h : ∀ op a b, Still J s0 (E'.cmp op a b)) (hs : ∀ xs, Still J s0 (E'.sorted xs))

section
include h

theorem contains_still (v : α) : Still J s0 (contains E' v) := by
  have h1 := bisectLeft_still (h .lt)
  unfold contains
  still_parts

theorem irange_still (lo hi : Option α) (a b r : Bool) : Still J s0 (irange E' lo hi a b r) := by
  have h1 := bisectLeft_still (h .lt)
  have h2 := bisectRight_still (h .lt)
  unfold irange
  still_parts

theorem bisect_left_still (v : α) : Still J s0 (bisect_left E' v) := by
  have h1 := bisectLeft_still (h .lt)
  have h2 := fun p i => Core.loc_quiet (α := α) (κ := α) E'.ilog2 p i s0
  unfold bisect_left
  still_parts

theorem bisect_right_still (v : α) : Still J s0 (bisect_right E' v) := by
  have h1 := bisectRight_still (h .lt)
  have h2 := fun p i => Core.loc_quiet (α := α) (κ := α) E'.ilog2 p i s0
  unfold bisect_right
  still_parts

theorem count_still (v : α) : Still J s0 (count E' v) := by
  have h1 := bisectRight_still (h .lt)
  have h2 := bisectLeft_still (h .lt)
  have h3 := fun p i => Core.loc_quiet (α := α) (κ := α) E'.ilog2 p i s0
  unfold count
  still_parts

theorem index_still (v : α) (a b : Option Int) : Still J s0 (index E' v a b) := by
  have h1 := bisectLeft_still (h .lt)
  have h2 := bisect_right_still h
  have h3 := fun p i => Core.loc_quiet (α := α) (κ := α) E'.ilog2 p i s0
  unfold index
  still_parts

end

include hs in
theorem newValues_still (xs : List α) : Still J s0 (newValues E' xs) := by
  unfold newValues
  still_parts

include h hs

theorem step_still (op : Op α) (hq : op.isQuery = true) : Still J s0 (step E' op) := by
  cases op with
  | contains v => exact (contains_still h v).out _
  | getInt i => exact (still_free (Core.getInt_quiet _ i s0)).out _
  | getSlice sl => exact (still_free (Core.getSlice_quiet _ sl s0)).out _
  | bisectLeft v => exact (bisect_left_still h v).out _
  | bisectRight v => exact (bisect_right_still h v).out _
  | count v => exact (count_still h v).out _
  | index v a b => exact (index_still h v a b).out _
  | irange lo hi a b r => exact (irange_still h lo hi a b r).out _
  | islice a b r => exact (still_free (Core.islice_quiet _ a b r s0)).out _
  | iter => exact (still_free (Quiet.read _ s0)).out _
  | reversed => exact (still_free (Quiet.read _ s0)).out _
  | len => exact (still_free (Quiet.read _ s0)).out _
  | compare op other => exact (compare_still h op other).out _
  | copy => exact Still.out _ (Preserves.bind (still_free Preserves.get) fun _ => newValues_still hs _)
  | concat xs => exact Still.out _ (Preserves.bind (still_free Preserves.get) fun _ => newValues_still hs _)
  | mul n => exact Still.out _ (Preserves.bind (still_free Preserves.get) fun _ => newValues_still hs _)
  | _ => cases hq

omit h hs

/-- Comparisons that are right whatever they are told. -/
theorem env_always {E : Env α} {lt : α → α → Bool} {C : SL.Clients α} {D : Nat} (hE : E.Lawful lt) (hC : C.Steadfast E.cmp D) (s0 : St α α) :
    ∀ n d, n + d = D → EnvSim (fun _ => True) (fun _ => True) s0 (C.env E n d) E := by
  intro n
  induction n with
  | zero =>
    intro d hd
    obtain rfl : d = D := by omega
    have h : ∀ op a b, Sim (fun _ => True) (fun _ => True) s0 ((C.env E 0 d).cmp op a b) (Py.lift (E.cmp op a b)) := by
      intro op a b
      refine calling_done (fun _ _ => trivial) fun w => ?_
      obtain ⟨r, hr⟩ := hC.quiet op a b w
      have := hC.cmp d op a b w
      rw [hr] at this ⊢
      exact congrArg _ this
    exact ⟨h, sorting_sim hE h _, rfl⟩
  | succ n ih =>
    intro d hd
    have hn := ih (d + 1) (by omega)
    have h : ∀ op a b, Sim (fun _ => True) (fun _ => True) s0 ((C.env E (n + 1) d).cmp op a b) (Py.lift (E.cmp op a b)) := by
      intro op a b
      refine calling_always (fun q => ?_) fun w => hC.cmp d op a b w
      refine step_still (J := fun _ => True) (fun op a b p hp => ?_) (fun xs p hp => ?_) q.1 q.2
      · exact ⟨(hn.cmp op a b p s0 ⟨hp.1, trivial, trivial⟩ (Reindexed.refl _) trivial).2.1.re, trivial⟩
      · exact ⟨(hn.sorted xs p s0 ⟨hp.1, trivial, trivial⟩ (Reindexed.refl _) trivial).2.1.re, trivial⟩
    exact ⟨h, sorting_sim hE h _, rfl⟩

theorem Steadfast.honest {C : SL.Clients α} {cmp : CmpOp → α → α → Except PyErr Bool} {D : Nat} (h : C.Steadfast cmp D) (O : Spec.Order α) :
    C.Honest O cmp D where
  cmp d op a b w _ _ := Always.says (h.cmp d op a b w)
  quiet := h.quiet

end SL
end Reent
end Verif
