import Verif.Model.Threads
import Verif.Readers
import Verif.Proofs.InterruptCall
/-!
# Threads that query one list
-/

namespace Verif
variable {σ α κ β γ : Type}

namespace Prog

theorem bind_eq (m : Prog σ β) (f : β → Prog σ γ) : (m >>= f) = m.bind f := rfl
theorem pure_eq (b : β) : (pure b : Prog σ β) = ret (.ok b) := rfl
theorem map_eq (f : β → γ) (m : Prog σ β) : f <$> m = m >>= fun b => pure (f b) := rfl

theorem alone_bind (m : Prog σ β) (f : β → Prog σ γ) (s : σ) : (m >>= f).alone s = (m.alone >>= fun b => (f b).alone) s := by
  rw [bind_eq]
  induction m generalizing s with
  | ret x => cases x <;> rfl
  | read k ih => exact ih s s
  | write g k ih => exact ih (g s)

/-- Running alone from `s`, the program writes nothing. -/
def Still : Prog σ β → σ → Prop
  | ret _, _ => True
  | read k, s => Still (k s) s
  | write _ _, _ => False

theorem Still.alone {m : Prog σ β} {s : σ} (h : m.Still s) : (m.alone s).2 = s := by
  induction m with
  | ret x => rfl
  | read k ih => exact ih s h
  | write g k => exact h.elim

theorem Still.bind {m : Prog σ β} {f : β → Prog σ γ} {s : σ} (h : m.Still s) (hf : ∀ b, (m.alone s).1 = .ok b → (f b).Still s) :
    (m >>= f).Still s := by
  rw [bind_eq]
  induction m with
  | ret x =>
    cases x with
    | ok b => exact hf b rfl
    | error e => trivial
  | read k ih => exact ih s h hf
  | write g k => exact h.elim

theorem Still.attempt {m : Prog σ β} {s : σ} (h : m.Still s) : m.attempt.Still s := by
  induction m with
  | ret x => trivial
  | read k ih => exact ih s h
  | write g k => exact h.elim

theorem alone_attempt (m : Prog σ β) (s : σ) : m.attempt.alone s = (.ok (m.alone s).1, (m.alone s).2) := by
  induction m generalizing s with
  | ret x => rfl
  | read k ih => exact ih s s
  | write g k ih => exact ih (g s)

/-- As long as others keep the object within `I`, the program keeps it within `I`, and its result has `P`. -/
def Rely (I : σ → Prop) (P : Except PyErr β → Prop) : Prog σ β → Prop
  | ret x => P x
  | read k => ∀ s, I s → Rely I P (k s)
  | write f k => (∀ s, I s → I (f s)) ∧ Rely I P k

theorem Rely.mono {I : σ → Prop} {P Q : Except PyErr β → Prop} {m : Prog σ β} (h : m.Rely I P) (hq : ∀ x, P x → Q x) : m.Rely I Q := by
  induction m with
  | ret x => exact hq x h
  | read k ih => exact fun s hs => ih s (h s hs)
  | write f k ih => exact ⟨h.1, ih h.2⟩

theorem Rely.bind {I : σ → Prop} {P : Except PyErr β → Prop} {Q : Except PyErr γ → Prop} {m : Prog σ β} {f : β → Prog σ γ} (h : m.Rely I P)
    (hf : ∀ b, P (.ok b) → (f b).Rely I Q) (he : ∀ e, P (.error e) → Q (.error e)) : (m >>= f).Rely I Q := by
  rw [bind_eq]
  induction m with
  | ret x =>
    cases x with
    | ok b => exact hf b h
    | error e => exact he e h
  | read k ih => exact fun s hs => ih s (h s hs)
  | write g k ih => exact ⟨h.1, ih h.2⟩

theorem Rely.attempt {I : σ → Prop} {P : Except PyErr β → Prop} {m : Prog σ β} (h : m.Rely I P) :
    m.attempt.Rely I (fun r => ∃ x, r = .ok x ∧ P x) := by
  induction m with
  | ret x => exact ⟨x, rfl, h⟩
  | read k ih => exact fun s hs => ih s (h s hs)
  | write f k ih => exact ⟨h.1, ih h.2⟩

theorem Still.rely {m : Prog σ β} {s : σ} (h : m.Still s) : m.Rely (· = s) (· = (m.alone s).1) := by
  induction m with
  | ret x => rfl
  | read k ih => rintro _ rfl; exact ih _ h
  | write g k => exact h.elim

/-- A thread that makes calls one after the other: every answer has what it must have. -/
theorem Rely.calls {I : σ → Prop} {step : γ → Prog σ β} {P : γ → Except PyErr β → Prop} (cs : List γ)
    (h : ∀ c ∈ cs, (step c).Rely I (P c)) :
    (Prog.calls step cs).Rely I fun r => ∃ xs, r = .ok xs ∧ xs.length = cs.length ∧ ∀ (i : Nat) c x, cs[i]? = some c → xs[i]? = some x → P c x := by
  induction cs with
  | nil => exact ⟨[], rfl, rfl, by simp⟩
  | cons c cs ih =>
    refine (h c (by simp)).attempt.bind (fun x hx => (ih fun c hc => h c (by simp [hc])).bind (fun xs hxs => ?_) ?_) ?_
    · obtain ⟨_, e, hx⟩ := hx
      obtain rfl := Except.ok.inj e
      obtain ⟨_, e, h1, h2⟩ := hxs
      obtain rfl := Except.ok.inj e
      refine ⟨x :: xs, rfl, by simp [h1], ?_⟩
      intro i c' x' e1 e2
      cases i with
      | zero =>
        simp only [List.getElem?_cons_zero, Option.some.injEq] at e1 e2
        subst e1 e2; exact hx
      | succ i => exact h2 i c' x' (by simpa using e1) (by simpa using e2)
    · rintro e ⟨_, h, -⟩; cases h
    · rintro e ⟨_, h, -⟩; cases h

/-- Whatever the program has read, it writes only as `R` allows. -/
def Writes (R : σ → σ → Prop) : Prog σ β → Prop
  | ret _ => True
  | read k => ∀ s, Writes R (k s)
  | write f k => (∀ s, R s (f s)) ∧ Writes R k

theorem Writes.bind {R : σ → σ → Prop} {m : Prog σ β} {f : β → Prog σ γ} (h : m.Writes R) (hf : ∀ b, (f b).Writes R) : (m >>= f).Writes R := by
  rw [bind_eq]
  induction m with
  | ret x =>
    cases x with
    | ok b => exact hf b
    | error e => trivial
  | read k ih => exact fun s => ih s (h s)
  | write g k ih => exact ⟨h.1, ih h.2⟩

theorem Writes.attempt {R : σ → σ → Prop} {m : Prog σ β} (h : m.Writes R) : m.attempt.Writes R := by
  induction m with
  | ret x => trivial
  | read k ih => exact fun s => ih s (h s)
  | write f k ih => exact ⟨h.1, ih h.2⟩

theorem Writes.calls {R : σ → σ → Prop} {step : γ → Prog σ β} (cs : List γ) (h : ∀ c ∈ cs, (step c).Writes R) : (Prog.calls step cs).Writes R := by
  induction cs with
  | nil => trivial
  | cons c cs ih =>
    exact (h c (by simp)).attempt.bind fun _ => (ih fun c hc => h c (by simp [hc])).bind fun _ => trivial

/-- The number of looks and writes of a program that runs alone. -/
def turns : Prog σ β → σ → Nat
  | ret _, _ => 0
  | read k, s => turns (k s) s + 1
  | write g k, s => turns k (g s) + 1

end Prog

namespace Pool
open Prog

theorem run_append (p : Pool σ β) (a b : List Nat) : p.run (a ++ b) = (p.run a).run b := List.foldl_append

/-- Every schedule keeps what every thread keeps. -/
theorem rely {I : σ → Prop} {P : Nat → Except PyErr β → Prop} {p : Pool σ β} (hI : I p.shared)
    (h : ∀ (i : Nat) m, p.threads[i]? = some m → m.Rely I (P i)) (schedule : List Nat) :
    I (p.run schedule).shared ∧ ∀ (i : Nat) m, (p.run schedule).threads[i]? = some m → m.Rely I (P i) := by
  induction schedule generalizing p with
  | nil => exact ⟨hI, h⟩
  | cons j js ih =>
    have set : ∀ m', m'.Rely I (P j) → ∀ (i : Nat) m, (p.threads.set j m')[i]? = some m → m.Rely I (P i) := by
      intro m' hm' i m e
      rw [List.getElem?_set] at e
      split at e
      · rename_i hij; subst hij
        split at e
        · cases e; exact hm'
        · cases e
      · exact h i m e
    show I ((p.turn j).run js).shared ∧ _
    refine ih ?_ ?_
    · unfold turn
      split
      · exact hI
      · rename_i f k e; exact (h j _ e).1 _ hI
      · exact hI
    · unfold turn
      split
      · rename_i k e; exact set _ (h j _ e _ hI)
      · rename_i f k e; exact set _ (h j _ e).2
      · exact h

theorem length_run (p : Pool σ β) (schedule : List Nat) : (p.run schedule).threads.length = p.threads.length := by
  induction schedule generalizing p with
  | nil => rfl
  | cons j js ih =>
    refine (ih (p := p.turn j)).trans ?_
    unfold turn
    split <;> simp

/-- Threads that write nothing: the object stays as it is, and a thread that has had enough turns has its result. -/
theorem still {s : σ} {p : Pool σ β} (hs : p.shared = s) (h : ∀ m ∈ p.threads, m.Still s) (schedule : List Nat) {i : Nat} {m : Prog σ β}
    (hm : p.threads[i]? = some m) (ht : m.turns s ≤ schedule.count i) : (p.run schedule).threads[i]? = some (.ret (m.alone s).1) := by
  induction schedule generalizing p m with
  | nil =>
    cases m with
    | ret x => exact hm
    | read k => simp [turns] at ht
    | write g k => simp [turns] at ht
  | cons j js ih =>
    show ((p.turn j).run js).threads[i]? = _
    have hj : ∀ k, p.threads[j]? = some (.read k) → p.turn j = { p with threads := p.threads.set j (k s) } := by
      intro k e; unfold turn; rw [e]; simp only [hs]
    have other : ∀ m', (∃ m0 ∈ p.threads, m'.Still s ∨ m' = m0) → m'.Still s := by
      rintro m' ⟨m0, h0, h1 | rfl⟩
      · exact h1
      · exact h _ h0
    rcases hc : p.threads[j]? with _ | mj
    · have e : p.turn j = p := by unfold turn; rw [hc]
      rw [e]
      refine ih hs h hm ?_
      have hij : j ≠ i := by rintro rfl; rw [hc] at hm; cases hm
      rw [List.count_cons_of_ne hij] at ht; exact ht
    · have hst := h mj (List.mem_of_getElem? hc)
      cases mj with
      | write g k => exact hst.elim
      | ret x =>
        have e : p.turn j = p := by unfold turn; rw [hc]
        rw [e]
        refine ih hs h hm ?_
        by_cases hij : j = i
        · subst hij
          rw [hc] at hm; cases hm; exact Nat.zero_le _
        · rw [List.count_cons_of_ne hij] at ht; exact ht
      | read k =>
        rw [hj k hc]
        have hlt : j < p.threads.length := (List.getElem?_eq_some_iff.1 hc).1
        have h' : ∀ m ∈ p.threads.set j (k s), m.Still s := by
          intro m hm
          rcases List.mem_or_eq_of_mem_set hm with hm | rfl
          · exact h m hm
          · exact hst
        by_cases hij : j = i
        · subst hij
          rw [hc] at hm; cases hm
          refine ih (p := { p with threads := p.threads.set j (k s) }) hs h' (m := k s) ?_ ?_
          · show (p.threads.set j (k s))[j]? = _
            rw [List.getElem?_set_self hlt]
          · rw [List.count_cons_self] at ht
            simp only [turns] at ht; omega
        · refine ih (p := { p with threads := p.threads.set j (k s) }) hs h' ?_ ?_
          · show (p.threads.set j (k s))[i]? = _
            rw [List.getElem?_set_ne hij]; exact hm
          · rw [List.count_cons_of_ne hij] at ht; exact ht

end Pool

/-! ## Queries -/

/-- The program `q` is the query `m`: alone it does what `m` does; it writes nothing if the object is warm (`W`); if it writes, the object is warm
afterwards; and it writes only as `R` allows. -/
structure Asks (R : σ → σ → Prop) (W : σ → Prop) (q : Prog σ β) (m : Py σ β) : Prop where
  alone : ∀ s, q.alone s = m s
  warm : ∀ s, q.Still s ∨ W (q.alone s).2
  quiet : ∀ s, W s → q.Still s
  only : ∀ s0, q.Rely (R s0) fun _ => True
  writes : q.Writes R

namespace Asks
variable {R : σ → σ → Prop} {W : σ → Prop}

theorem lift (x : Except PyErr β) : Asks R W (Prog.lift x) (Py.lift x) where
  alone _ := rfl
  warm _ := .inl trivial
  quiet _ _ := trivial
  only _ := trivial
  writes := trivial

theorem pure (b : β) : Asks R W (Pure.pure b) (Pure.pure b) := lift (.ok b)

theorem look {m : Py σ β} (h : ∀ s, (m s).2 = s) : Asks R W (Prog.look m) m where
  alone s := Prod.ext rfl (h s).symm
  warm _ := .inl trivial
  quiet _ _ := trivial
  only _ _ _ := trivial
  writes _ := trivial

theorem get : Asks R W Prog.get Py.get where
  alone _ := rfl
  warm _ := .inl trivial
  quiet _ _ := trivial
  only _ _ _ := trivial
  writes _ := trivial

theorem bind {q : Prog σ β} {m : Py σ β} {fq : β → Prog σ γ} {f : β → Py σ γ} (h1 : Asks R W q m)
    (h2 : ∀ b, Asks R W (fq b) (f b)) : Asks R W (q >>= fq) (m >>= f) where
  alone s := by
    rw [Prog.alone_bind]
    show Py.bind q.alone (fun b => (fq b).alone) s = Py.bind m f s
    unfold Py.bind
    rw [h1.alone]
    split
    · exact (h2 _).alone _
    · rfl
  warm s := by
    rw [Prog.alone_bind]
    show _ ∨ W (Py.bind q.alone (fun b => (fq b).alone) s).2
    unfold Py.bind
    rcases e : q.alone s with ⟨r, s1⟩
    rcases h1.warm s with h | h
    · have hs := h.alone
      rw [e] at hs
      obtain rfl : s1 = s := hs
      cases r with
      | error er => exact .inl (h.bind fun b hb => by rw [e] at hb; cases hb)
      | ok b =>
        rcases (h2 b).warm s1 with h' | h'
        · exact .inl (h.bind fun b' hb => by rw [e] at hb; cases hb; exact h')
        · exact .inr h'
    · rw [e] at h
      cases r with
      | error er => exact .inr h
      | ok b =>
        have := ((h2 b).quiet s1 h).alone
        exact .inr (by rw [this]; exact h)
  quiet s hs := (h1.quiet s hs).bind fun b _ => (h2 b).quiet s hs
  only s0 := (h1.only s0).bind (fun b _ => (h2 b).only s0) fun _ _ => trivial
  writes := h1.writes.bind fun b => (h2 b).writes

theorem mapEach {fq : β → Prog σ γ} {f : β → Py σ γ} (h : ∀ b, Asks R W (fq b) (f b)) (xs : List β) :
    Asks R W (Prog.mapEach fq xs) (Py.mapEach f xs) := by
  induction xs with
  | nil => exact pure []
  | cons x xs ih => exact bind (h x) fun _ => bind ih fun _ => pure _

end Asks

/-- The program `q` is the query `m`: it writes only to the positional index, and only if that is not there. -/
abbrev Reader (q : Prog (St α κ) β) (m : Py (St α κ) β) : Prop := Asks Reindexed (fun s => s.index ≠ []) q m

namespace Reader

theorem lift (x : Except PyErr β) : Reader (Prog.lift x : Prog (St α κ) β) (Py.lift x) := Asks.lift x
theorem pure (b : β) : Reader (Pure.pure b : Prog (St α κ) β) (Pure.pure b) := Asks.pure b
theorem raise (e : PyErr) : Reader (Prog.raise e : Prog (St α κ) β) (Py.raise e) := Asks.lift (.error e)
theorem look {m : Py (St α κ) β} (h : ∀ s, (m s).2 = s) : Reader (Prog.look m) m := Asks.look h
theorem get : Reader (Prog.get : Prog (St α κ) (St α κ)) Py.get := Asks.get

theorem bind {q : Prog (St α κ) β} {m : Py (St α κ) β} {fq : β → Prog (St α κ) γ} {f : β → Py (St α κ) γ} (h1 : Reader q m)
    (h2 : ∀ b, Reader (fq b) (f b)) : Reader (q >>= fq) (m >>= f) := Asks.bind h1 h2

theorem mapEach {fq : β → Prog (St α κ) γ} {f : β → Py (St α κ) γ} (h : ∀ b, Reader (fq b) (f b)) (xs : List β) :
    Reader (Prog.mapEach fq xs) (Py.mapEach f xs) := Asks.mapEach h xs

theorem get_bind {fq : St α κ → Prog (St α κ) γ} {f : St α κ → Py (St α κ) γ} (h : ∀ s, Reader (fq s) (f s)) :
    Reader (Prog.get >>= fq) (Py.get >>= f) := bind get h

theorem lift_bind {x : Except PyErr β} {fq : β → Prog (St α κ) γ} {f : β → Py (St α κ) γ} (h : ∀ b, Reader (fq b) (f b)) :
    Reader (Prog.lift x >>= fq) (Py.lift x >>= f) := bind (lift x) h

theorem ite {c : Prop} [Decidable c] {q q' : Prog (St α κ) β} {m m' : Py (St α κ) β} (h1 : c → Reader q m)
    (h2 : ¬ c → Reader q' m') : Reader (if c then q else q') (if c then m else m') := by
  by_cases hc : c
  · rw [if_pos hc, if_pos hc]; exact h1 hc
  · rw [if_neg hc, if_neg hc]; exact h2 hc

theorem out {δ : Type} {q : Prog (St α κ) β} {m : Py (St α κ) β} (h : Reader q m) (f : β → Out δ) : Reader (f <$> q) (Spec.out f m) :=
  bind h fun b => pure (f b)

end Reader

namespace Threads
variable {ilog2 : Nat → Nat}

theorem growTree_mem {r : List Nat} {tree : List (List Nat)} {row : List Nat} (h : r ∈ tree) : r ∈ Core.growTree tree row := by
  fun_induction Core.growTree tree row with
  | case1 tree row _ ih => exact ih (by simp [h])
  | case2 => exact h

/-- A program that builds the positional index. -/
structure Builds (q : Prog (St α κ) Unit) (m : Py (St α κ) Unit) (s : St α κ) : Prop where
  alone : q.alone s = m s
  index : (m s).2.index ≠ []
  only : ∀ s0, q.Rely (Reindexed s0) fun _ => True
  writes : q.Writes Reindexed

/-- Two writes where the other model has one. -/
theorem Builds.write2 {g1 g2 g : St α κ → St α κ} {s : St α κ} (e : g2 (g1 s) = g s) (hn : (g s).index ≠ []) (h1 : ∀ s, Reindexed s (g1 s))
    (h2 : ∀ s, Reindexed s (g2 s)) : Builds (do Prog.modify g1; Prog.modify g2) (Py.modify g) s where
  alone := by
    show (Except.ok (), g2 (g1 s)) = (Except.ok (), g s)
    rw [e]
  index := hn
  only s0 := ⟨fun s hs => hs.trans (h1 s), fun s hs => hs.trans (h2 s), trivial⟩
  writes := ⟨h1, h2, trivial⟩

theorem Builds.ite {c : Prop} [Decidable c] {q q' : Prog (St α κ) Unit} {m m' : Py (St α κ) Unit} {s : St α κ} (h1 : c → Builds q m s)
    (h2 : ¬ c → Builds q' m' s) : Builds (if c then q else q') (if c then m else m') s := by
  by_cases hc : c
  · rw [if_pos hc, if_pos hc]; exact h1 hc
  · rw [if_neg hc, if_neg hc]; exact h2 hc

theorem Builds.get_bind {fq : St α κ → Prog (St α κ) Unit} {f : St α κ → Py (St α κ) Unit} {s : St α κ} (h : ∀ s, Builds (fq s) (f s) s) :
    Builds (Prog.get >>= fq) (Py.get >>= f) s where
  alone := (h s).alone
  index := (h s).index
  only s0 := fun s _ => (h s).only s0
  writes s := (h s).writes

theorem buildIndex_builds (s : St α κ) : Builds (buildIndex ilog2) (Core.buildIndex ilog2) s := by
  refine Builds.get_bind (fun s => Builds.ite (fun h => Builds.write2 rfl ?_ (fun _ => ⟨_, _, rfl⟩) fun _ => ⟨_, _, rfl⟩)
    fun _ => Builds.ite (fun h => Builds.write2 rfl ?_ (fun _ => ⟨_, _, rfl⟩) fun _ => ⟨_, _, rfl⟩)
      fun _ => Builds.write2 rfl ?_ (fun _ => ⟨_, _, rfl⟩) fun _ => ⟨_, _, rfl⟩)
  · intro e
    have : s.lists.map List.length = [] := e
    rw [this] at h; cases h
  · intro e
    have e := (List.append_eq_nil_iff.1 e).1
    rw [e] at h; cases h
  · intro e
    have e := (List.append_eq_nil_iff.1 e).2
    rw [List.flatten_eq_nil_iff] at e
    have h2 := e _ (List.mem_reverse.2 (growTree_mem (List.mem_cons_of_mem _ (List.mem_singleton.2 rfl))))
    have h3 := List.append_eq_nil_iff.1 h2
    rw [h3.1] at h3
    simp at h3

theorem ensureIndex_reader : Reader (ensureIndex ilog2 : Prog (St α κ) Unit) (Core.ensureIndex ilog2) where
  alone s := by
    unfold ensureIndex Core.ensureIndex
    rw [Prog.alone_bind]
    show (ite _ _ _ : Prog (St α κ) Unit).alone s = (ite _ _ _ : Py (St α κ) Unit) s
    split
    · exact (buildIndex_builds s).alone
    · rfl
  warm s := by
    by_cases h : s.index = []
    · right
      unfold ensureIndex
      rw [Prog.alone_bind]
      show ((ite _ _ _ : Prog (St α κ) Unit).alone s).2.index ≠ []
      rw [if_pos h, (buildIndex_builds s).alone]
      exact (buildIndex_builds s).index
    · left
      show (ite _ _ _ : Prog (St α κ) Unit).Still s
      rw [if_neg h]; trivial
  quiet s h := by
    show (ite _ _ _ : Prog (St α κ) Unit).Still s
    rw [if_neg h]; trivial
  only s0 := by
    refine Prog.Rely.bind (P := fun _ => True) (fun _ _ => trivial) (fun s _ => ?_) fun _ _ => trivial
    split
    · exact (buildIndex_builds s).only s0
    · trivial
  writes s := by
    show (ite _ _ _ : Prog (St α κ) Unit).Writes Reindexed
    split
    · exact (buildIndex_builds s).writes
    · trivial

theorem loc_reader (p i : Nat) : Reader (α := α) (κ := κ) (loc ilog2 p i) (Core.loc ilog2 p i) :=
  Reader.ite (fun _ => Reader.pure _) fun _ => Reader.bind (ensureIndex_reader) fun _ => Reader.get_bind (fun _ => Reader.lift_bind fun _ => Reader.pure _)

theorem posNonneg_reader (i : Nat) : Reader (α := α) (κ := κ) (posNonneg ilog2 i) (Core.posNonneg ilog2 i) :=
  Reader.get_bind (fun _ => Reader.lift_bind fun _ => Reader.ite (fun _ => Reader.pure _) fun _ =>
    Reader.bind (ensureIndex_reader) fun _ => Reader.get_bind (fun _ => Reader.ite (fun _ => Reader.raise _) fun _ => Reader.pure _))

theorem pos_reader (i : Int) : Reader (α := α) (κ := κ) (pos ilog2 i) (Core.pos ilog2 i) :=
  Reader.get_bind (fun _ => Reader.ite
    (fun _ => Reader.lift_bind fun _ => Reader.ite (fun _ => Reader.pure _) fun _ =>
      Reader.ite (fun _ => Reader.raise _) fun _ => posNonneg_reader _)
    fun _ => Reader.ite (fun _ => Reader.raise _) fun _ => posNonneg_reader _)

theorem getInt_reader (i : Int) : Reader (α := α) (κ := κ) (getInt ilog2 i) (Core.getInt ilog2 i) :=
  Reader.get_bind (fun _ => Reader.ite
    (fun _ => Reader.ite (fun _ => Reader.lift_bind fun _ => Reader.lift _) fun _ =>
      Reader.ite (fun _ => Reader.lift_bind fun _ => Reader.lift _) fun _ =>
      Reader.lift_bind fun _ => Reader.ite (fun _ => Reader.lift _) fun _ =>
      Reader.lift_bind fun _ => Reader.ite (fun _ => Reader.lift _) fun _ =>
      Reader.bind (pos_reader i) fun ⟨_, _⟩ => Reader.lift_bind fun _ => Reader.lift _)
    fun _ => Reader.raise _)

theorem getSliceFwd_reader (i j : Int) : Reader (α := α) (κ := κ) (getSliceFwd ilog2 i j) (Core.getSliceFwd ilog2 i j) :=
  Reader.get_bind (fun _ => Reader.ite (fun _ => Reader.pure _) fun _ =>
    Reader.bind (pos_reader i) fun ⟨_, _⟩ => Reader.lift_bind fun _ => Reader.ite (fun _ => Reader.pure _) fun _ =>
      Reader.ite (fun _ => Reader.lift_bind fun _ => Reader.bind (Reader.pure _) fun ⟨_, _⟩ => Reader.lift_bind fun _ => Reader.pure _) fun _ =>
        Reader.bind (pos_reader j) fun ⟨_, _⟩ => Reader.lift_bind fun _ => Reader.pure _)

theorem getSliceStep1_reader (i j : Option Int) :
    Reader (α := α) (κ := κ) (getSliceStep1 ilog2 i j) (Core.getSliceStep1 ilog2 i j) :=
  Reader.get_bind (fun _ => Reader.lift_bind fun ⟨_, _, _⟩ => Reader.ite (fun _ => getSliceFwd_reader _ _) fun _ =>
    Reader.mapEach (fun i => getInt_reader i) _)

theorem getSlice_reader (sl : PySlice) : Reader (α := α) (κ := κ) (getSlice ilog2 sl) (Core.getSlice ilog2 sl) :=
  Reader.get_bind (fun _ => Reader.lift_bind fun ⟨_, _, _⟩ => Reader.ite (fun _ => getSliceFwd_reader _ _) fun _ =>
    Reader.ite (fun _ => Reader.bind (getSliceStep1_reader _ _) fun _ => Reader.pure _) fun _ =>
    Reader.mapEach (fun i => getInt_reader i) _)

theorem islice_reader (i j : Option Int) (r : Bool) : Reader (α := α) (κ := κ) (islice ilog2 i j r) (Core.islice ilog2 i j r) :=
  Reader.get_bind (fun _ => Reader.ite (fun _ => Reader.pure _) fun _ => Reader.lift_bind fun ⟨_, _, _⟩ => Reader.ite (fun _ => Reader.pure _) fun _ =>
    Reader.bind (pos_reader _) fun ⟨_, _⟩ =>
      Reader.ite (fun _ => Reader.lift_bind fun _ => Reader.bind (Reader.pure _) fun ⟨_, _⟩ => Reader.lift _) fun _ =>
        Reader.bind (pos_reader _) fun ⟨_, _⟩ => Reader.lift _)

namespace SL
variable {P : St α α → Prop} {s : St α α} {E : Env α}

theorem bisect_left_reader (v : α) : Reader (bisect_left E v) (Verif.SL.bisect_left E v) :=
  Reader.get_bind (fun _ => Reader.ite (fun _ => Reader.pure _) fun _ => Reader.lift_bind fun _ => Reader.ite (fun _ => Reader.pure _) fun _ =>
    Reader.lift_bind fun _ => Reader.lift_bind fun _ => loc_reader _ _)

theorem bisect_right_reader (v : α) : Reader (bisect_right E v) (Verif.SL.bisect_right E v) :=
  Reader.get_bind (fun _ => Reader.ite (fun _ => Reader.pure _) fun _ => Reader.lift_bind fun _ => Reader.ite (fun _ => Reader.pure _) fun _ =>
    Reader.lift_bind fun _ => Reader.lift_bind fun _ => loc_reader _ _)

theorem count_reader (v : α) : Reader (count E v) (Verif.SL.count E v) :=
  Reader.get_bind (fun _ => Reader.ite (fun _ => Reader.pure _) fun _ => Reader.lift_bind fun _ => Reader.ite (fun _ => Reader.pure _) fun _ =>
    Reader.lift_bind fun _ => Reader.lift_bind fun _ => Reader.lift_bind fun _ =>
    Reader.ite (fun _ => Reader.bind (loc_reader _ _) fun _ => Reader.pure _) fun _ =>
    Reader.lift_bind fun _ => Reader.lift_bind fun _ => Reader.ite (fun _ => Reader.pure _) fun _ =>
    Reader.bind (loc_reader _ _) fun _ => Reader.bind (loc_reader _ _) fun _ => Reader.pure _)

theorem index_reader (v : α) (i j : Option Int) : Reader (index E v i j) (Verif.SL.index E v i j) :=
  Reader.get_bind (fun _ => Reader.ite (fun _ => Reader.raise _) fun _ => Reader.ite (fun _ => Reader.raise _) fun _ =>
    Reader.lift_bind fun _ => Reader.ite (fun _ => Reader.raise _) fun _ =>
    Reader.lift_bind fun _ => Reader.lift_bind fun _ => Reader.lift_bind fun _ => Reader.lift_bind fun _ =>
    Reader.ite (fun _ => Reader.raise _) fun _ =>
    Reader.bind (loc_reader _ _) fun _ => Reader.ite (fun _ => Reader.ite (fun _ => Reader.pure _) fun _ => Reader.raise _) fun _ =>
    Reader.bind (bisect_right_reader v) fun _ => Reader.ite (fun _ => Reader.pure _) fun _ => Reader.raise _)

end SL

namespace SKL
variable {K : KEnv α κ}

theorem bisect_key_left_reader (k : κ) : Reader (bisect_key_left K k) (Verif.SKL.bisect_key_left K k) :=
  Reader.get_bind (fun _ => Reader.ite (fun _ => Reader.pure _) fun _ => Reader.lift_bind fun _ => Reader.ite (fun _ => Reader.pure _) fun _ =>
    Reader.lift_bind fun _ => Reader.lift_bind fun _ => loc_reader _ _)

theorem bisect_key_right_reader (k : κ) : Reader (bisect_key_right K k) (Verif.SKL.bisect_key_right K k) :=
  Reader.get_bind (fun _ => Reader.ite (fun _ => Reader.pure _) fun _ => Reader.lift_bind fun _ => Reader.ite (fun _ => Reader.pure _) fun _ =>
    Reader.lift_bind fun _ => Reader.lift_bind fun _ => loc_reader _ _)

theorem bisect_left_reader (v : α) : Reader (bisect_left K v) (Verif.SKL.bisect_left K v) :=
  Reader.lift_bind fun _ => bisect_key_left_reader _

theorem bisect_right_reader (v : α) : Reader (bisect_right K v) (Verif.SKL.bisect_right K v) :=
  Reader.lift_bind fun _ => bisect_key_right_reader _

theorem indexLoop_reader (lists : List (List α)) (keys : List (List κ)) (v : α) (k : κ) (i j : Int)
    (p x n : Nat) : Reader (indexLoop K lists keys v k i j p x n) (Verif.SKL.indexLoop K lists keys v k i j p x n) := by
  have tail : ∀ (p x n : Nat), (∀ (ks' : List κ),
      Reader (indexLoop K lists keys v k i j (p + 1) 0 ks'.length) (Verif.SKL.indexLoop K lists keys v k i j (p + 1) 0 ks'.length)) →
      (Reader (indexLoop K lists keys v k i j p (x + 1) n) (Verif.SKL.indexLoop K lists keys v k i j p (x + 1) n)) →
      Reader (if x + 1 = n then
          if p + 1 = keys.length then Prog.raise .valueError
          else
            match getItem keys (p + 1) with
            | .error e => Prog.raise e
            | .ok ks' => indexLoop K lists keys v k i j (p + 1) 0 ks'.length
        else indexLoop K lists keys v k i j p (x + 1) n)
        (if x + 1 = n then
          if p + 1 = keys.length then Py.raise .valueError
          else
            match getItem keys (p + 1) with
            | .error e => Py.raise e
            | .ok ks' => Verif.SKL.indexLoop K lists keys v k i j (p + 1) 0 ks'.length
        else Verif.SKL.indexLoop K lists keys v k i j p (x + 1) n) := by
    intro p x n ih1 ih2
    refine Reader.ite (fun _ => Reader.ite (fun _ => Reader.raise _) fun _ => ?_) fun _ => ih2
    cases getItem keys (p + 1) with
    | error e => exact Reader.raise _
    | ok ks' => exact ih1 ks'
  fun_induction Verif.SKL.indexLoop K lists keys v k i j p x n
  case case9 ih1 ih2 =>
    rw [indexLoop]
    split <;> rename_i e1
    · simp_all
    split <;> rename_i e2
    · simp_all
    simp_all
    exact Reader.bind (Reader.pure _) fun b => by
      cases b with
      | some b => exact Reader.pure _
      | none => exact tail _ _ _ ih1 ih2
  case case8 ih1 ih2 =>
    rw [indexLoop]
    split <;> rename_i e1
    · simp_all
    split <;> rename_i e2
    · simp_all
    simp_all
    refine Reader.bind (loc_reader _ _) fun _ => Reader.ite (fun _ => Reader.bind (Reader.pure _) ?_) fun _ =>
      Reader.ite (fun _ => Reader.bind (Reader.raise _) ?_) fun _ => Reader.bind (Reader.pure _) ?_
    all_goals
      rintro (_ | b)
      · exact tail _ _ _ ih1 ih2
      · exact Reader.pure _
  all_goals
    rw [indexLoop]
    split <;> rename_i e1
    · simp_all <;> exact Reader.raise _
    split <;> rename_i e2
    · simp_all <;> exact Reader.raise _
    simp_all <;> exact Reader.raise _

theorem index_reader (v : α) (i j : Option Int) : Reader (index K v i j) (Verif.SKL.index K v i j) :=
  Reader.get_bind (fun _ => Reader.ite (fun _ => Reader.raise _) fun _ => Reader.ite (fun _ => Reader.raise _) fun _ =>
    Reader.lift_bind fun _ => Reader.lift_bind fun _ => Reader.ite (fun _ => Reader.raise _) fun _ =>
    Reader.lift_bind fun _ => Reader.lift_bind fun _ => indexLoop_reader _ _ _ _ _ _ _ _ _)

end SKL

/-! ## All queries -/

theorem SL.query_reader (E : Env α) {op : Op α} (hq : op.isQuery = true) : Reader (SL.query E op) ((Verif.SL.api E).step op) := by
  cases op with
  | add | update | clear | discard | remove | delInt | delSlice | pop | iadd | imul | reset | unsupported => cases hq
  | contains v => exact Reader.look ((Verif.SL.contains_stays E v).out _)
  | getInt i => exact (getInt_reader i).out _
  | getSlice sl => exact (getSlice_reader sl).out _
  | bisectLeft v => exact (SL.bisect_left_reader v).out _
  | bisectRight v => exact (SL.bisect_right_reader v).out _
  | count v => exact (SL.count_reader v).out _
  | index v a b => exact (SL.index_reader v a b).out _
  | irange lo hi a b r => exact Reader.look ((Verif.SL.irange_stays E lo hi a b r).out _)
  | islice a b r => exact (islice_reader a b r).out _
  | iter => exact Reader.look fun _ => rfl
  | reversed => exact Reader.look fun _ => rfl
  | len => exact Reader.look fun _ => rfl
  | compare op other => exact Reader.look (Stays.out (m := ListAPI.read (Core.compare E.cmp op other)) (fun _ => rfl) _)
  | copy => exact Reader.look ((valuesOf_stays _).out _)
  | concat xs => exact Reader.look ((valuesOf_stays _).out _)
  | mul n => exact Reader.look ((valuesOf_stays _).out _)

theorem SKL.query_reader (K : KEnv α κ) {op : KOp α κ} (hq : op.isQuery = true) : Reader (SKL.query K op) (Verif.SKL.kstep K op) := by
  cases op with
  | op o =>
    cases o with
    | add | update | clear | discard | remove | delInt | delSlice | pop | iadd | imul | reset | unsupported => cases hq
    | contains v => exact Reader.look ((Verif.SKL.contains_stays K v).out _)
    | getInt i => exact (getInt_reader i).out _
    | getSlice sl => exact (getSlice_reader sl).out _
    | bisectLeft v => exact (SKL.bisect_left_reader v).out _
    | bisectRight v => exact (SKL.bisect_right_reader v).out _
    | count v => exact Reader.look ((Stays.bind (Verif.SKL.count_stays K v) fun n => Stays.pure (n : Int)).out _)
    | index v a b => exact (SKL.index_reader v a b).out _
    | irange lo hi a b r => exact Reader.look ((Verif.SKL.irange_stays K lo hi a b r).out _)
    | islice a b r => exact (islice_reader a b r).out _
    | iter => exact Reader.look fun _ => rfl
    | reversed => exact Reader.look fun _ => rfl
    | len => exact Reader.look fun _ => rfl
    | compare op other => exact Reader.look (Stays.out (m := ListAPI.read (Core.compare K.vcmp op other)) (fun _ => rfl) _)
    | copy => exact Reader.look ((valuesOf_stays _).out _)
    | concat xs => exact Reader.look ((valuesOf_stays _).out _)
    | mul n => exact Reader.look ((valuesOf_stays _).out _)
  | bisectKeyLeft k => exact (SKL.bisect_key_left_reader k).out _
  | bisectKeyRight k => exact (SKL.bisect_key_right_reader k).out _
  | irangeKey lo hi a b r => exact Reader.look ((Verif.SKL.irange_key_stays K lo hi a b r).out _)

end Threads

/-- The answer does not depend on the positional index. -/
def Blind (m : Py (St α κ) β) : Prop := ∀ s i o, m { s with index := i, offset := o } = ((m s).1, { s with index := i, offset := o })

namespace Blind

theorem pure (b : β) : Blind (Pure.pure b : Py (St α κ) β) := fun _ _ _ => rfl
theorem raise (e : PyErr) : Blind (Py.raise e : Py (St α κ) β) := fun _ _ _ => rfl
theorem lift (x : Except PyErr β) : Blind (Py.lift x : Py (St α κ) β) := fun _ _ _ => rfl

theorem bind {m : Py (St α κ) β} {f : β → Py (St α κ) γ} (h1 : Blind m) (h2 : ∀ b, Blind (f b)) : Blind (m >>= f) := by
  intro s i o
  have h := h1 s s.index s.offset
  rw [Py.bind_apply, Py.bind_apply, h1 s i o]
  rcases hm : m s with ⟨_ | b, s'⟩
  · rfl
  · have : m s = ((m s).1, s) := h
    rw [hm] at this
    obtain rfl : s' = s := congrArg Prod.snd this
    exact h2 b s' i o

theorem get_bind {f : St α κ → Py (St α κ) γ} (h : ∀ s, Blind (f s)) (hf : ∀ s i o, f { s with index := i, offset := o } = f s) :
    Blind (Py.get >>= f) := by
  intro s i o
  show f _ _ = ((f s s).1, _)
  rw [hf]; exact h s s i o

theorem ite {c : Prop} [Decidable c] {m m' : Py (St α κ) β} (h1 : Blind m) (h2 : Blind m') : Blind (if c then m else m') := by
  split <;> assumption

theorem out {δ : Type} {m : Py (St α κ) β} (h : Blind m) (f : β → Out δ) : Blind (Spec.out f m) := bind h fun b => pure (f b)

theorem read {f : St α κ → Except PyErr β} (hf : ∀ s i o, f { s with index := i, offset := o } = f s) : Blind (ListAPI.read f) := by
  intro s i o
  show (f _, _) = _
  rw [hf]; rfl

theorem values {L : ListAPI (St α κ) α} {f : St α κ → Except PyErr (St α κ)} (hf : ∀ s i o, f { s with index := i, offset := o } = f s) : Blind (L.valuesOf f) := by
  intro s i o
  unfold ListAPI.valuesOf
  rw [hf]
  cases f s <;> rfl

theorem rely {m : Py (St α κ) β} (h : Blind m) (s : St α κ) : (Prog.look m).Rely (Reindexed s) (· = (m s).1) := by
  rintro _ ⟨i, o, rfl⟩
  show (m _).1 = _
  rw [h]

end Blind

/-- Decompose a do-block. -/
macro "blind" : tactic => `(tactic| repeat' (with_reducible first
  | refine Blind.get_bind (fun _ => ?_) (fun _ _ _ => by with_unfolding_all rfl)
  | refine Blind.bind ?_ fun _ => ?_
  | refine Blind.ite ?_ ?_
  | exact Blind.pure _
  | exact Blind.raise _
  | exact Blind.lift _
  | solve_by_elim only [*]
  | split
  | dsimp only))

theorem SL.contains_blind (E : Env α) (v : α) : Blind (SL.contains E v) := by unfold SL.contains; blind
theorem SL.irange_blind (E : Env α) (lo hi : Option α) (a b r : Bool) : Blind (SL.irange E lo hi a b r) := by
  unfold SL.irange SL.irangeWith; blind
theorem SKL.find_blind (K : KEnv α κ) (v : α) : Blind (SKL.find K v) := by unfold SKL.find; blind
theorem SKL.contains_blind (K : KEnv α κ) (v : α) : Blind (SKL.contains K v) := by
  have := SKL.find_blind K
  unfold SKL.contains; blind
theorem SKL.irange_key_blind (K : KEnv α κ) (lo hi : Option κ) (a b r : Bool) : Blind (SKL.irange_key K lo hi a b r) := by
  unfold SKL.irange_key SKL.irange_keyWith; blind
theorem SKL.irange_blind (K : KEnv α κ) (lo hi : Option α) (a b r : Bool) : Blind (SKL.irange K lo hi a b r) := by
  have := SKL.irange_key_blind K
  unfold SKL.irange SKL.irangeWith; blind
theorem SKL.count_blind (K : KEnv α κ) (v : α) : Blind (SKL.count K v) := by unfold SKL.count; blind

namespace Threads

/-- A query that does not count positions gives the same answer whatever the positional index is. -/
theorem SL.plain_rely (E : Env α) {op : Op α} (hp : op.plain = true) (s : St α α) :
    (SL.query E op).Rely (Reindexed s) (· = ((Verif.SL.api E).step op s).1) := by
  cases op with
  | add | update | clear | discard | remove | delInt | delSlice | pop | iadd | imul | reset | unsupported | getInt | getSlice | bisectLeft
  | bisectRight | count | index | islice => cases hp
  | contains v => exact ((Verif.SL.contains_blind E v).out _).rely s
  | irange lo hi a b r => exact ((Verif.SL.irange_blind E lo hi a b r).out _).rely s
  | iter => exact Blind.rely (fun _ _ _ => rfl) s
  | reversed => exact Blind.rely (fun _ _ _ => rfl) s
  | len => exact Blind.rely (fun _ _ _ => rfl) s
  | compare op other => exact (Blind.out (m := ListAPI.read (Core.compare E.cmp op other)) (Blind.read fun _ _ _ => rfl) _).rely s
  | copy => exact ((Blind.values fun _ _ _ => rfl).out _).rely s
  | concat xs => exact ((Blind.values fun _ _ _ => rfl).out _).rely s
  | mul n => exact ((Blind.values fun _ _ _ => rfl).out _).rely s

theorem SKL.plain_rely (K : KEnv α κ) {op : KOp α κ} (hp : op.plain = true) (s : St α κ) :
    (SKL.query K op).Rely (Reindexed s) (· = (Verif.SKL.kstep K op s).1) := by
  cases op with
  | op o =>
    cases o with
    | add | update | clear | discard | remove | delInt | delSlice | pop | iadd | imul | reset | unsupported | getInt | getSlice | bisectLeft
    | bisectRight | index | islice => cases hp
    | contains v => exact ((Verif.SKL.contains_blind K v).out _).rely s
    | irange lo hi a b r => exact ((Verif.SKL.irange_blind K lo hi a b r).out _).rely s
    | count v => exact ((Blind.bind (Verif.SKL.count_blind K v) fun n => Blind.pure (n : Int)).out _).rely s
    | iter => exact Blind.rely (fun _ _ _ => rfl) s
    | reversed => exact Blind.rely (fun _ _ _ => rfl) s
    | len => exact Blind.rely (fun _ _ _ => rfl) s
    | compare op other => exact (Blind.out (m := ListAPI.read (Core.compare K.vcmp op other)) (Blind.read fun _ _ _ => rfl) _).rely s
    | copy => exact ((Blind.values fun _ _ _ => rfl).out _).rely s
    | concat xs => exact ((Blind.values fun _ _ _ => rfl).out _).rely s
    | mul n => exact ((Blind.values fun _ _ _ => rfl).out _).rely s
  | bisectKeyLeft | bisectKeyRight => cases hp
  | irangeKey lo hi a b r => exact ((Verif.SKL.irange_key_blind K lo hi a b r).out _).rely s

end Threads

/-! ## Threads that make calls one after the other -/

section Calls
variable {s : σ} {step : γ → Prog σ β}

theorem Prog.Still.calls {cs : List γ} (h : ∀ c ∈ cs, (step c).Still s) :
    (Prog.calls step cs).Still s ∧ ((Prog.calls step cs).alone s).1 = .ok (cs.map fun c => ((step c).alone s).1) := by
  induction cs with
  | nil => exact ⟨trivial, rfl⟩
  | cons c cs ih =>
    have hc := h c (by simp)
    obtain ⟨i1, i2⟩ := ih fun c hc => h c (by simp [hc])
    refine ⟨hc.attempt.bind fun x _ => i1.bind fun xs _ => trivial, ?_⟩
    rw [Prog.calls, Prog.alone_bind, Py.bind_apply, Prog.alone_attempt]
    simp only [hc.alone]
    rw [Prog.alone_bind, Py.bind_apply]
    rcases e : (Prog.calls step cs).alone s with ⟨r, s1⟩
    rw [e] at i2
    obtain rfl : r = _ := i2
    rfl

/-- Threads of calls that write nothing: the object stays as it is, a thread that is finished has the answers of its calls, and a thread
that has had enough turns is finished. -/
theorem Pool.calls_still {threads : List (List γ)} (h : ∀ cs ∈ threads, ∀ c ∈ cs, (step c).Still s) : ∃ n, ∀ schedule : List Nat,
    ((Pool.mk s (threads.map (Prog.calls step))).run schedule).shared = s ∧
    ∀ (i : Nat) cs, threads[i]? = some cs →
      (∀ x, ((Pool.mk s (threads.map (Prog.calls step))).run schedule).threads[i]? = some (.ret x) → x = .ok (cs.map fun c => ((step c).alone s).1)) ∧
      (n ≤ schedule.count i →
        ((Pool.mk s (threads.map (Prog.calls step))).run schedule).threads[i]? = some (.ret (.ok (cs.map fun c => ((step c).alone s).1)))) := by
  have hst : ∀ cs ∈ threads, _ := fun cs hcs => Prog.Still.calls (h cs hcs)
  refine ⟨(threads.map fun cs => (Prog.calls step cs).turns s).sum, fun schedule => ?_⟩
  have hr := Pool.rely (I := (· = s)) (P := fun i x => ∀ cs, threads[i]? = some cs → x = .ok (cs.map fun c => ((step c).alone s).1))
    (p := Pool.mk s (threads.map (Prog.calls step))) rfl (by
      intro i m e
      rw [List.getElem?_map, Option.map_eq_some_iff] at e
      obtain ⟨cs, e, rfl⟩ := e
      have := hst cs (List.mem_of_getElem? e)
      refine this.1.rely.mono ?_
      rintro x rfl cs' e'
      rw [e] at e'; cases e'; exact this.2) schedule
  refine ⟨hr.1, fun i cs e => ⟨fun x hx => hr.2 i _ hx cs e, fun hn => ?_⟩⟩
  have hm := hst cs (List.mem_of_getElem? e)
  rw [← hm.2]
  refine Pool.still (s := s) rfl ?_ schedule (by rw [List.getElem?_map, e]; rfl) (Nat.le_trans ?_ hn)
  · intro m hm
    obtain ⟨cs, hcs, rfl⟩ := List.mem_map.1 hm
    exact (hst cs hcs).1
  · have : cs ∈ threads := List.mem_of_getElem? e
    clear hst h e hn hr
    clear hm
    induction threads with
    | nil => cases this
    | cons a l ih =>
      rw [List.map_cons, List.sum_cons]
      rcases List.mem_cons.1 this with rfl | h
      · omega
      · have := ih h; omega

end Calls

/-- After all of some queries have been made once, none of them writes. -/
theorem Asks.warmed {R : σ → σ → Prop} {W : σ → Prop} (hr : ∀ s, R s s) (ht : ∀ {a b d}, R a b → R b d → R a d) {step : γ → Prog σ β} {m : γ → Py σ β} {cs : List γ} (h : ∀ c ∈ cs, Asks R W (step c) (m c)) (s : σ) :
    R s (runHist m cs s).2 ∧ ∀ c ∈ cs, (step c).Still (runHist m cs s).2 := by
  have keep : ∀ (cs : List γ), (∀ c ∈ cs, Asks R W (step c) (m c)) → ∀ s : σ, W s → (runHist m cs s).2 = s := by
    intro cs
    induction cs with
    | nil => intros; rfl
    | cons c cs ih =>
      intro h s hs
      have hc := h c (by simp)
      have e : (m c s).2 = s := by rw [← hc.alone]; exact (hc.quiet s hs).alone
      show (runHist m cs (m c s).2).2 = s
      rw [e]; exact ih (fun c hc => h c (by simp [hc])) s hs
  have only : ∀ {c}, Asks R W (step c) (m c) → ∀ s, R s (m c s).2 := by
    intro c hc s
    rw [← hc.alone]
    have aux : ∀ (q : Prog σ β) s0, q.Rely (R s0) (fun _ => True) → ∀ s, R s0 s → R s0 (q.alone s).2 := by
      intro q s0
      induction q with
      | ret x => exact fun _ _ h => h
      | read k ih => exact fun hq s hs => ih s (hq s hs) s hs
      | write f k ih => exact fun hq s hs => ih hq.2 _ (hq.1 s hs)
    exact aux _ s (hc.only s) s (hr s)
  have main : R s (runHist m cs s).2 ∧
      (((runHist m cs s).2 = s ∧ ∀ c ∈ cs, (step c).Still s) ∨ W (runHist m cs s).2) := by
    induction cs generalizing s with
    | nil => exact ⟨hr s, .inl ⟨rfl, by simp⟩⟩
    | cons c cs ih =>
      have hc := h c (by simp)
      have hcs : ∀ c ∈ cs, Asks R W (step c) (m c) := fun c hc => h c (by simp [hc])
      show R s (runHist m cs (m c s).2).2 ∧ (((runHist m cs (m c s).2).2 = s ∧ _) ∨ W (runHist m cs (m c s).2).2)
      refine ⟨ht (only hc s) (ih hcs _).1, ?_⟩
      rcases hc.warm s with hw | hw
      · have e : (m c s).2 = s := by rw [← hc.alone]; exact hw.alone
        rw [e]
        rcases (ih hcs s).2 with ⟨h1, h2⟩ | h1
        · refine .inl ⟨h1, ?_⟩
          intro c' hc'
          rcases List.mem_cons.1 hc' with rfl | hc'
          · exact hw
          · exact h2 c' hc'
        · exact .inr h1
      · rw [hc.alone] at hw
        right
        rw [keep cs hcs _ hw]; exact hw
  refine ⟨main.1, fun c hc => ?_⟩
  rcases main.2 with ⟨e, h'⟩ | h'
  · rw [e]; exact h' c hc
  · exact (h c hc).quiet _ h'

/-- Threads of queries: nothing but the positional index is written, and a query whose answer does not depend on it is answered. -/
theorem Asks.pool {R : σ → σ → Prop} {W : σ → Prop} (hr : ∀ s, R s s) {step : γ → Prog σ β} {m : γ → Py σ β} {plain : γ → Bool} {threads : List (List γ)} {s : σ}
    (h : ∀ cs ∈ threads, ∀ c ∈ cs, Asks R W (step c) (m c)) (hp : ∀ cs ∈ threads, ∀ c ∈ cs, plain c = true → (step c).Rely (R s) (· = (m c s).1))
    (schedule : List Nat) :
    R s ((Pool.mk s (threads.map (Prog.calls step))).run schedule).shared ∧
    ∀ (i : Nat) cs x, threads[i]? = some cs → ((Pool.mk s (threads.map (Prog.calls step))).run schedule).threads[i]? = some (.ret x) →
      ∃ answers, x = .ok answers ∧ answers.length = cs.length ∧
        ∀ (j : Nat) c a, cs[j]? = some c → plain c = true → answers[j]? = some a → a = (m c s).1 := by
  have hr := Pool.rely (I := R s) (P := fun i x => ∀ cs, threads[i]? = some cs → ∃ answers, x = .ok answers ∧ answers.length = cs.length ∧
        ∀ (j : Nat) c a, cs[j]? = some c → plain c = true → answers[j]? = some a → a = (m c s).1)
    (p := Pool.mk s (threads.map (Prog.calls step))) (hr s) (by
      intro i q e
      rw [List.getElem?_map, Option.map_eq_some_iff] at e
      obtain ⟨cs, e, rfl⟩ := e
      have hcs := List.mem_of_getElem? e
      refine (Prog.Rely.calls (P := fun c x => plain c = true → x = (m c s).1) cs ?_).mono ?_
      · intro c hc
        cases hpc : plain c with
        | true => exact (hp cs hcs c hc hpc).mono fun _ h _ => h
        | false => exact ((h cs hcs c hc).only s).mono fun _ _ h => by cases h
      · rintro x ⟨xs, rfl, h1, h2⟩ cs' e'
        rw [e] at e'; cases e'
        exact ⟨xs, rfl, h1, fun j c a ec hpc ea => h2 j c a ec ea hpc⟩) schedule
  exact ⟨hr.1, fun i cs x e hx => hr.2 i _ hx cs e⟩

end Verif
