import Verif.Model.Writers
import Verif.Proofs.Threads
import Verif.Readers
/-!
# A thread that changes a list while others query it
-/

namespace Verif
variable {σ α κ β γ : Type}

namespace Prog

/-- Others may change the object `s`, but only so that it stays related to `g` by `R`.  The program turns an object that is related to `g` into one that is
related to `g'`, with a result `x` such that `P x g'`. -/
def Sim (R : σ → σ → Prop) (P : Except PyErr β → σ → Prop) : Prog σ β → σ → Prop
  | ret x, g => P x g
  | read k, g => ∀ s, R s g → Sim R P (k s) g
  | write f k, g => ∃ g', (∀ s, R s g → R (f s) g') ∧ Sim R P k g'

theorem Sim.mono {R : σ → σ → Prop} {P Q : Except PyErr β → σ → Prop} {m : Prog σ β} {g : σ} (h : m.Sim R P g) (hq : ∀ x g, P x g → Q x g) :
    m.Sim R Q g := by
  induction m generalizing g with
  | ret x => exact hq x g h
  | read k ih => exact fun s hs => ih s (h s hs)
  | write f k ih => obtain ⟨g', h1, h2⟩ := h; exact ⟨g', h1, ih h2⟩

theorem Sim.bind {R : σ → σ → Prop} {P : Except PyErr β → σ → Prop} {Q : Except PyErr γ → σ → Prop} {m : Prog σ β} {f : β → Prog σ γ} {g : σ}
    (h : m.Sim R P g) (hf : ∀ b g', P (.ok b) g' → (f b).Sim R Q g') (he : ∀ e g', P (.error e) g' → Q (.error e) g') : (m >>= f).Sim R Q g := by
  rw [bind_eq]
  induction m generalizing g with
  | ret x =>
    cases x with
    | ok b => exact hf b g h
    | error e => exact he e g h
  | read k ih => exact fun s hs => ih s (h s hs)
  | write w k ih => obtain ⟨g', h1, h2⟩ := h; exact ⟨g', h1, ih h2⟩

theorem Sim.attempt {R : σ → σ → Prop} {P : Except PyErr β → σ → Prop} {m : Prog σ β} {g : σ} (h : m.Sim R P g) :
    m.attempt.Sim R (fun r g => ∃ x, r = .ok x ∧ P x g) g := by
  induction m generalizing g with
  | ret x => exact ⟨x, rfl, h⟩
  | read k ih => exact fun s hs => ih s (h s hs)
  | write f k ih => obtain ⟨g', h1, h2⟩ := h; exact ⟨g', h1, ih h2⟩

/-- A program that keeps the relation. -/
theorem Sim.of_rely {R : σ → σ → Prop} {P : Except PyErr β → Prop} {m : Prog σ β} {g : σ} (h : m.Rely (R · g) P) :
    m.Sim R (fun x g' => P x ∧ g' = g) g := by
  induction m with
  | ret x => exact ⟨h, rfl⟩
  | read k ih => exact fun s hs => ih s (h s hs)
  | write f k ih => exact ⟨g, h.1, ih h.2⟩

/-- The objects a program passes through that is the only one to write. -/
def passes : Prog σ β → σ → List σ
  | ret _, s => [s]
  | read k, s => passes (k s) s
  | write f k, s => s :: passes k (f s)

theorem mem_passes (m : Prog σ β) (s : σ) : s ∈ m.passes s := by
  induction m generalizing s with
  | ret x => exact List.mem_singleton.2 rfl
  | read k ih => exact ih s s
  | write f k ih => exact List.mem_cons_self

/-- The program never writes. -/
def Silent : Prog σ β → Prop
  | ret _ => True
  | read k => ∀ s, Silent (k s)
  | write _ _ => False

/-- If the program never writes, and every object it looks at has `I`, its result has `P`. -/
def Watch (I : σ → Prop) (P : Except PyErr β → Prop) : Prog σ β → Prop
  | ret x => P x
  | read k => ∀ s, I s → Watch I P (k s)
  | write _ _ => False

theorem Watch.bind {I : σ → Prop} {P : Except PyErr β → Prop} {Q : Except PyErr γ → Prop} {m : Prog σ β} {f : β → Prog σ γ} (h : m.Watch I P)
    (hf : ∀ b, P (.ok b) → (f b).Watch I Q) (he : ∀ e, P (.error e) → Q (.error e)) : (m >>= f).Watch I Q := by
  rw [bind_eq]
  induction m with
  | ret x =>
    cases x with
    | ok b => exact hf b h
    | error e => exact he e h
  | read k ih => exact fun s hs => ih s (h s hs)
  | write g k ih => exact h.elim

theorem Watch.attempt {I : σ → Prop} {P : Except PyErr β → Prop} {m : Prog σ β} (h : m.Watch I P) :
    m.attempt.Watch I (fun r => ∃ x, r = .ok x ∧ P x) := by
  induction m with
  | ret x => exact ⟨x, rfl, h⟩
  | read k ih => exact fun s hs => ih s (h s hs)
  | write f k ih => exact h.elim

theorem Watch.mono {I J : σ → Prop} {P Q : Except PyErr β → Prop} {m : Prog σ β} (h : m.Watch I P) (hi : ∀ s, J s → I s) (hq : ∀ x, P x → Q x) :
    m.Watch J Q := by
  induction m with
  | ret x => exact hq x h
  | read k ih => exact fun s hs => ih s (h s (hi s hs))
  | write f k ih => exact h.elim

theorem Silent.watch {m : Prog σ β} (h : m.Silent) (I : σ → Prop) : m.Watch I fun _ => True := by
  induction m with
  | ret x => trivial
  | read k ih => exact fun s _ => ih s (h s)
  | write f k => exact h.elim

theorem Watch.silent {P : Except PyErr β → Prop} {m : Prog σ β} (h : m.Watch (fun _ => True) P) : m.Silent := by
  induction m with
  | ret x => trivial
  | read k ih => exact fun s => ih s (h s trivial)
  | write f k => exact h.elim

/-- A thread that makes calls one after the other, none of which writes. -/
theorem Watch.calls {I : σ → Prop} {step : γ → Prog σ β} {P : γ → Except PyErr β → Prop} (cs : List γ)
    (h : ∀ c ∈ cs, (step c).Watch I (P c)) :
    (Prog.calls step cs).Watch I fun r => ∃ xs, r = .ok xs ∧ xs.length = cs.length ∧ ∀ (i : Nat) c x, cs[i]? = some c → xs[i]? = some x → P c x := by
  induction cs with
  | nil => exact ⟨[], rfl, rfl, by simp⟩
  | cons c cs ih =>
    refine (h c (by simp)).attempt.bind (fun x hx => (ih fun c hc => h c (by simp [hc])).bind (fun xs hxs => ?_) ?_) ?_
    · obtain ⟨_, e, hx⟩ := hx
      obtain rfl := Except.ok.inj e
      obtain ⟨_, e, h1, h2⟩ := hxs
      obtain rfl := Except.ok.inj e
      refine ⟨x :: xs, rfl, by simp [h1], ?_⟩
      intro i c' x' e1 e2
      cases i with
      | zero =>
        simp only [List.getElem?_cons_zero, Option.some.injEq] at e1 e2
        subst e1 e2; exact hx
      | succ i => exact h2 i c' x' (by simpa using e1) (by simpa using e2)
    · rintro e ⟨_, h, -⟩; cases h
    · rintro e ⟨_, h, -⟩; cases h

end Prog

namespace Pool
open Prog

theorem turn_other {j : Nat} {m' : Prog σ β} {Q : Prog σ β → Prop} (hq : Q m')
    {rest : List (Prog σ β)} (h : ∀ m ∈ rest, Q m) : ∀ m ∈ rest.set j m', Q m := by
  intro m hm
  rcases List.mem_or_eq_of_mem_set hm with hm | rfl
  · exact h m hm
  · exact hq

/-- A turn of another thread than the first. -/
theorem turn_succ (w : Prog σ β) (rest : List (Prog σ β)) (s : σ) (j : Nat) :
    (Pool.mk s (w :: rest)).turn (j + 1) = ⟨((Pool.mk s rest).turn j).shared, w :: ((Pool.mk s rest).turn j).threads⟩ := by
  unfold turn
  simp only [List.getElem?_cons_succ, List.set_cons_succ]
  split <;> rfl

/-- What one turn of a thread does that writes only as `R` allows. -/
theorem turn_writes {R : σ → σ → Prop} (hR : ∀ s, R s s) {rest : List (Prog σ β)} (hr : ∀ m ∈ rest, m.Writes R) (s : σ) (j : Nat) :
    R s ((Pool.mk s rest).turn j).shared ∧ ∀ m ∈ ((Pool.mk s rest).turn j).threads, m.Writes R := by
  unfold turn
  split
  · rename_i k e
    exact ⟨hR s, turn_other (Q := fun m => m.Writes R) (hr _ (List.mem_of_getElem? e) s) hr⟩
  · rename_i f k e
    exact ⟨(hr _ (List.mem_of_getElem? e)).1 s, turn_other (Q := fun m => m.Writes R) (hr _ (List.mem_of_getElem? e)).2 hr⟩
  · exact ⟨hR s, hr⟩

/-- One thread changes the object, the others write only as `R0` allows, which does not matter to `R`. -/
theorem sim {R R0 : σ → σ → Prop} (h0 : ∀ s, R0 s s) (hRR : ∀ s s' g, R0 s s' → R s g → R s' g) {P : Except PyErr β → σ → Prop} (w : Prog σ β)
    (rest : List (Prog σ β)) (s g : σ) (hR : R s g) (hw : w.Sim R P g) (hr : ∀ m ∈ rest, m.Writes R0) (schedule : List Nat) :
    ∃ w' rest' s' g', (Pool.mk s (w :: rest)).run schedule = ⟨s', w' :: rest'⟩ ∧ R s' g' ∧ w'.Sim R P g' := by
  induction schedule generalizing w rest s g with
  | nil => exact ⟨w, rest, s, g, rfl, hR, hw⟩
  | cons j js ih =>
    show ∃ w' rest' s' g', ((Pool.mk s (w :: rest)).turn j).run js = _ ∧ _
    cases j with
    | zero =>
      cases w with
      | ret x => exact ih _ _ _ _ hR hw hr
      | read k => exact ih (k s) rest s g hR (hw s hR) hr
      | write f k =>
        obtain ⟨g', h1, h2⟩ := hw
        exact ih k rest (f s) g' (h1 s hR) h2 hr
    | succ j =>
      obtain ⟨h1, h2⟩ := turn_writes h0 hr s j
      rw [turn_succ]
      exact ih _ _ _ _ (hRR _ _ _ h1 hR) hw h2

/-- One thread changes the object, the others never write: the changes are those the thread makes alone. -/
theorem silent (w : Prog σ β) (rest : List (Prog σ β)) (s : σ) (hr : ∀ m ∈ rest, m.Silent) (schedule : List Nat) :
    ∃ w' rest' s', (Pool.mk s (w :: rest)).run schedule = ⟨s', w' :: rest'⟩ ∧ w'.alone s' = w.alone s ∧ s' ∈ w.passes s := by
  suffices ∃ w' rest' s', (Pool.mk s (w :: rest)).run schedule = ⟨s', w' :: rest'⟩ ∧ w'.alone s' = w.alone s ∧ ∀ t ∈ w'.passes s', t ∈ w.passes s by
    obtain ⟨w', rest', s', h1, h2, h3⟩ := this
    exact ⟨w', rest', s', h1, h2, h3 _ (mem_passes w' s')⟩
  induction schedule generalizing w rest s with
  | nil => exact ⟨w, rest, s, rfl, rfl, fun _ h => h⟩
  | cons j js ih =>
    show ∃ w' rest' s', ((Pool.mk s (w :: rest)).turn j).run js = _ ∧ _
    cases j with
    | zero =>
      cases w with
      | ret x => exact ih _ _ _ hr
      | read k => exact ih (k s) rest s hr
      | write f k =>
        obtain ⟨w', rest', s', h1, h2, h3⟩ := ih k rest (f s) hr
        exact ⟨w', rest', s', h1, h2, fun t ht => List.mem_cons_of_mem _ (h3 t ht)⟩
    | succ j =>
      have h : ((Pool.mk s rest).turn j).shared = s ∧ ∀ m ∈ ((Pool.mk s rest).turn j).threads, m.Silent := by
        unfold turn
        split
        · rename_i k e
          exact ⟨rfl, turn_other (Q := fun m => m.Silent) (hr _ (List.mem_of_getElem? e) s) hr⟩
        · rename_i f k e
          exact (hr _ (List.mem_of_getElem? e)).elim
        · exact ⟨rfl, hr⟩
      rw [turn_succ, h.1]
      exact ih _ _ _ h.2

/-- What the others see while one thread changes the object. -/
theorem watch {P : Nat → Except PyErr β → Prop} {I : σ → Prop} (w : Prog σ β) (rest : List (Prog σ β)) (s : σ) (hI : ∀ t ∈ w.passes s, I t)
    (hr : ∀ (i : Nat) m, rest[i]? = some m → m.Watch I (P i)) (schedule : List Nat) :
    ∀ (i : Nat) m, ((Pool.mk s (w :: rest)).run schedule).threads[i + 1]? = some m → m.Watch I (P i) := by
  induction schedule generalizing w rest s with
  | nil => exact fun i m e => hr i m e
  | cons j js ih =>
    show ∀ (i : Nat) m, (((Pool.mk s (w :: rest)).turn j).run js).threads[i + 1]? = some m → _
    cases j with
    | zero =>
      cases w with
      | ret x => exact ih _ _ _ hI hr
      | read k => exact ih (k s) rest s hI hr
      | write f k => exact ih k rest (f s) (fun t ht => hI t (List.mem_cons_of_mem _ ht)) hr
    | succ j =>
      have h : ((Pool.mk s rest).turn j).shared = s ∧ ∀ (i : Nat) m, ((Pool.mk s rest).turn j).threads[i]? = some m → m.Watch I (P i) := by
        unfold turn
        split
        · rename_i k e
          refine ⟨rfl, fun i m e' => ?_⟩
          rw [List.getElem?_set] at e'
          split at e'
          · rename_i hij; subst hij
            split at e'
            · cases e'; exact hr j _ e s (hI s (mem_passes w s))
            · cases e'
          · exact hr i m e'
        · rename_i f k e
          exact (hr j _ e).elim
        · exact ⟨rfl, hr⟩
      rw [turn_succ, h.1]
      exact ih _ _ _ hI h.2

end Pool

namespace Prog

theorem passes_writes (x : Except PyErr β) (log : List σ) (s : σ) : (Prog.writes x log).passes s = s :: log := by
  induction log generalizing s with
  | nil => rfl
  | cons t log ih => exact congrArg (s :: ·) (ih t)

theorem alone_writes (x : Except PyErr β) (log : List σ) (t s : σ) : (Prog.writes x (log ++ [t])).alone s = (x, t) := by
  induction log generalizing s with
  | nil => rfl
  | cons u log ih => exact ih u

theorem alone_replay (m : IPy σ β) (s : σ) : (Prog.replay m).alone s = m.run s := alone_writes _ _ _ _

theorem passes_replay (m : IPy σ β) (s : σ) : (Prog.replay m).passes s = m.points s ++ [(m.run s).2] := passes_writes _ _ _

theorem passes_attempt (m : Prog σ β) (s : σ) : m.attempt.passes s = m.passes s := by
  induction m generalizing s with
  | ret x => rfl
  | read k ih => exact ih s s
  | write f k ih => exact congrArg (s :: ·) (ih (f s))

theorem passes_bind {m : Prog σ β} {f : β → Prog σ γ} {s t : σ} (h : t ∈ (m >>= f).passes s) :
    t ∈ m.passes s ∨ ∃ b, (m.alone s).1 = .ok b ∧ t ∈ (f b).passes (m.alone s).2 := by
  induction m generalizing s with
  | ret x =>
    cases x with
    | error e => exact .inl h
    | ok b => exact .inr ⟨b, rfl, h⟩
  | read k ih => exact ih s h
  | write g k ih =>
    rcases List.mem_cons.1 h with rfl | h
    · exact .inl (List.mem_cons_self ..)
    · exact (ih (s := g s) h).imp (List.mem_cons_of_mem _) id

theorem alone_calls (step : γ → Prog σ β) (cs : List γ) (s : σ) :
    (Prog.calls step cs).alone s = (.ok (runHist (fun c => (step c).alone) cs s).1, (runHist (fun c => (step c).alone) cs s).2) := by
  induction cs generalizing s with
  | nil => rfl
  | cons c cs ih =>
    rw [Prog.calls, Prog.alone_bind, Py.bind_apply, Prog.alone_attempt]
    show ((calls step cs) >>= _).alone _ = _
    rw [Prog.alone_bind, Py.bind_apply, ih]
    rfl

/-- What an object passes through while calls are made one after the other. -/
theorem passes_calls {step : γ → Prog σ β} (cs : List γ) {s t : σ} (h : t ∈ (Prog.calls step cs).passes s) :
    t = (runHist (fun c => (step c).alone) cs s).2 ∨
      ∃ (i : Nat) (c : γ), cs[i]? = some c ∧ t ∈ (step c).passes (runHist (fun c => (step c).alone) (cs.take i) s).2 := by
  induction cs generalizing s with
  | nil => exact .inl (List.mem_singleton.1 h)
  | cons c cs ih =>
    rcases passes_bind h with h | ⟨x, -, h⟩
    · rw [passes_attempt] at h
      exact .inr ⟨0, c, rfl, h⟩
    · rw [alone_attempt] at h
      have key : t ∈ (calls step cs).passes ((step c).alone s).2 → _ := fun h => ih h
      have h' : t ∈ (calls step cs).passes ((step c).alone s).2 ∨ t = ((calls step cs).alone ((step c).alone s).2).2 := by
        rcases passes_bind h with h | ⟨x, -, h⟩
        · exact .inl h
        · exact .inr (List.mem_singleton.1 h)
      rcases h' with h' | h'
      · rcases key h' with h' | ⟨i, d, e, h'⟩
        · exact .inl h'
        · exact .inr ⟨i + 1, d, e, h'⟩
      · rw [alone_calls] at h'
        exact .inl h'

section Replay
variable {Good : σ → Prop} {real : γ → IPy σ β} {model : γ → Py σ β}

theorem replay_take (cs : List γ) (s : σ) (hs : Good s)
    (h : ∀ c ∈ cs, ∀ s, Good s → ((real c).run s).1 = (model c s).1 ∧ (∀ a, (model c s).1 = .ok a → ((real c).run s).2 = (model c s).2) ∧ Good (model c s).2)
    (hok : ∀ a ∈ (runHist model cs s).1, ∃ o, a = .ok o) (i : Nat) :
    runHist (fun c => (Prog.replay (real c)).alone) (cs.take i) s = runHist model (cs.take i) s := by
  induction cs generalizing s i with
  | nil => rw [List.take_nil]; rfl
  | cons c cs ih =>
    cases i with
    | zero => rfl
    | succ i =>
      obtain ⟨h1, h2, h3⟩ := h c (by simp) s hs
      obtain ⟨o, ho⟩ := hok (model c s).1 (List.mem_cons_self ..)
      have e : (Prog.replay (real c)).alone s = model c s := by
        rw [alone_replay]; exact Prod.ext h1 (h2 o ho)
      have := ih _ h3 (fun c hc => h c (by simp [hc])) (fun a ha => hok a (List.mem_cons_of_mem _ ha)) i
      simp only [List.take_succ_cons, runHist, e, this]

theorem replay_all (cs : List γ) (s : σ) (hs : Good s)
    (h : ∀ c ∈ cs, ∀ s, Good s → ((real c).run s).1 = (model c s).1 ∧ (∀ a, (model c s).1 = .ok a → ((real c).run s).2 = (model c s).2) ∧ Good (model c s).2)
    (hok : ∀ a ∈ (runHist model cs s).1, ∃ o, a = .ok o) :
    (Prog.calls (fun c => Prog.replay (real c)) cs).alone s = (.ok (runHist model cs s).1, (runHist model cs s).2) := by
  have := replay_take cs s hs h hok cs.length
  rw [List.take_length] at this
  rw [alone_calls, this]

theorem _root_.Verif.runHist_succ (step : γ → Py σ β) (cs : List γ) (s : σ) {i : Nat} {c : γ} (e : cs[i]? = some c) :
    (runHist step (cs.take (i + 1)) s).2 = (step c (runHist step (cs.take i) s).2).2 := by
  induction cs generalizing s i with
  | nil => cases e
  | cons d cs ih =>
    cases i with
    | zero => cases e; rfl
    | succ i => exact ih _ e

theorem replay_passes (cs : List γ) (s : σ) (hs : Good s)
    (h : ∀ c ∈ cs, ∀ s, Good s → ((real c).run s).1 = (model c s).1 ∧ (∀ a, (model c s).1 = .ok a → ((real c).run s).2 = (model c s).2) ∧ Good (model c s).2)
    (hok : ∀ a ∈ (runHist model cs s).1, ∃ o, a = .ok o) {t : σ} (ht : t ∈ (Prog.calls (fun c => Prog.replay (real c)) cs).passes s) :
    t = (runHist model cs s).2 ∨ ∃ (i : Nat) (c : γ), cs[i]? = some c ∧ t ∈ (real c).points (runHist model (cs.take i) s).2 := by
  have hr := replay_take cs s hs h hok
  have hl := hr cs.length
  rw [List.take_length] at hl
  rcases passes_calls cs ht with ht | ⟨i, c, e, ht⟩
  · rw [hl] at ht; exact .inl ht
  · rw [passes_replay, List.mem_append, hr i] at ht
    rcases ht with ht | ht
    · exact .inr ⟨i, c, e, ht⟩
    · have e1 : t = (runHist model (cs.take (i + 1)) s).2 := by
        have h2 := congrArg Prod.snd (hr (i + 1))
        rw [runHist_succ _ cs s e, alone_replay, hr i] at h2
        rw [List.mem_singleton.1 ht, ← h2]
      rcases Nat.lt_or_ge (i + 1) cs.length with hlt | hge
      · refine .inr ⟨i + 1, cs[i + 1], List.getElem?_eq_getElem hlt, ?_⟩
        rw [e1]; exact List.mem_cons_self ..
      · rw [List.take_of_length_le hge] at e1
        exact .inl e1

end Replay

end Prog

/-! ## The thread that changes the list -/

/-- The same values, in the same places; the length and the positional index may differ. -/
def SameValues (s s' : St α κ) : Prop := s.load = s'.load ∧ s.lists = s'.lists ∧ s.keys = s'.keys ∧ s.maxes = s'.maxes

theorem SameValues.refl (s : St α κ) : SameValues s s := ⟨rfl, rfl, rfl, rfl⟩
theorem SameValues.symm {s s' : St α κ} (h : SameValues s s') : SameValues s' s := ⟨h.1.symm, h.2.1.symm, h.2.2.1.symm, h.2.2.2.symm⟩
theorem SameValues.trans {s s' s'' : St α κ} (h : SameValues s s') (h' : SameValues s' s'') : SameValues s s'' :=
  ⟨h.1.trans h'.1, h.2.1.trans h'.2.1, h.2.2.1.trans h'.2.2.1, h.2.2.2.trans h'.2.2.2⟩

theorem Prog.Sim.congr {P : Except PyErr β → St α κ → Prop} (hP : ∀ x g g', SameValues g g' → P x g → P x g') {m : Prog (St α κ) β} {g g' : St α κ}
    (h : m.Sim SameValues P g) (hg : SameValues g g') : m.Sim SameValues P g' := by
  induction m generalizing g g' with
  | ret x => exact hP x g g' hg h
  | read k ih => exact fun s hs => ih s (h s (hs.trans hg.symm)) hg
  | write f k ih =>
    obtain ⟨g1, h1, h2⟩ := h
    exact ⟨g1, fun s hs => h1 s (hs.trans hg.symm), h2⟩

/-- The program does to the values what the call `m` of the other model does to the object `g`, whatever happens to the positional index; `slack`: at the end, an
IndexError may come in between. -/
def Follows (slack : Bool) (p : Prog (St α κ) β) (m : Py (St α κ) β) (g : St α κ) : Prop :=
  p.Sim SameValues (fun x g' => SameValues g' (m g).2 ∧ (x = (m g).1 ∨ slack = true ∧ x = .error .indexError)) g

namespace Follows
variable {g : St α κ} {b : Bool}

theorem congr {p : Prog (St α κ) β} {m : Py (St α κ) β} (h : Follows b p m g) {g' : St α κ} (hg : SameValues g g') :
    p.Sim SameValues (fun x g' => SameValues g' (m g).2 ∧ (x = (m g).1 ∨ b = true ∧ x = .error .indexError)) g' :=
  Prog.Sim.congr (fun _ _ _ h1 h2 => ⟨h1.symm.trans h2.1, h2.2⟩) h hg

theorem slack {p : Prog (St α κ) β} {m : Py (St α κ) β} (h : Follows b p m g) : Follows true p m g :=
  Prog.Sim.mono h fun _ _ ⟨h1, h2⟩ => ⟨h1, h2.imp id fun h => ⟨rfl, h.2⟩⟩

theorem lift (x : Except PyErr β) : Follows b (Prog.lift x) (Py.lift x) g := ⟨SameValues.refl _, .inl rfl⟩
theorem raise (e : PyErr) : Follows b (Prog.raise e : Prog (St α κ) β) (Py.raise e) g := ⟨SameValues.refl _, .inl rfl⟩
theorem pure (x : β) : Follows b (Pure.pure x : Prog (St α κ) β) (Pure.pure x : Py (St α κ) β) g := ⟨SameValues.refl _, .inl rfl⟩

theorem bind {p : Prog (St α κ) β} {m : Py (St α κ) β} {fp : β → Prog (St α κ) γ} {f : β → Py (St α κ) γ} (h1 : Follows false p m g)
    (h2 : ∀ c s1, m g = (.ok c, s1) → Follows b (fp c) (f c) s1) : Follows b (p >>= fp) (m >>= f) g := by
  refine Prog.Sim.bind h1 ?_ ?_
  · rintro c g' ⟨hg, hc | ⟨hf, -⟩⟩
    · rcases e : m g with ⟨r, s1⟩
      rw [e] at hc hg
      cases hc
      have := (h2 c s1 e).congr hg.symm
      rw [Py.bind_ok e]; exact this
    · cases hf
  · rintro c g' ⟨hg, hc | ⟨hf, -⟩⟩
    · rcases e : m g with ⟨r, s1⟩
      rw [e] at hc hg
      cases hc
      have e' : (m >>= f) g = (.error c, s1) := by show Py.bind m f g = _; unfold Py.bind; rw [e]
      rw [e']; exact ⟨hg, .inl rfl⟩
    · cases hf

/-- Another look at the object. -/
theorem look {fp : St α κ → Prog (St α κ) γ} {m : Py (St α κ) γ} (h : ∀ s, SameValues s g → Follows b (fp s) m g) : Follows b (Prog.get >>= fp) m g := h

theorem get_bind {fp : St α κ → Prog (St α κ) γ} {f : St α κ → Py (St α κ) γ} (h : ∀ s, SameValues s g → Follows b (fp s) (f g) g) :
    Follows b (Prog.get >>= fp) (Py.get >>= f) g := h

theorem lift_bind {x : Except PyErr β} {fp : β → Prog (St α κ) γ} {f : β → Py (St α κ) γ} (h : ∀ c, x = .ok c → Follows b (fp c) (f c) g) :
    Follows b (Prog.lift x >>= fp) (Py.lift x >>= f) g := bind (lift x) fun c s1 e => by
    obtain ⟨rfl, rfl⟩ := Prod.mk.inj e
    exact h c rfl

theorem write_bind {w w' : St α κ → St α κ} {fp : Unit → Prog (St α κ) γ} {f : Unit → Py (St α κ) γ} (hw : ∀ s, SameValues s g → SameValues (w s) (w' g))
    (h : Follows b (fp ()) (f ()) (w' g)) : Follows b (Prog.modify w >>= fp) (Py.modify w' >>= f) g := ⟨w' g, hw, h⟩

theorem write {w w' : St α κ → St α κ} (hw : ∀ s, SameValues s g → SameValues (w s) (w' g)) : Follows b (Prog.modify w) (Py.modify w') g :=
  ⟨w' g, hw, SameValues.refl _, .inl rfl⟩

theorem ite {c : Prop} [Decidable c] {p p' : Prog (St α κ) β} {m m' : Py (St α κ) β} (h1 : c → Follows b p m g)
    (h2 : ¬ c → Follows b p' m' g) : Follows b (if c then p else p') (if c then m else m') g := by
  by_cases hc : c
  · rw [if_pos hc, if_pos hc]; exact h1 hc
  · rw [if_neg hc, if_neg hc]; exact h2 hc

theorem out {δ : Type} {p : Prog (St α κ) β} {m : Py (St α κ) β} (h : Follows b p m g) (f : β → Out δ) : Follows b (f <$> p) (Spec.out f m) g := by
  refine Prog.Sim.bind h ?_ ?_
  · rintro c g' ⟨hg, hc | ⟨-, hc⟩⟩
    · rcases e : m g with ⟨r, s1⟩
      rw [e] at hc hg
      cases hc
      have e' : Spec.out f m g = (.ok (f c), s1) := by unfold Spec.out; rw [e]
      rw [e']
      exact ⟨hg, .inl rfl⟩
    · cases hc
  · rintro c g' ⟨hg, hc⟩
    refine ⟨by rw [Spec.out_snd]; exact hg, ?_⟩
    rcases hc with hc | ⟨hs, hc⟩
    · left
      rcases e : m g with ⟨r, s1⟩
      rw [e] at hc
      cases hc
      unfold Spec.out; rw [e]
    · cases hc; exact .inr ⟨hs, rfl⟩

/-- After what may end in an IndexError, only the length is changed. -/
theorem then_len {p : Prog (St α κ) Unit} {m : Py (St α κ) Unit} (h : Follows true p m g) (f : Nat → Nat) (f' : St α κ → Nat) :
    Follows true (p >>= fun _ => Threads.changeLen f) (m >>= fun _ => Py.modify fun s => { s with len := f' s }) g := by
  have e' : SameValues (m g).2 ((m >>= fun _ => Py.modify fun s => { s with len := f' s }) g).2 ∧
      ((m >>= fun _ => Py.modify fun s => { s with len := f' s }) g).1 = (m g).1 := by
    rcases e : m g with ⟨r | r, s1⟩
    · have e' : (m >>= fun _ => Py.modify fun s => { s with len := f' s }) g = (.error r, s1) := by
        show Py.bind m _ g = _; unfold Py.bind; rw [e]
      rw [e']; exact ⟨SameValues.refl _, rfl⟩
    · rw [Py.bind_ok e]; exact ⟨⟨rfl, rfl, rfl, rfl⟩, rfl⟩
  refine Prog.Sim.bind h ?_ ?_
  · rintro c g' ⟨hg, hc | ⟨-, hc⟩⟩
    · refine fun s hs => ⟨g', fun s h => ⟨h.1, h.2.1, h.2.2.1, h.2.2.2⟩, hg.trans e'.1, .inl ?_⟩
      rw [e'.2, ← hc]
    · cases hc
  · rintro c g' ⟨hg, hc⟩
    refine ⟨hg.trans e'.1, ?_⟩
    rw [e'.2]
    rcases hc with hc | hc
    · exact .inl hc
    · exact .inr ⟨rfl, hc.2⟩

end Follows

namespace Threads
variable {g : St α κ}

theorem bumpPath_rely (f : Nat → Nat) (c : Nat) (g : St α κ) :
    (bumpPath f c : Prog (St α κ) Unit).Rely (SameValues · g) fun x => x = .ok () ∨ x = .error .indexError := by
  induction c using Nat.strongRecOn with
  | ind c ih =>
    unfold bumpPath
    intro s _
    show Prog.Rely _ _ (Prog.bind (Prog.lift (getItem s.index c)) _)
    rcases e : getItem s.index c with er | x
    · refine .inr ?_
      show Except.error er = _
      unfold getItem at e
      split at e <;> cases e
      rfl
    · refine ⟨fun s h => h, ?_⟩
      show Prog.Rely _ _ (dite _ _ _)
      split
      · exact .inl rfl
      · exact ih _ (by omega)

theorem touchIndex_follows {f : Nat → Nat} {f' : Nat → Except PyErr Nat} {p : Nat} (hg : g.index = []) : Follows true (touchIndex f p) (Core.touchIndex f' p) g := by
  have e : Core.touchIndex f' p g = (.ok (), g) := by
    unfold Core.touchIndex
    rw [Py.get_bind]; rw [if_pos hg]; rfl
  intro s hs
  rw [e]
  show Prog.Sim _ _ (ite _ _ _) _
  split
  · exact ⟨SameValues.refl _, .inl rfl⟩
  · intro s hs
    refine (Prog.Sim.of_rely (bumpPath_rely f _ g)).mono ?_
    rintro x _ ⟨h, rfl⟩
    exact ⟨SameValues.refl _, h.imp id fun h => ⟨rfl, h⟩⟩

/-- The write keeps the relation. -/
macro "same" : tactic => `(tactic| (rintro _ ⟨h1, h2, h3, h4⟩; exact ⟨by first | exact h1 | simp only [h1], by first | exact h2 | simp only [h2], by first | exact h3 | simp only [h3], by first | exact h4 | simp only [h4]⟩))

namespace SL
variable {g : St α α} {E : Env α}

theorem clear_follows : Follows false clear Verif.SL.clear g :=
  ⟨{ g with len := 0 }, by same, { g with len := 0, lists := [] }, by same, { g with len := 0, lists := [], maxes := [] }, by same,
    { g with len := 0, lists := [], maxes := [], index := [] }, by same, { g with len := 0, lists := [], maxes := [], index := [], offset := 0 }, by same,
    SameValues.refl _, .inl rfl⟩

theorem expand_follows (p : Nat) (hg : g.index = []) : Follows true (expand p) (Verif.SL.expand p) g := by
  refine Follows.get_bind fun s hs => ?_
  obtain ⟨hl, h1, h2, h3⟩ := hs
  simp only [hl, h1, h2, h3]
  refine Follows.lift_bind fun l hl => Follows.ite (fun _ => ?_) fun _ => touchIndex_follows hg
  refine Follows.write_bind (by same) <| Follows.lift_bind fun m _ => Follows.lift_bind fun maxes _ => Follows.write_bind (by same) <|
    Follows.write_bind (by same) <| Follows.lift_bind fun m _ => Follows.write_bind (by same) <| Follows.write (by same)

theorem add_follows (v : α) (hg : g.index = []) : Follows true (add E v) (Verif.SL.add E v) g := by
  refine Follows.get_bind fun s hs => ?_
  obtain ⟨hl, h1, h2, h3⟩ := hs
  simp only [hl, h1, h2, h3]
  refine Follows.ite (fun _ => ?_) fun _ => ?_
  · refine Follows.lift_bind fun p _ => Follows.ite (fun _ => ?_) fun _ => ?_
    · refine Follows.look fun s hs => ?_
      obtain ⟨hl, h1, h2, h3⟩ := hs
      simp only [h1]
      exact Follows.lift_bind fun l _ => Follows.write_bind (by same) <| Follows.write_bind (by same) <| Follows.then_len (expand_follows _ (by exact hg)) _ _
    · refine Follows.look fun s hs => ?_
      obtain ⟨hl, h1, h2, h3⟩ := hs
      simp only [h1]
      exact Follows.lift_bind fun l _ => Follows.lift_bind fun l _ => Follows.write_bind (by same) <| Follows.then_len (expand_follows _ (by exact hg)) _ _
  · exact Follows.write_bind (by same) <| (Follows.write (by same)).then_len _ _

/-- What is left of a call on the other side only. -/
theorem _root_.Verif.Follows.right {b : Bool} {x : Except PyErr γ} {p : Prog (St α κ) β} {f : γ → Py (St α κ) β} {g : St α κ} {c : γ} (hx : x = .ok c) (h : Follows b p (f c) g) :
    Follows b p (Py.lift x >>= f) g := by subst hx; exact h

theorem _root_.Verif.Follows.changeLen {b : Bool} {fn : Nat → Nat} {n : St α κ → Nat} {fp : Unit → Prog (St α κ) γ} {f : Unit → Py (St α κ) γ} {g : St α κ}
    (h : Follows b (fp ()) (f ()) { g with len := n g }) :
    Follows b (changeLen fn >>= fp) (Py.modify (fun s => { s with len := n s }) >>= f) g := fun _ _ => ⟨{ g with len := n g }, by same, h⟩

theorem delete_follows (p i : Nat) (hg : g.index = []) (hn : g.len ≠ 0) : Follows true (delete p i) (Verif.SL.delete p i) g := by
  obtain ⟨n, hn⟩ : ∃ n, g.len = n + 1 := ⟨g.len - 1, by omega⟩
  refine Follows.get_bind fun s hs => ?_
  obtain ⟨hl, h1, h2, h3⟩ := hs
  simp only [hl, h1, h3]
  refine Follows.lift_bind fun l _ => Follows.lift_bind fun l' _ => Follows.write_bind (by same) <|
    Follows.right (c := n) (by rw [hn]; rfl) <| Follows.changeLen (n := fun _ => n) <|
    Follows.ite (fun _ => ?_) fun _ => Follows.ite (fun _ => ?_) fun _ => Follows.ite (fun _ => ?_) fun _ => ?_
  · exact Follows.lift_bind fun m _ => Follows.lift_bind fun maxes _ => Follows.write_bind (by same) <| touchIndex_follows hg
  · refine Follows.get_bind fun s hs => ?_
    obtain ⟨hl, h1, h2, h3⟩ := hs
    simp only [h1, h3]
    refine Follows.lift_bind fun a _ => Follows.lift_bind fun b _ => Follows.write_bind (by same) <| Follows.lift_bind fun m _ =>
      Follows.lift_bind fun maxes _ => Follows.write_bind (by same) <| Follows.get_bind fun s hs => ?_
    obtain ⟨hl, h1, h2, h3⟩ := hs
    simp only [h1, h3]
    exact Follows.lift_bind fun lists _ => Follows.write_bind (by same) <| Follows.lift_bind fun maxes _ => Follows.write_bind (by same) <|
      Follows.write_bind (by same) <| expand_follows _ rfl
  · exact Follows.lift_bind fun m _ => Follows.lift_bind fun maxes _ => Follows.write (by same)
  · refine Follows.get_bind fun s hs => ?_
    obtain ⟨hl, h1, h2, h3⟩ := hs
    simp only [h1, h3]
    exact Follows.lift_bind fun lists _ => Follows.write_bind (by same) <| Follows.lift_bind fun maxes _ => Follows.write_bind (by same) <|
      Follows.write (by same)

theorem discard_follows (v : α) (hg : g.index = []) (hn : g.maxes ≠ [] → g.len ≠ 0) : Follows true (discard E v) (Verif.SL.discard E v) g := by
  refine Follows.get_bind fun s hs => ?_
  obtain ⟨hl, h1, h2, h3⟩ := hs
  simp only [h1, h3]
  refine Follows.ite (fun _ => Follows.pure _) fun hm => Follows.lift_bind fun p _ => Follows.ite (fun _ => Follows.pure _) fun _ =>
    Follows.lift_bind fun l _ => Follows.lift_bind fun i _ => Follows.lift_bind fun x _ => Follows.lift_bind fun b _ =>
    Follows.ite (fun _ => delete_follows _ _ hg (hn hm)) fun _ => Follows.pure _

theorem remove_follows (v : α) (hg : g.index = []) (hn : g.maxes ≠ [] → g.len ≠ 0) : Follows true (remove E v) (Verif.SL.remove E v) g := by
  refine Follows.get_bind fun s hs => ?_
  obtain ⟨hl, h1, h2, h3⟩ := hs
  simp only [h1, h3]
  refine Follows.ite (fun _ => Follows.raise _) fun hm => Follows.lift_bind fun p _ => Follows.ite (fun _ => Follows.raise _) fun _ =>
    Follows.lift_bind fun l _ => Follows.lift_bind fun i _ => Follows.lift_bind fun x _ => Follows.lift_bind fun b _ =>
    Follows.ite (fun _ => delete_follows _ _ hg (hn hm)) fun _ => Follows.raise _

end SL
namespace SKL
variable {g : St α κ} {K : KEnv α κ}

theorem clear_follows : Follows false clear (Verif.SKL.clear : Py (St α κ) Unit) g :=
  ⟨{ g with len := 0 }, by same, { g with len := 0, lists := [] }, by same, { g with len := 0, lists := [], keys := [] }, by same,
    { g with len := 0, lists := [], keys := [], maxes := [] }, by same, { g with len := 0, lists := [], keys := [], maxes := [], index := [] }, by same,
    SameValues.refl _, .inl rfl⟩

theorem expand_follows (p : Nat) (hg : g.index = []) : Follows true (expand p) (Verif.SKL.expand p) g := by
  refine Follows.get_bind fun s hs => ?_
  obtain ⟨hl, h1, h2, h3⟩ := hs
  simp only [hl, h1, h2, h3]
  refine Follows.lift_bind fun ks hl => Follows.ite (fun _ => ?_) fun _ => touchIndex_follows hg
  exact Follows.lift_bind fun l _ => Follows.write_bind (by same) <| Follows.write_bind (by same) <| Follows.lift_bind fun m _ =>
    Follows.lift_bind fun maxes _ => Follows.write_bind (by same) <| Follows.write_bind (by same) <|
    Follows.write_bind (by same) <| Follows.lift_bind fun m _ => Follows.write_bind (by same) <| Follows.write (by same)

theorem add_follows (v : α) (hg : g.index = []) : Follows true (add K v) (Verif.SKL.add K v) g := by
  refine Follows.get_bind fun s hs => ?_
  obtain ⟨hl, h1, h2, h3⟩ := hs
  simp only [h1, h2, h3]
  refine Follows.lift_bind fun k _ => Follows.ite (fun _ => ?_) fun _ => ?_
  · refine Follows.lift_bind fun p _ => Follows.ite (fun _ => ?_) fun _ => ?_
    · exact Follows.lift_bind fun l _ => Follows.write_bind (by same) <| Follows.lift_bind fun l _ => Follows.write_bind (by same) <|
        Follows.write_bind (by same) <| Follows.then_len (expand_follows _ (by exact hg)) _ _
    · exact Follows.lift_bind fun ks _ => Follows.lift_bind fun i _ => Follows.lift_bind fun l _ => Follows.write_bind (by same) <|
        Follows.write_bind (by same) <| Follows.then_len (expand_follows _ (by exact hg)) _ _
  · exact Follows.write_bind (by same) <| Follows.write_bind (by same) <| Follows.then_len (Follows.write (by same)) _ _

theorem delete_follows (p i : Nat) (hg : g.index = []) (hn : g.len ≠ 0) : Follows true (delete p i) (Verif.SKL.delete p i) g := by
  obtain ⟨n, hn⟩ : ∃ n, g.len = n + 1 := ⟨g.len - 1, by omega⟩
  refine Follows.get_bind fun s hs => ?_
  obtain ⟨hl, h1, h2, h3⟩ := hs
  simp only [hl, h1, h2, h3]
  refine Follows.lift_bind fun ks _ => Follows.lift_bind fun l _ => Follows.lift_bind fun ks' _ => Follows.write_bind (by same) <|
    Follows.lift_bind fun l' _ => Follows.write_bind (by same) <|
    Follows.right (c := n) (by rw [hn]; rfl) <| Follows.changeLen (n := fun _ => n) <|
    Follows.ite (fun _ => ?_) fun _ => Follows.ite (fun _ => ?_) fun _ => Follows.ite (fun _ => ?_) fun _ => ?_
  · exact Follows.lift_bind fun m _ => Follows.lift_bind fun maxes _ => Follows.write_bind (by same) <| touchIndex_follows hg
  · refine Follows.get_bind fun s hs => ?_
    obtain ⟨hl, h1, h2, h3⟩ := hs
    simp only [h1, h2, h3]
    refine Follows.lift_bind fun ka _ => Follows.lift_bind fun kb _ => Follows.write_bind (by same) <|
      Follows.lift_bind fun a _ => Follows.lift_bind fun b _ => Follows.write_bind (by same) <| Follows.lift_bind fun m _ =>
      Follows.lift_bind fun maxes _ => Follows.write_bind (by same) <| Follows.get_bind fun s hs => ?_
    obtain ⟨hl, h1, h2, h3⟩ := hs
    simp only [h1, h2, h3]
    exact Follows.lift_bind fun lists _ => Follows.write_bind (by same) <| Follows.lift_bind fun keys _ => Follows.write_bind (by same) <|
      Follows.lift_bind fun maxes _ => Follows.write_bind (by same) <| Follows.write_bind (by same) <| expand_follows _ rfl
  · exact Follows.lift_bind fun m _ => Follows.lift_bind fun maxes _ => Follows.write (by same)
  · refine Follows.get_bind fun s hs => ?_
    obtain ⟨hl, h1, h2, h3⟩ := hs
    simp only [h1, h2, h3]
    exact Follows.lift_bind fun lists _ => Follows.write_bind (by same) <| Follows.lift_bind fun keys _ => Follows.write_bind (by same) <|
      Follows.lift_bind fun maxes _ => Follows.write_bind (by same) <| Follows.write (by same)

theorem find_same {s g : St α κ} (h : SameValues s g) (v : α) : (Verif.SKL.find K v s).1 = (Verif.SKL.find K v g).1 := by
  obtain ⟨hl, h1, h2, h3⟩ := h
  unfold Verif.SKL.find
  rw [Py.get_bind, Py.get_bind]
  simp only [h1, h2, h3]
  by_cases hm : g.maxes = []
  · simp only [if_pos hm]; rfl
  · simp only [if_neg hm]
    rcases K.key v with e | k
    · rfl
    · show ((Py.lift (bisectLeft K.lt g.maxes k) >>= _) s).1 = ((Py.lift (bisectLeft K.lt g.maxes k) >>= _) g).1
      rcases bisectLeft K.lt g.maxes k with e | p
      · rfl
      · show ((ite _ _ _ : Py _ _) s).1 = ((ite _ _ _ : Py _ _) g).1
        split
        · rfl
        · rcases getItem g.keys p with e | ks
          · rfl
          · show ((Py.lift (bisectLeft K.lt ks k) >>= _) s).1 = ((Py.lift (bisectLeft K.lt ks k) >>= _) g).1
            rcases bisectLeft K.lt ks k with e | i <;> rfl

theorem find_bind {b : Bool} {v : α} {fp : Option (Nat × Nat) → Prog (St α κ) β} {f : Option (Nat × Nat) → Py (St α κ) β}
    (h : ∀ r, (Verif.SKL.find K v g).1 = .ok r → Follows b (fp r) (f r) g) : Follows b (Prog.look (Verif.SKL.find K v) >>= fp) (Verif.SKL.find K v >>= f) g := by
  refine Follows.bind (fun s hs => ?_) fun r s1 e => ?_
  · show _ ∧ _
    rw [Verif.SKL.find_stays K v g, find_same hs]
    exact ⟨SameValues.refl _, .inl rfl⟩
  · have : s1 = g := by have := Verif.SKL.find_stays K v g; rw [e] at this; exact this
    subst this
    exact h r (by rw [e])

theorem find_some {v : α} {r : Nat × Nat} (h : (Verif.SKL.find K v g).1 = .ok (some r)) : g.maxes ≠ [] := by
  intro hm
  unfold Verif.SKL.find at h
  rw [Py.get_bind, if_pos hm] at h
  cases h

theorem discard_follows (v : α) (hg : g.index = []) (hn : g.maxes ≠ [] → g.len ≠ 0) : Follows true (discard K v) (Verif.SKL.discard K v) g := by
  refine find_bind fun r hr => ?_
  rcases r with _ | ⟨p, i⟩
  · exact Follows.pure _
  · exact delete_follows p i hg (hn (find_some hr))

theorem remove_follows (v : α) (hg : g.index = []) (hn : g.maxes ≠ [] → g.len ≠ 0) : Follows true (remove K v) (Verif.SKL.remove K v) g := by
  refine find_bind fun r hr => ?_
  rcases r with _ | ⟨p, i⟩
  · exact Follows.raise _
  · exact delete_follows p i hg (hn (find_some hr))

end SKL
end Threads

/-- The answer depends neither on the length nor on the positional index. -/
def Lenless (m : Py (St α κ) β) : Prop := ∀ s n i o, m { s with len := n, index := i, offset := o } = ((m s).1, { s with len := n, index := i, offset := o })

namespace Lenless

theorem pure (b : β) : Lenless (Pure.pure b : Py (St α κ) β) := fun _ _ _ _ => rfl
theorem raise (e : PyErr) : Lenless (Py.raise e : Py (St α κ) β) := fun _ _ _ _ => rfl
theorem lift (x : Except PyErr β) : Lenless (Py.lift x : Py (St α κ) β) := fun _ _ _ _ => rfl

theorem bind {m : Py (St α κ) β} {f : β → Py (St α κ) γ} (h1 : Lenless m) (h2 : ∀ b, Lenless (f b)) : Lenless (m >>= f) := by
  intro s n i o
  have h := h1 s s.len s.index s.offset
  rw [Py.bind_apply, Py.bind_apply, h1 s n i o]
  rcases hm : m s with ⟨_ | b, s'⟩
  · rfl
  · have : m s = ((m s).1, s) := h
    rw [hm] at this
    obtain rfl : s' = s := congrArg Prod.snd this
    exact h2 b s' n i o

theorem get_bind {f : St α κ → Py (St α κ) γ} (h : ∀ s, Lenless (f s)) (hf : ∀ s n i o, f { s with len := n, index := i, offset := o } = f s) :
    Lenless (Py.get >>= f) := by
  intro s n i o
  show f _ _ = ((f s s).1, _)
  rw [hf]; exact h s s n i o

theorem ite {c : Prop} [Decidable c] {m m' : Py (St α κ) β} (h1 : Lenless m) (h2 : Lenless m') : Lenless (if c then m else m') := by
  split <;> assumption

theorem out {δ : Type} {m : Py (St α κ) β} (h : Lenless m) (f : β → Out δ) : Lenless (Spec.out f m) := bind h fun b => pure (f b)

theorem read {f : St α κ → Except PyErr β} (hf : ∀ s n i o, f { s with len := n, index := i, offset := o } = f s) : Lenless (ListAPI.read f) := by
  intro s n i o
  show (f _, _) = _
  rw [hf]; rfl

theorem values {L : ListAPI (St α κ) α} {f : St α κ → Except PyErr (St α κ)} (hf : ∀ s n i o, f { s with len := n, index := i, offset := o } = f s) : Lenless (L.valuesOf f) := by
  intro s n i o
  unfold ListAPI.valuesOf
  rw [hf]
  cases f s <;> rfl

theorem follows {m : Py (St α κ) β} (h : Lenless m) (g : St α κ) : Follows true (Prog.look m) m g := by
  rintro ⟨n, ld, l, ks, mx, i, o⟩ ⟨h1, h2, h3, h4⟩
  cases h1; cases h2; cases h3; cases h4
  have e := h g n i o
  have e' : (m g).2 = g := congrArg Prod.snd (h g g.len g.index g.offset)
  refine ⟨?_, .inl ?_⟩
  · rw [e']; exact SameValues.refl _
  · have e1 := congrArg Prod.fst e
    exact e1

end Lenless

/-- Decompose a do-block. -/
macro "lenless" : tactic => `(tactic| repeat' (with_reducible first
  | refine Lenless.get_bind (fun _ => ?_) (fun _ _ _ _ => by with_unfolding_all rfl)
  | refine Lenless.bind ?_ fun _ => ?_
  | refine Lenless.ite ?_ ?_
  | exact Lenless.pure _
  | exact Lenless.raise _
  | exact Lenless.lift _
  | solve_by_elim only [*]
  | split
  | dsimp only))

theorem SL.contains_lenless (E : Env α) (v : α) : Lenless (SL.contains E v) := by unfold SL.contains; lenless
theorem SL.irange_lenless (E : Env α) (lo hi : Option α) (a b r : Bool) : Lenless (SL.irange E lo hi a b r) := by
  unfold SL.irange SL.irangeWith; lenless
theorem SKL.find_lenless (K : KEnv α κ) (v : α) : Lenless (SKL.find K v) := by unfold SKL.find; lenless
theorem SKL.contains_lenless (K : KEnv α κ) (v : α) : Lenless (SKL.contains K v) := by
  have := SKL.find_lenless K
  unfold SKL.contains; lenless
theorem SKL.irange_key_lenless (K : KEnv α κ) (lo hi : Option κ) (a b r : Bool) : Lenless (SKL.irange_key K lo hi a b r) := by
  unfold SKL.irange_key SKL.irange_keyWith; lenless
theorem SKL.irange_lenless (K : KEnv α κ) (lo hi : Option α) (a b r : Bool) : Lenless (SKL.irange K lo hi a b r) := by
  have := SKL.irange_key_lenless K
  unfold SKL.irange SKL.irangeWith; lenless
theorem SKL.count_lenless (K : KEnv α κ) (v : α) : Lenless (SKL.count K v) := by unfold SKL.count; lenless

namespace Threads

theorem SL.query_follows (E : Env α) {op : Op α} (hq : op.isQuery = true) (hb : op.byValue = true) (g : St α α) :
    Follows true (SL.query E op) ((Verif.SL.api E).step op) g := by
  cases op with
  | add | update | clear | discard | remove | delInt | delSlice | pop | iadd | imul | reset | unsupported => cases hq
  | getInt | getSlice | bisectLeft | bisectRight | count | index | islice | len | compare => cases hb
  | contains v => exact ((Verif.SL.contains_lenless E v).out _).follows g
  | irange lo hi a b r => exact ((Verif.SL.irange_lenless E lo hi a b r).out _).follows g
  | iter => exact Lenless.follows (fun _ _ _ _ => rfl) g
  | reversed => exact Lenless.follows (fun _ _ _ _ => rfl) g
  | copy => exact ((Lenless.values fun _ _ _ _ => rfl).out _).follows g
  | concat xs => exact ((Lenless.values fun _ _ _ _ => rfl).out _).follows g
  | mul n => exact ((Lenless.values fun _ _ _ _ => rfl).out _).follows g

theorem SKL.query_follows (K : KEnv α κ) {op : KOp α κ} (hq : op.isQuery = true) (hb : op.byValue = true) (g : St α κ) :
    Follows true (SKL.query K op) (Verif.SKL.kstep K op) g := by
  cases op with
  | op o =>
    cases o with
    | add | update | clear | discard | remove | delInt | delSlice | pop | iadd | imul | reset | unsupported => cases hq
    | getInt | getSlice | bisectLeft | bisectRight | index | islice | len | compare => cases hb
    | contains v => exact ((Verif.SKL.contains_lenless K v).out _).follows g
    | irange lo hi a b r => exact ((Verif.SKL.irange_lenless K lo hi a b r).out _).follows g
    | count v => exact ((Lenless.bind (Verif.SKL.count_lenless K v) fun n => Lenless.pure (n : Int)).out _).follows g
    | iter => exact Lenless.follows (fun _ _ _ _ => rfl) g
    | reversed => exact Lenless.follows (fun _ _ _ _ => rfl) g
    | copy => exact ((Lenless.values fun _ _ _ _ => rfl).out _).follows g
    | concat xs => exact ((Lenless.values fun _ _ _ _ => rfl).out _).follows g
    | mul n => exact ((Lenless.values fun _ _ _ _ => rfl).out _).follows g
  | bisectKeyLeft | bisectKeyRight => cases hb
  | irangeKey lo hi a b r => exact ((Verif.SKL.irange_key_lenless K lo hi a b r).out _).follows g

end Threads

/-! ## Its calls, one after the other -/

theorem Inv.unindexed {k : α → κ} {lt : κ → κ → Bool} {keyed : Bool} {s : St α κ} (h : Inv k lt keyed s) : Inv k lt keyed { s with index := [] } :=
  { h with index_ok := fun h => absurd rfl h }

theorem Inv.len_ne {k : α → κ} {lt : κ → κ → Bool} {keyed : Bool} {s : St α κ} (h : Inv k lt keyed s) (hm : s.maxes ≠ []) : s.len ≠ 0 := by
  intro h0
  have h1 := h.len_eq.symm.trans h0
  cases e : s.lists with
  | nil =>
    have := h.maxes.length_eq
    rw [e] at this
    exact hm (List.length_eq_zero_iff.1 this)
  | cons l L =>
    have h2 := h.ne_nil l (by rw [e]; simp)
    rw [e, List.flatten_cons, List.length_append] at h1
    exact h2 (List.length_eq_zero_iff.1 (by omega))

theorem Follows.calls {I : St α κ → Prop} (hI : ∀ g, I g → I { g with index := [] }) {step : γ → Prog (St α κ) β} {m : γ → Py (St α κ) β}
    {f : γ → Py (List α) β} (cs : List γ) (hf : ∀ c ∈ cs, ∀ g : St α κ, I g → g.index = [] → Follows true (step c) (m c) g)
    (hm : ∀ c ∈ cs, Refines I Core.iter (m c) (f c)) (g : St α κ) (hg : I g) :
    (Prog.calls step cs).Sim SameValues (fun x g' => Core.iter g' = (runHist f cs (Core.iter g)).2 ∧
      ∃ answers, x = .ok answers ∧ answers.length = cs.length ∧
        ∀ (j : Nat) a b, answers[j]? = some a → (runHist f cs (Core.iter g)).1[j]? = some b → a = b ∨ a = .error .indexError) g := by
  induction cs generalizing g with
  | nil => exact ⟨rfl, [], rfl, rfl, fun j a b h => nomatch h⟩
  | cons c cs ih =>
    have hi := hI g hg
    have h1 := (hf c (by simp) _ hi rfl).congr (g' := g) ⟨rfl, rfl, rfl, rfl⟩
    obtain ⟨r1, r2, r3⟩ := hm c (by simp) _ hi
    have e0 : Core.iter { g with index := [] } = Core.iter g := rfl
    rw [e0] at r1 r2
    refine Prog.Sim.bind h1.attempt ?_ ?_
    · rintro b g' ⟨x, hb, hg', hx⟩
      cases hb
      rw [r1] at hx
      have h2 := ih (fun c hc => hf c (by simp [hc])) (fun c hc => hm c (by simp [hc])) _ r3
      rw [r2] at h2
      have h3 := Prog.Sim.congr (fun x g1 g2 hs h => ⟨by rw [← h.1]; unfold Core.iter; rw [hs.2.1], h.2⟩) h2 hg'.symm
      refine Prog.Sim.bind h3 ?_ ?_
      · rintro xs g'' ⟨k1, answers, hxs, hl, k2⟩
        cases hxs
        refine ⟨k1, _ :: xs, rfl, by simp [hl], ?_⟩
        intro j a b ha hb
        cases j with
        | zero => cases ha; cases hb; exact hx.imp id And.right
        | succ j => exact k2 j a b ha hb
      · rintro e g'' ⟨-, _, h, -⟩; cases h
    · rintro e g' ⟨_, h, -⟩; cases h

namespace Threads

theorem SL.change_follows {E : Env α} {lt : α → α → Bool} {g : St α α} (hg : Inv id lt false g) (h0 : g.index = []) {op : Op α} (hb : op.byValue = true) :
    Follows true (SL.change E op) ((Verif.SL.api E).step op) g := by
  cases op with
  | add v => exact (SL.add_follows v h0).out _
  | discard v => exact (SL.discard_follows v h0 hg.len_ne).out _
  | remove v => exact (SL.remove_follows v h0 hg.len_ne).out _
  | clear => exact SL.clear_follows.slack.out _
  | _ => first | exact SL.query_follows E rfl hb g | cases hb

theorem SKL.change_follows {K : KEnv α κ} {key : α → κ} {klt : κ → κ → Bool} {g : St α κ} (hg : Inv key klt true g) (h0 : g.index = []) {op : KOp α κ} (hb : op.byValue = true) :
    Follows true (SKL.change K op) (Verif.SKL.kstep K op) g := by
  cases op with
  | op o =>
    cases o with
    | add v => exact (SKL.add_follows v h0).out _
    | discard v => exact (SKL.discard_follows v h0 hg.len_ne).out _
    | remove v => exact (SKL.remove_follows v h0 hg.len_ne).out _
    | clear => exact SKL.clear_follows.slack.out _
    | _ => first | exact SKL.query_follows K rfl hb g | cases hb
  | irangeKey => exact SKL.query_follows K rfl hb g
  | _ => cases hb

end Threads

/-! ## The programs, alone -/

/-- If the call returns or raises ValueError, the program does the same when it runs alone. -/
def Does (p : Prog (St α κ) β) (m : Py (St α κ) β) (s : St α κ) : Prop :=
  ((∃ c, (m s).1 = .ok c) ∨ (m s).1 = .error .valueError) → p.alone s = m s

namespace Does
variable {s : St α κ}

theorem lift (x : Except PyErr β) : Does (Prog.lift x) (Py.lift x) s := fun _ => rfl
theorem raise (e : PyErr) : Does (Prog.raise e : Prog (St α κ) β) (Py.raise e) s := fun _ => rfl
theorem pure (x : β) : Does (Pure.pure x : Prog (St α κ) β) (Pure.pure x : Py (St α κ) β) s := fun _ => rfl
theorem write (w : St α κ → St α κ) : Does (Prog.modify w) (Py.modify w) s := fun _ => rfl

theorem bind {p : Prog (St α κ) β} {m : Py (St α κ) β} {fp : β → Prog (St α κ) γ} {f : β → Py (St α κ) γ} (h1 : Does p m s)
    (h2 : ∀ c s1, m s = (.ok c, s1) → Does (fp c) (f c) s1) : Does (p >>= fp) (m >>= f) s := by
  intro h
  rw [Prog.alone_bind]
  rcases e : m s with ⟨er | c, s1⟩
  · rw [Py.bind_error e] at h ⊢
    refine Py.bind_error ?_
    rw [h1 (.inr ?_)]
    · exact e
    · rw [e]
      rcases h with ⟨_, h⟩ | h
      · cases h
      · exact congrArg Except.error (Except.error.inj h)
  · rw [Py.bind_ok e] at h ⊢
    have e' : p.alone s = (.ok c, s1) := by rw [h1 (.inl ⟨c, by rw [e]⟩), e]
    rw [Py.bind_ok e']
    exact h2 c s1 e h

theorem look {fp : St α κ → Prog (St α κ) γ} {m : Py (St α κ) γ} (h : Does (fp s) m s) : Does (Prog.get >>= fp) m s := h

theorem get_bind {fp : St α κ → Prog (St α κ) γ} {f : St α κ → Py (St α κ) γ} (h : Does (fp s) (f s) s) :
    Does (Prog.get >>= fp) (Py.get >>= f) s := h

theorem lift_bind {x : Except PyErr β} {fp : β → Prog (St α κ) γ} {f : β → Py (St α κ) γ} (h : ∀ c, x = .ok c → Does (fp c) (f c) s) :
    Does (Prog.lift x >>= fp) (Py.lift x >>= f) s := bind (lift x) fun c s1 e => by
    obtain ⟨rfl, rfl⟩ := Prod.mk.inj e
    exact h c rfl

theorem write_bind {w : St α κ → St α κ} {fp : Unit → Prog (St α κ) γ} {f : Unit → Py (St α κ) γ} (h : Does (fp ()) (f ()) (w s)) :
    Does (Prog.modify w >>= fp) (Py.modify w >>= f) s := h

theorem ite {c : Prop} [Decidable c] {p p' : Prog (St α κ) β} {m m' : Py (St α κ) β} (h1 : c → Does p m s)
    (h2 : ¬ c → Does p' m' s) : Does (if c then p else p') (if c then m else m') s := by
  by_cases hc : c
  · rw [if_pos hc, if_pos hc]; exact h1 hc
  · rw [if_neg hc, if_neg hc]; exact h2 hc

theorem out {δ : Type} {p : Prog (St α κ) β} {m : Py (St α κ) β} (h : Does p m s) (f : β → Out δ) : Does (f <$> p) (Spec.out f m) s :=
  bind h fun c _ _ => pure (f c)

theorem then_len {p : Prog (St α κ) Unit} {m : Py (St α κ) Unit} (h : Does p m s) :
    Does (p >>= fun _ => Threads.changeLen (· + 1)) (m >>= fun _ => Py.modify fun s => { s with len := s.len + 1 }) s :=
  bind h fun _ _ _ _ => rfl

/-- `_len -= 1` -/
theorem less {s0 : St α κ} {fp : Unit → Prog (St α κ) γ} {f : Unit → Py (St α κ) γ} (h0 : s0.len = s.len) (h : Does (fp ()) (f ()) { s with len := s.len - 1 }) :
    Does (Threads.changeLen (· - 1) >>= fp) (Py.lift (Core.decr s0.len) >>= fun n => Py.modify (fun s => { s with len := n }) >>= f) s := by
  intro h'
  rw [h0] at h' ⊢
  rcases e : Core.decr s.len with er | n
  · rw [e] at h'
    have : er ≠ .valueError := by
      rintro rfl
      unfold Core.decr at e
      split at e <;> cases e
    rcases h' with ⟨_, h'⟩ | h'
    · cases h'
    · exact absurd (Except.error.inj h') this
  · have hn : s.len - 1 = n := by
      unfold Core.decr at e
      split at e
      · cases e
      · rename_i e2
        rw [e2]; cases e; rfl
    rw [e] at h'
    rw [hn] at h
    show (fp ()).alone { s with len := s.len - 1 } = f () { s with len := n }
    rw [hn]
    exact h h'

end Does

namespace Threads

theorem bumpPath_does {f : Nat → Nat} {f' : Nat → Except PyErr Nat} (hf : ∀ x y, f' x = .ok y → f x = y) (c : Nat) (s : St α κ) {ix : List Nat}
    (h : Core.bumpPath f' s.index c = .ok ix) : (bumpPath f c : Prog (St α κ) Unit).alone s = (.ok (), { s with index := ix }) := by
  induction c using Nat.strongRecOn generalizing s with
  | ind c ih =>
    unfold Core.bumpPath at h
    unfold bumpPath
    split at h
    · cases h
    rename_i x e
    split at h
    · cases h
    rename_i y e'
    have key : ∀ (rest : Prog (St α κ) Unit), Prog.alone (Prog.get >>= fun s => Prog.lift (getItem s.index c) >>= fun x =>
        Prog.modify (fun s => { s with index := s.index.set c (f x) }) >>= fun _ => rest) s = rest.alone { s with index := s.index.set c y } := by
      intro rest
      show Prog.alone (Prog.bind (Prog.lift (getItem s.index c)) _) s = _
      rw [e]
      show rest.alone { s with index := s.index.set c (f x) } = _
      rw [hf x y e']
    rw [key]
    split at h
    · rename_i hc
      rw [dif_pos hc]
      cases h; rfl
    · rename_i hc
      rw [dif_neg hc]
      exact ih _ (by omega) { s with index := s.index.set c y } h

theorem bumpPath_noValue {f' : Nat → Except PyErr Nat} (hv : ∀ x, f' x ≠ .error .valueError) (ix : List Nat) (c : Nat) :
    Core.bumpPath f' ix c ≠ .error .valueError := by
  induction c using Nat.strongRecOn generalizing ix with
  | ind c ih =>
    intro h
    unfold Core.bumpPath at h
    split at h
    · rename_i e
      cases h
      unfold getItem at e
      split at e <;> cases e
    rename_i x e
    split at h
    · rename_i er e'
      cases h
      exact hv _ e'
    rename_i y e'
    split at h
    · cases h
    · exact ih _ (by omega) _ h

theorem touchIndex_does {f : Nat → Nat} {f' : Nat → Except PyErr Nat} (hf : ∀ x y, f' x = .ok y → f x = y)
    (hv : ∀ x, f' x ≠ .error .valueError) (p : Nat) (s : St α κ) :
    Does (touchIndex f p) (Core.touchIndex f' p) s := by
  refine Does.get_bind (Does.ite (fun _ => Does.pure _) fun _ => Does.look ?_)
  intro h
  rcases e : Core.bumpPath f' s.index (s.offset + p) with er | ix
  · rw [e] at h
    rcases h with ⟨_, h⟩ | h
    · cases h
    · exact absurd (Except.error.inj h ▸ e) (bumpPath_noValue hv _ _)
  · rw [bumpPath_does hf _ s e]; rfl

theorem decr_ok (x y : Nat) (h : Core.decr x = .ok y) : x - 1 = y := by
  unfold Core.decr at h
  split at h
  · cases h
  · cases h; rfl

theorem decr_noValue (x : Nat) : Core.decr x ≠ .error .valueError := by
  unfold Core.decr
  split <;> exact fun h => nomatch h

theorem incr_does (p : Nat) (s : St α κ) : Does (touchIndex (· + 1) p) (Core.touchIndex Core.incr p) s :=
  touchIndex_does (fun _ _ h => Except.ok.inj h) (fun _ h => nomatch h) p s

theorem decr_does (p : Nat) (s : St α κ) : Does (touchIndex (· - 1) p) (Core.touchIndex Core.decr p) s :=
  touchIndex_does decr_ok decr_noValue p s

namespace SL
variable {E : Env α}

theorem clear_does (s : St α α) : Does clear Verif.SL.clear s := fun _ => rfl

theorem expand_does (p : Nat) (s : St α α) : Does (expand p) (Verif.SL.expand p) s :=
  Does.get_bind <| Does.lift_bind fun _ _ => Does.ite
    (fun _ => Does.write_bind <| Does.lift_bind fun _ _ => Does.lift_bind fun _ _ => Does.write_bind <| Does.write_bind <| Does.lift_bind fun _ _ =>
      Does.write_bind <| Does.write _)
    fun _ => incr_does p s

theorem add_does (v : α) (s : St α α) : Does (add E v) (Verif.SL.add E v) s :=
  Does.get_bind <| Does.ite
    (fun _ => Does.lift_bind fun _ _ => Does.ite
      (fun _ => Does.look <| Does.lift_bind fun _ _ => Does.write_bind <| Does.write_bind <| (expand_does _ _).then_len)
      fun _ => Does.look <| Does.lift_bind fun _ _ => Does.lift_bind fun _ _ => Does.write_bind <| (expand_does _ _).then_len)
    fun _ => Does.write_bind <| (Does.write _).then_len

theorem delete_does (p i : Nat) (s : St α α) : Does (delete p i) (Verif.SL.delete p i) s :=
  Does.get_bind <| Does.lift_bind fun _ _ => Does.lift_bind fun _ _ => Does.write_bind <| Does.less rfl <| Does.ite
    (fun _ => Does.lift_bind fun _ _ => Does.lift_bind fun _ _ => Does.write_bind <| decr_does p _) fun _ => Does.ite
    (fun _ => Does.get_bind <| Does.lift_bind fun _ _ => Does.lift_bind fun _ _ => Does.write_bind <| Does.lift_bind fun _ _ => Does.lift_bind fun _ _ =>
      Does.write_bind <| Does.get_bind <| Does.lift_bind fun _ _ => Does.write_bind <| Does.lift_bind fun _ _ => Does.write_bind <| Does.write_bind <|
      expand_does _ _) fun _ => Does.ite
    (fun _ => Does.lift_bind fun _ _ => Does.lift_bind fun _ _ => Does.write _)
    fun _ => Does.get_bind <| Does.lift_bind fun _ _ => Does.write_bind <| Does.lift_bind fun _ _ => Does.write_bind <| Does.write _

theorem discard_does (v : α) (s : St α α) : Does (discard E v) (Verif.SL.discard E v) s :=
  Does.get_bind <| Does.ite (fun _ => Does.pure _) fun _ => Does.lift_bind fun _ _ => Does.ite (fun _ => Does.pure _) fun _ =>
    Does.lift_bind fun _ _ => Does.lift_bind fun _ _ => Does.lift_bind fun _ _ => Does.lift_bind fun _ _ =>
    Does.ite (fun _ => delete_does _ _ _) fun _ => Does.pure _

theorem remove_does (v : α) (s : St α α) : Does (remove E v) (Verif.SL.remove E v) s :=
  Does.get_bind <| Does.ite (fun _ => Does.raise _) fun _ => Does.lift_bind fun _ _ => Does.ite (fun _ => Does.raise _) fun _ =>
    Does.lift_bind fun _ _ => Does.lift_bind fun _ _ => Does.lift_bind fun _ _ => Does.lift_bind fun _ _ =>
    Does.ite (fun _ => delete_does _ _ _) fun _ => Does.raise _

end SL
namespace SKL
variable {K : KEnv α κ}

theorem clear_does (s : St α κ) : Does clear Verif.SKL.clear s := fun _ => rfl

theorem expand_does (p : Nat) (s : St α κ) : Does (expand p) (Verif.SKL.expand p) s :=
  Does.get_bind <| Does.lift_bind fun _ _ => Does.ite
    (fun _ => Does.lift_bind fun _ _ => Does.write_bind <| Does.write_bind <| Does.lift_bind fun _ _ => Does.lift_bind fun _ _ => Does.write_bind <|
      Does.write_bind <| Does.write_bind <| Does.lift_bind fun _ _ => Does.write_bind <| Does.write _)
    fun _ => incr_does p s

theorem add_does (v : α) (s : St α κ) : Does (add K v) (Verif.SKL.add K v) s :=
  Does.get_bind <| Does.lift_bind fun _ _ => Does.ite
    (fun _ => Does.lift_bind fun _ _ => Does.ite
      (fun _ => Does.lift_bind fun _ _ => Does.write_bind <| Does.lift_bind fun _ _ => Does.write_bind <| Does.write_bind <| (expand_does _ _).then_len)
      fun _ => Does.lift_bind fun _ _ => Does.lift_bind fun _ _ => Does.lift_bind fun _ _ => Does.write_bind <| Does.write_bind <|
        (expand_does _ _).then_len)
    fun _ => Does.write_bind <| Does.write_bind <| (Does.write _).then_len

theorem delete_does (p i : Nat) (s : St α κ) : Does (delete p i) (Verif.SKL.delete p i) s :=
  Does.get_bind <| Does.lift_bind fun _ _ => Does.lift_bind fun _ _ => Does.lift_bind fun _ _ => Does.write_bind <| Does.lift_bind fun _ _ =>
    Does.write_bind <| Does.less rfl <| Does.ite
    (fun _ => Does.lift_bind fun _ _ => Does.lift_bind fun _ _ => Does.write_bind <| decr_does p _) fun _ => Does.ite
    (fun _ => Does.get_bind <| Does.lift_bind fun _ _ => Does.lift_bind fun _ _ => Does.write_bind <| Does.lift_bind fun _ _ => Does.lift_bind fun _ _ =>
      Does.write_bind <| Does.lift_bind fun _ _ => Does.lift_bind fun _ _ =>
      Does.write_bind <| Does.get_bind <| Does.lift_bind fun _ _ => Does.write_bind <| Does.lift_bind fun _ _ => Does.write_bind <|
      Does.lift_bind fun _ _ => Does.write_bind <| Does.write_bind <| expand_does _ _) fun _ => Does.ite
    (fun _ => Does.lift_bind fun _ _ => Does.lift_bind fun _ _ => Does.write _)
    fun _ => Does.get_bind <| Does.lift_bind fun _ _ => Does.write_bind <| Does.lift_bind fun _ _ => Does.write_bind <|
      Does.lift_bind fun _ _ => Does.write_bind <| Does.write _

theorem find_does (v : α) (s : St α κ) : Does (Prog.look (Verif.SKL.find K v)) (Verif.SKL.find K v) s := by
  intro _
  show ((Verif.SKL.find K v s).1, s) = _
  exact Prod.ext rfl (Verif.SKL.find_stays K v s).symm

theorem discard_does (v : α) (s : St α κ) : Does (discard K v) (Verif.SKL.discard K v) s := by
  refine Does.bind (find_does v s) fun r s1 _ => ?_
  rcases r with _ | ⟨p, i⟩
  · exact Does.pure _
  · exact delete_does p i s1

theorem remove_does (v : α) (s : St α κ) : Does (remove K v) (Verif.SKL.remove K v) s := by
  refine Does.bind (find_does v s) fun r s1 _ => ?_
  rcases r with _ | ⟨p, i⟩
  · exact Does.raise _
  · exact delete_does p i s1

end SKL
end Threads

/-! ## What the other threads see -/

theorem Threads.SL.contains_watch {E : Env α} {lt : α → α → Bool} (hE : E.Lawful lt) (v : α) {I : St α α → Prop} :
    (Threads.SL.glance E (.contains v)).Watch I fun a => ∀ b, a = .ok b → ∃ found, b = .bool found ∧
      (found = true → ∃ t, I t ∧ ∃ x ∈ Core.iter t, lt x v = false ∧ lt v x = false) := by
  have key : (Threads.SL.containsSlowly E v).Watch I fun a => a = .ok true → ∃ t, I t ∧ ∃ x ∈ Core.iter t, lt x v = false ∧ lt v x = false := by
    have err : ∀ {P : Prop} {e : PyErr}, (Except.error e : Except PyErr Bool) = .ok true → P := fun h => nomatch h
    have no : ∀ {P : Prop}, (Except.ok false : Except PyErr Bool) = .ok true → P := fun h => nomatch h
    intro s _
    show Prog.Watch _ _ (ite _ _ _)
    split
    · exact no
    intro s _
    show Prog.Watch _ _ (Prog.bind (Prog.lift (bisectLeft E.lt s.maxes v)) _)
    rcases bisectLeft E.lt s.maxes v with e | p
    · exact err
    intro s _
    show Prog.Watch _ _ (ite _ _ _)
    split
    · exact no
    intro s _
    show Prog.Watch _ _ (Prog.bind (Prog.lift (getItem s.lists p)) _)
    rcases getItem s.lists p with e | l
    · exact err
    show Prog.Watch _ _ (Prog.bind (Prog.lift (bisectLeft E.lt l v)) _)
    rcases bisectLeft E.lt l v with e | i
    · exact err
    intro s hs
    show Prog.Watch _ _ (Prog.bind (Prog.lift (getItem s.lists p)) _)
    rcases e1 : getItem s.lists p with e | l
    · exact err
    show Prog.Watch _ _ (Prog.bind (Prog.lift (getItem l i)) _)
    rcases e2 : getItem l i with e | x
    · exact err
    intro h
    refine ⟨s, hs, x, ?_, ?_⟩
    · rw [getItem_ok_iff] at e1 e2
      exact List.mem_flatten.2 ⟨l, List.mem_of_getElem? e1, List.mem_of_getElem? e2⟩
    · rw [hE.cmp] at h
      have h := Except.ok.inj h
      simp only [CmpOp.ofLt, equiv, Bool.and_eq_true, Bool.not_eq_true'] at h
      exact h
  refine key.bind ?_ ?_
  · intro b hb a ha
    cases ha
    exact ⟨b, rfl, fun h => hb (by rw [h])⟩
  · intro e _ a ha; cases ha

theorem Spec.remove_error {O : Spec.Order α} {v : α} {l : List α} {e : PyErr} (h : (Spec.step O (.remove v) l).1 = .error e) : e = .valueError := by
  by_cases hc : l.any (O.same · v) = true
  · simp only [Spec.step, Spec.out, Spec.remove, hc, if_true] at h
    cases h
  · simp only [Spec.step, Spec.out, Spec.remove, hc] at h
    exact (Except.error.inj h).symm

theorem Op.byValue.valid {op : Op α} (h : op.byValue = true) : op.Valid := by
  cases op <;> first | trivial | cases h

theorem KOp.byValue.valid {op : KOp α κ} (h : op.byValue = true) : op.Valid := by
  cases op with
  | op o => cases o <;> first | trivial | cases h
  | _ => trivial

end Verif
