import Verif.Model.Locked
/-!
# Threads that take a lock: each call happens as if it ran alone
-/

namespace Verif
namespace Guarded
variable {σ γ β : Type} {step : γ → Task σ β}

/-- The calls of the log, made one after the other without interruption, take `s` to `s'`. -/
inductive Leads (step : γ → Task σ β) : List (Nat × γ × Except PyErr β) → σ → σ → Prop where
  | nil (s : σ) : Leads step [] s s
  | snoc {l : List (Nat × γ × Except PyErr β)} {s s' s'' : σ} {i : Nat} {c : γ} {x : Except PyErr β} : Leads step l s s' → (step c).alone s' = some (x, s'') → Leads step (l ++ [(i, c, x)]) s s''

/-- What holds between any two turns: all calls of the log happened one after the other, and the call under way will end as if it had begun after them. -/
structure Orderly (step : γ → Task σ β) (s0 : σ) (threads : List (List γ)) (p : Guarded σ γ β) : Prop where
  state : ∃ s, Leads step p.log s0 s ∧
    match p.holder with
    | none => p.shared = s
    | some (_, c, m) => m.alone p.shared = (step c).alone s
  count : p.waiting.length = threads.length
  calls : ∀ i cs, p.waiting[i]? = some cs → threads[i]? = some (p.ended i ++ p.current i ++ cs)
  inside : ∀ e ∈ p.log, e.1 < threads.length
  holding : ∀ h, p.holder = some h → h.1 < threads.length

theorem Orderly.start (s0 : σ) (threads : List (List γ)) : Orderly step s0 threads { shared := s0, holder := none, waiting := threads, log := [] } where
  state := ⟨s0, .nil _, rfl⟩
  count := rfl
  calls := fun i cs h => by simpa [ended, current] using h
  inside := by simp
  holding := fun h e => by cases e

theorem Orderly.turn {s0 : σ} {threads : List (List γ)} {p : Guarded σ γ β} (h : Orderly step s0 threads p) (i : Nat) : Orderly step s0 threads (p.turn step i) := by
  unfold Guarded.turn
  rcases hp : p with ⟨shared, holder, waiting, log⟩
  subst hp
  obtain ⟨s, h1, h2⟩ := h.state
  rcases holder with _ | ⟨j, c, m⟩
  · dsimp only at h2 ⊢
    rcases hw : waiting[i]? with _ | _ | ⟨c, cs⟩
    · exact h
    · exact h
    · have hi : i < waiting.length := (List.getElem?_eq_some_iff.1 hw).1
      refine ⟨⟨s, h1, ?_⟩, by simpa using h.count, ?_, h.inside, ?_⟩
      · dsimp only; rw [← h2]
      · intro k ks hk
        dsimp only at hk
        have hb := h.calls k
        by_cases hki : i = k
        · subst hki
          rw [List.getElem?_set_self hi] at hk
          cases hk
          have := hb _ hw
          simpa [ended, current] using this
        · rw [List.getElem?_set_ne hki] at hk
          have := hb _ hk
          simpa [ended, current, hki] using this
      · intro h' e
        cases e
        have := h.count
        dsimp only at this
        show i < _; omega
  · dsimp only at h2 ⊢
    by_cases hij : i = j
    · subst hij
      rw [if_pos rfl]
      rcases m with x | ⟨f, k⟩ | _
      · dsimp only
        refine ⟨⟨shared, .snoc h1 h2.symm, rfl⟩, h.count, ?_, ?_, fun h' e => by cases e⟩
        · intro k ks hk
          have := h.calls k ks hk
          rw [this]
          by_cases hki : i = k <;> simp [ended, current, List.filter_append, hki]
        · intro e he
          rcases List.mem_append.1 he with he | he
          · exact h.inside e he
          · have := h.holding _ rfl
            simp at he; subst he; exact this
      · exact ⟨⟨s, h1, h2⟩, h.count, h.calls, h.inside, fun h' e => by cases e; exact h.holding (i, c, .act f k) rfl⟩
      · exact h
    · rw [if_neg hij]; exact h

theorem Orderly.run {s0 : σ} {threads : List (List γ)} {p : Guarded σ γ β} (h : Orderly step s0 threads p) (schedule : List Nat) : Orderly step s0 threads (p.run step schedule) := by
  induction schedule generalizing p with
  | nil => exact h
  | cons i is ih => exact ih (h.turn i)

/-! ## How much the calls bring -/

/-- The sum of `w` over all calls: those that have ended, the one under way, and those yet to begin. -/
def weight (w : γ → Nat) (p : Guarded σ γ β) : Nat :=
  (p.log.map fun e => w e.2.1).sum + (match p.holder with | some (_, c, _) => w c | none => 0) + (p.waiting.map fun cs => (cs.map w).sum).sum

theorem sum_set {l : List (List γ)} {w : γ → Nat} {i : Nat} {c : γ} {cs : List γ} (h : l[i]? = some (c :: cs)) :
    ((l.set i cs).map fun cs => (cs.map w).sum).sum + w c = (l.map fun cs => (cs.map w).sum).sum := by
  induction l generalizing i with
  | nil => simp at h
  | cons x l ih =>
    cases i with
    | zero => simp at h; subst h; simp; omega
    | succ i =>
      have := ih (i := i) (by simpa using h)
      rw [List.set_cons_succ, List.map_cons, List.map_cons, List.sum_cons, List.sum_cons]; omega

theorem turn_weight (w : γ → Nat) (p : Guarded σ γ β) (i : Nat) : (p.turn step i).weight w = p.weight w := by
  unfold Guarded.turn
  rcases hp : p with ⟨shared, holder, waiting, log⟩
  rcases holder with _ | ⟨j, c, m⟩
  · dsimp only
    rcases hw : waiting[i]? with _ | _ | ⟨c, cs⟩
    · rfl
    · rfl
    · have := sum_set (w := w) hw
      simp only [weight]; omega
  · dsimp only
    by_cases hij : i = j
    · rw [if_pos hij]
      rcases m with x | ⟨f, k⟩ | _
      · simp [weight]
      · rfl
      · rfl
    · rw [if_neg hij]

theorem run_weight (w : γ → Nat) (p : Guarded σ γ β) (schedule : List Nat) : (p.run step schedule).weight w = p.weight w := by
  induction schedule generalizing p with
  | nil => rfl
  | cons i is ih => exact (ih _).trans (turn_weight w p i)

/-! ## What the calls answer -/

/-- Each call that is `ok`, run alone, answers what `spec` answers, as long as there is room for what it brings: `w` more, and all of it doubled `e` times. -/
def Grows {τ : Type} (ok : γ → Prop) (step : γ → Task σ β) (spec : γ → Py τ β) (R : σ → τ → Prop) (size : τ → Nat) (w e : γ → Nat) (room : Nat) : Prop :=
  ∀ c s l, ok c → R s l → (size l + w c) * 2 ^ e c < room → ∃ s', (step c).alone s = some ((spec c l).1, s') ∧ R s' (spec c l).2 ∧ size (spec c l).2 ≤ (size l + w c) * 2 ^ e c

/-- The same for calls that double nothing. -/
def Follows {τ : Type} (ok : γ → Prop) (step : γ → Task σ β) (spec : γ → Py τ β) (R : σ → τ → Prop) (size : τ → Nat) (w : γ → Nat) (room : Nat) : Prop :=
  ∀ c s l, ok c → R s l → size l + w c < room → ∃ s', (step c).alone s = some ((spec c l).1, s') ∧ R s' (spec c l).2 ∧ size (spec c l).2 ≤ size l + w c

theorem Follows.grows {τ : Type} {ok : γ → Prop} {spec : γ → Py τ β} {R : σ → τ → Prop} {size : τ → Nat} {w : γ → Nat} {room : Nat} (h : Follows ok step spec R size w room) :
    Grows ok step spec R size w (fun _ => 0) room := by
  intro c s l ho hR hr
  simp only [Nat.pow_zero, Nat.mul_one] at hr ⊢
  exact h c s l ho hR hr

theorem room_grows {n n0 a b x y : Nat} (h : n ≤ (n0 + a) * 2 ^ x) : (n + b) * 2 ^ y ≤ (n0 + (a + b)) * 2 ^ (x + y) := by
  have h1 : b ≤ b * 2 ^ x := Nat.le_mul_of_pos_right _ (Nat.two_pow_pos x)
  have h2 : n + b ≤ (n0 + (a + b)) * 2 ^ x := by
    rw [← Nat.add_assoc, Nat.add_mul _ b]; omega
  rw [Nat.pow_add, ← Nat.mul_assoc]
  exact Nat.mul_le_mul_right _ h2

theorem room_less {n a b x y : Nat} (h : a ≤ b) (h' : x ≤ y) : (n + a) * 2 ^ x ≤ (n + b) * 2 ^ y :=
  Nat.mul_le_mul (by omega) (Nat.pow_le_pow_right (by omega) h')

theorem runHist_snoc {τ γ β : Type} (f : γ → Py τ β) (cs : List γ) (c : γ) (l : τ) :
    runHist f (cs ++ [c]) l = ((runHist f cs l).1 ++ [(f c (runHist f cs l).2).1], (f c (runHist f cs l).2).2) := by
  induction cs generalizing l with
  | nil => rfl
  | cons d cs ih => simp [runHist, ih]

theorem Leads.follows {τ : Type} {spec : γ → Py τ β} {R : σ → τ → Prop} {size : τ → Nat} {w e : γ → Nat} {room : Nat} {ok : γ → Prop} (hF : Grows ok step spec R size w e room)
    {log : List (Nat × γ × Except PyErr β)} {s0 s : σ} {l0 : τ}
    (h : Leads step log s0 s) (hok : ∀ e ∈ log, ok e.2.1) (hR : R s0 l0) (hr : (size l0 + (log.map fun e => w e.2.1).sum) * 2 ^ (log.map fun c => e c.2.1).sum < room) :
    (runHist spec (log.map fun e => e.2.1) l0).1 = (log.map fun e => e.2.2) ∧ R s (runHist spec (log.map fun e => e.2.1) l0).2 ∧
      size (runHist spec (log.map fun e => e.2.1) l0).2 ≤ (size l0 + (log.map fun e => w e.2.1).sum) * 2 ^ (log.map fun c => e c.2.1).sum := by
  induction h with
  | nil s => exact ⟨rfl, hR, by simp [runHist]⟩
  | @snoc l s s' s'' i c x h1 h2 ih =>
    simp only [List.map_append, List.map_cons, List.map_nil, List.sum_append, List.sum_cons, List.sum_nil, Nat.add_zero] at hr ⊢
    obtain ⟨i1, i2, i3⟩ := ih (fun e he => hok e (List.mem_append_left _ he)) hR (Nat.lt_of_le_of_lt (room_less (by omega) (by omega)) hr)
    have hg := room_grows (b := w c) (y := e c) i3
    obtain ⟨t, t1, t2, t3⟩ := hF c s' _ (hok _ (List.mem_append_right _ (List.mem_singleton.2 rfl))) i2 (Nat.lt_of_le_of_lt hg hr)
    rw [t1] at h2
    cases h2
    rw [runHist_snoc]
    exact ⟨by rw [i1], t2, Nat.le_trans t3 hg⟩

/-- All calls are calls of the threads. -/
theorem Orderly.mem {s0 : σ} {threads : List (List γ)} {p : Guarded σ γ β} (h : Orderly step s0 threads p) :
    (∀ e ∈ p.log, ∃ cs ∈ threads, e.2.1 ∈ cs) ∧ ∀ j c m, p.holder = some (j, c, m) → ∃ cs ∈ threads, c ∈ cs := by
  have at' : ∀ i, i < threads.length → ∃ cs, threads[i]? = some (p.ended i ++ p.current i ++ cs) := fun i hi => by
    have hw : i < p.waiting.length := by rw [h.count]; exact hi
    exact ⟨_, h.calls i _ (List.getElem?_eq_getElem hw)⟩
  constructor
  · intro e he
    obtain ⟨cs, hcs⟩ := at' e.1 (h.inside e he)
    refine ⟨_, List.mem_of_getElem? hcs, List.mem_append_left _ (List.mem_append_left _ ?_)⟩
    exact List.mem_map_of_mem (List.mem_filter.2 ⟨he, by simp⟩)
  · intro j c m e
    obtain ⟨cs, hcs⟩ := at' j (h.holding _ e)
    refine ⟨_, List.mem_of_getElem? hcs, List.mem_append_left _ (List.mem_append_right _ ?_)⟩
    simp [current, e]

/-- The main fact about calls under a lock. -/
theorem orderly_grows {τ : Type} {spec : γ → Py τ β} {R : σ → τ → Prop} {size : τ → Nat} {w d : γ → Nat} {room : Nat} {ok : γ → Prop} (hF : Grows ok step spec R size w d room) {s0 : σ} {l0 : τ} (hR : R s0 l0)
    (threads : List (List γ)) (hok : ∀ cs ∈ threads, ∀ c ∈ cs, ok c)
    (hr : (size l0 + (threads.map fun cs => (cs.map w).sum).sum) * 2 ^ (threads.map fun cs => (cs.map d).sum).sum < room) (schedule : List Nat) :
    let p := ({ shared := s0, holder := none, waiting := threads, log := [] } : Guarded σ γ β).run step schedule
    let h := runHist spec (p.log.map fun e => e.2.1) l0
    (p.log.map fun e => e.2.2) = h.1 ∧
    (p.holder = none → R p.shared h.2) ∧
    (∀ j c m, p.holder = some (j, c, m) → ∃ s', m.alone p.shared = some ((spec c h.2).1, s')) ∧
    Orderly step s0 threads p := by
  intro p h
  have ho : Orderly step s0 threads p := (Orderly.start s0 threads).run schedule
  have hw : ∀ w : γ → Nat, p.weight w = (threads.map fun cs => (cs.map w).sum).sum := fun w => by
    rw [show p.weight w = _ from run_weight w _ schedule]; simp [weight]
  obtain ⟨s, h1, h2⟩ := ho.state
  have hw1 := hw w
  have hw2 := hw d
  unfold weight at hw1 hw2
  obtain ⟨i1, i2, i3⟩ := h1.follows hF (fun e he => by obtain ⟨cs, h1, h2⟩ := ho.mem.1 e he; exact hok cs h1 _ h2) hR (Nat.lt_of_le_of_lt (room_less (by omega) (by omega)) hr)
  refine ⟨i1.symm, fun e => ?_, fun j c m e => ?_, ho⟩
  · rw [e] at h2; dsimp only at h2; rw [h2]; exact i2
  · rw [e] at h2 hw1 hw2; dsimp only at h2 hw1 hw2
    obtain ⟨cs, m1, m2⟩ := ho.mem.2 j c m e
    obtain ⟨t, t1, _⟩ := hF c s _ (hok cs m1 c m2) i2 (Nat.lt_of_le_of_lt (Nat.le_trans (room_grows i3) (room_less (by omega) (by omega))) hr)
    exact ⟨t, by rw [h2]; exact t1⟩

theorem sum_zero (threads : List (List γ)) : (threads.map fun cs => (cs.map fun _ : γ => 0).sum).sum = 0 := by
  have h : ∀ cs : List γ, (cs.map fun _ => 0).sum = 0 := fun cs => by
    induction cs with
    | nil => rfl
    | cons c cs ih => rw [List.map_cons, List.sum_cons, ih]
  induction threads with
  | nil => rfl
  | cons cs threads ih => rw [List.map_cons, List.sum_cons, ih, h]

/-- The same for calls that double nothing. -/
theorem orderly {τ : Type} {spec : γ → Py τ β} {R : σ → τ → Prop} {size : τ → Nat} {w : γ → Nat} {room : Nat} {ok : γ → Prop} (hF : Follows ok step spec R size w room) {s0 : σ} {l0 : τ} (hR : R s0 l0)
    (threads : List (List γ)) (hok : ∀ cs ∈ threads, ∀ c ∈ cs, ok c)
    (hr : size l0 + (threads.map fun cs => (cs.map w).sum).sum < room) (schedule : List Nat) :
    let p := ({ shared := s0, holder := none, waiting := threads, log := [] } : Guarded σ γ β).run step schedule
    let h := runHist spec (p.log.map fun e => e.2.1) l0
    (p.log.map fun e => e.2.2) = h.1 ∧
    (p.holder = none → R p.shared h.2) ∧
    (∀ j c m, p.holder = some (j, c, m) → ∃ s', m.alone p.shared = some ((spec c h.2).1, s')) ∧
    Orderly step s0 threads p :=
  orderly_grows hF.grows hR threads hok (by
    rw [sum_zero, Nat.pow_zero, Nat.mul_one]; exact hr) schedule

/-! ## All calls end -/

/-- The number of accesses that are left. -/
def _root_.Verif.Task.steps : Task σ β → σ → Nat
  | .ret _, _ => 0
  | .act f k, s => steps (k s) (f s) + 1
  | .spin, _ => 0

variable {sch : Nat → Nat} {at' : Nat → Guarded σ γ β}

theorem call_ends (hat : ∀ n, at' (n + 1) = (at' n).turn step (sch n)) (j : Nat) (c : γ) (hfair : ∀ n, ∃ d, sch (n + d) = j) :
    ∀ q n m, (at' n).holder = some (j, c, m) → (m.alone (at' n).shared).isSome → m.steps (at' n).shared = q →
      ∃ n', (at' n').holder = none ∧ (at' n').waiting = (at' n).waiting := by
  intro q
  induction q with
  | zero =>
    intro n m hh hs hq
    obtain ⟨d, hd⟩ := hfair n
    induction d generalizing n with
    | zero =>
      refine ⟨n + 1, ?_⟩
      rw [hat, Guarded.turn, hh]
      rcases m with x | ⟨f, k⟩ | _
      · simp only [show sch n = j from hd, if_true]; exact ⟨trivial, trivial⟩
      · simp [Task.steps] at hq
      · simp [Task.alone] at hs
    | succ d ih =>
      by_cases hj : sch n = j
      · refine ⟨n + 1, ?_⟩
        rw [hat, Guarded.turn, hh]
        rcases m with x | ⟨f, k⟩ | _
        · simp only [hj, if_true]; exact ⟨trivial, trivial⟩
        · simp [Task.steps] at hq
        · simp [Task.alone] at hs
      · have e : at' (n + 1) = at' n := by
          rw [hat, Guarded.turn, hh]; simp [hj]
        have := ih (n + 1) (by rw [e]; exact hh) (by rw [e]; exact hs) (by rw [e]; exact hq) (by rw [← hd]; congr 1; omega)
        rwa [e] at this
  | succ q ihq =>
    intro n m hh hs hq
    have now : ∀ n m, (at' n).holder = some (j, c, m) → (m.alone (at' n).shared).isSome → m.steps (at' n).shared = q + 1 → sch n = j →
        ∃ n', (at' n').holder = none ∧ (at' n').waiting = (at' n).waiting := by
      intro n m hh hs hq hj
      rcases m with x | ⟨f, k⟩ | _
      · simp [Task.steps] at hq
      · have e : at' (n + 1) = { at' n with shared := f (at' n).shared, holder := some (j, c, k (at' n).shared) } := by
          rw [hat, Guarded.turn, hh]; simp [hj]
        have := ihq (n + 1) (k (at' n).shared) (by rw [e]) (by rw [e]; exact hs) (by rw [e]; simpa [Task.steps] using hq)
        rw [e] at this
        exact this
      · simp [Task.alone] at hs
    obtain ⟨d, hd⟩ := hfair n
    induction d generalizing n with
    | zero => exact now n m hh hs hq hd
    | succ d ih =>
      by_cases hj : sch n = j
      · exact now n m hh hs hq hj
      · have e : at' (n + 1) = at' n := by
          rw [hat, Guarded.turn, hh]; simp [hj]
        have := ih (n + 1) (by rw [e]; exact hh) (by rw [e]; exact hs) (by rw [e]; exact hq) (by rw [← hd]; congr 1; omega)
        rwa [e] at this

theorem all_end (hat : ∀ n, at' (n + 1) = (at' n).turn step (sch n)) {k : Nat} (hfair : ∀ i, i < k → ∀ n, ∃ d, sch (n + d) = i)
    (hk : ∀ n, (at' n).waiting.length = k) (hh : ∀ n h, (at' n).holder = some h → h.1 < k ∧ (h.2.2.alone (at' n).shared).isSome) :
    ∀ q n, (at' n).holder = none → ((at' n).waiting.map List.length).sum = q → ∃ n', (at' n').Done := by
  intro q
  induction q with
  | zero =>
    intro n h1 h2
    refine ⟨n, h1, fun cs hcs => ?_⟩
    have : ∀ (l : List (List γ)), (l.map List.length).sum = 0 → ∀ cs ∈ l, cs = [] := by
      intro l
      induction l with
      | nil => simp
      | cons x l ih =>
        intro h cs hcs
        simp at h
        rcases List.mem_cons.1 hcs with rfl | hcs
        · exact h.1
        · exact ih (by simpa using h.2) cs hcs
    exact this _ h2 cs hcs
  | succ q ih =>
    intro n h1 h2
    have : ∃ i, i < k ∧ ∃ c cs, (at' n).waiting[i]? = some (c :: cs) := by
      rw [← hk n]
      generalize (at' n).waiting = l at h2
      clear h1 ih
      induction l generalizing q with
      | nil => simp at h2
      | cons x l ih =>
        rcases x with _ | ⟨c, cs⟩
        · obtain ⟨i, hi, c, cs, e⟩ := ih q (by simpa using h2)
          exact ⟨i + 1, by simp; omega, c, cs, by simpa using e⟩
        · exact ⟨0, by simp, c, cs, rfl⟩
    obtain ⟨i, hi, c, cs, e⟩ := this
    have now : ∀ n c cs, (at' n).holder = none → ((at' n).waiting.map List.length).sum = q + 1 → (at' n).waiting[sch n]? = some (c :: cs) → ∃ n', (at' n').Done := by
      intro n c cs h1 h2 e
      have e' : at' (n + 1) = { at' n with holder := some (sch n, c, step c), waiting := (at' n).waiting.set (sch n) cs } := by
        rw [hat, Guarded.turn, h1]; simp only [e]
      have hn := hh (n + 1) (sch n, c, step c) (by rw [e'])
      obtain ⟨n', a1, a2⟩ := call_ends hat (sch n) c (hfair _ hn.1) _ (n + 1) (step c) (by rw [e']) hn.2 rfl
      refine ih n' a1 ?_
      rw [a2, e']
      have := sum_set (w := fun _ => 1) e
      have e1 : (fun cs : List γ => (cs.map fun _ => 1).sum) = List.length := by
        funext cs
        induction cs with
        | nil => rfl
        | cons _ cs ih => rw [List.map_cons, List.sum_cons, ih, List.length_cons]; omega
      rw [e1] at this
      dsimp only
      omega
    obtain ⟨d, hd⟩ := hfair i hi n
    induction d generalizing n with
    | zero => exact now n c cs h1 h2 (by rw [show sch n = i from hd]; exact e)
    | succ d ihd =>
      rcases hw : (at' n).waiting[sch n]? with _ | _ | ⟨c', cs'⟩
      · have e' : at' (n + 1) = at' n := by rw [hat, Guarded.turn, h1]; simp only [hw]
        exact ihd (n + 1) (by rw [e']; exact h1) (by rw [e']; exact h2) (by rw [e']; exact e) (by rw [← hd]; congr 1; omega)
      · have e' : at' (n + 1) = at' n := by rw [hat, Guarded.turn, h1]; simp only [hw]
        exact ihd (n + 1) (by rw [e']; exact h1) (by rw [e']; exact h2) (by rw [e']; exact e) (by rw [← hd]; congr 1; omega)
      · exact now n c' cs' h1 h2 hw


end Guarded
end Verif
