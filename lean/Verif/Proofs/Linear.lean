import Verif.Proofs.Writers
import Verif.Linear
/-!
# Calls of several threads that take effect one at a time: proofs
-/

namespace Verif
variable {σ τ ω β γ δ : Type}

/-! ## Orders of calls -/

theorem callsOf_nil (i : Nat) : callsOf i ([] : List (Nat × ω)) = [] := rfl

theorem callsOf_cons (i : Nat) (e : Nat × ω) (o : List (Nat × ω)) : callsOf i (e :: o) = if e.1 = i then e.2 :: callsOf i o else callsOf i o := by
  unfold callsOf
  by_cases h : e.1 = i <;> simp [h]

theorem answersTo_nil (step : ω → Py τ β) (t : τ) (i : Nat) : answersTo step t [] i = [] := rfl

theorem answersTo_cons (step : ω → Py τ β) (t : τ) (e : Nat × ω) (o : List (Nat × ω)) (i : Nat) :
    answersTo step t (e :: o) i = if e.1 = i then (step e.2 t).1 :: answersTo step (step e.2 t).2 o i else answersTo step (step e.2 t).2 o i := by
  unfold answersTo
  by_cases h : e.1 = i <;> simp [h, runHist]

namespace Prog

/-- The program makes the lookups `qs`, one look each, and has got `got` before. -/
def Serves (look : ω → σ → Except PyErr β) : List ω → List (Except PyErr β) → Prog σ (List (Except PyErr β)) → Prop
  | [], got, m => m = ret (.ok got)
  | q :: qs, got, m => ∃ k, m = read k ∧ ∀ s, Serves look qs (got ++ [look q s]) (k s)

/-- The program, from the object `s` on, if nobody else writes: the calls `cs` take effect, each at a write.  `t`: what the object stands for; `got`: what was got before; `D`: how the object and `t` agree at the end. -/
def Lin (R D : σ → τ → Prop) (step : ω → Py τ β) : Prog σ (List (Except PyErr β)) → σ → List ω → τ → List (Except PyErr β) → Prop
  | ret x, s, cs, t, got => cs = [] ∧ x = .ok got ∧ D s t
  | read k, s, cs, t, got => Lin R D step (k s) s cs t got
  | write f k, s, cs, t, got => (R (f s) t ∧ Lin R D step k (f s) cs t got) ∨
      ∃ c cs', cs = c :: cs' ∧ R (f s) (step c t).2 ∧ Lin R D step k (f s) cs' (step c t).2 (got ++ [(step c t).1])

end Prog

/-- What is known of the pool: the threads have yet to make the calls `rem i`, and have got `got i`. -/
structure Pool.Due (R D : σ → τ → Prop) (step : ω → Py τ β) (look : ω → σ → Except PyErr β) (p : Pool σ (List (Except PyErr β))) (t : τ) (rem : Nat → List ω)
    (got : Nat → List (Except PyErr β)) : Prop where
  rel : R p.shared t
  writer : ∀ w, p.threads[0]? = some w → w.Lin R D step p.shared (rem 0) t (got 0)
  reader : ∀ i m, p.threads[i + 1]? = some m → Prog.Serves look (rem (i + 1)) (got (i + 1)) m ∧ ∀ q ∈ rem (i + 1), ∀ s t, R s t → step q t = (look q s, t)

namespace Pool

theorem turn_length (p : Pool σ β) (i : Nat) : (p.turn i).threads.length = p.threads.length := by
  unfold turn
  split <;> simp

/-- One turn: nothing takes effect, or one call of the thread does. -/
theorem Due.turn {R D : σ → τ → Prop} {step : ω → Py τ β} {look : ω → σ → Except PyErr β} {p : Pool σ (List (Except PyErr β))} {t : τ} {rem : Nat → List ω}
    {got : Nat → List (Except PyErr β)} (h : p.Due R D step look t rem got) (i : Nat) :
    ((p.turn i).Due R D step look t rem got ∧ (0 < i → p.threads[i]? = none ∨ rem i = [])) ∨
    ∃ c cs, rem i = c :: cs ∧ i < p.threads.length ∧
      (p.turn i).Due R D step look (step c t).2 (fun j => if j = i then cs else rem j) fun j => if j = i then got i ++ [(step c t).1] else got j := by
  unfold Pool.turn
  split
  · rename_i k e
    cases i with
    | zero =>
      refine .inl ⟨⟨h.rel, fun w ew => ?_, fun i m em => h.reader i m ?_⟩, fun h => absurd h (Nat.lt_irrefl 0)⟩
      · rcases ep : p.threads with _ | ⟨w0, rest⟩
        · rw [ep] at e; cases e
        · rw [ep] at e ew; cases e; cases ew
          exact (h.writer (.read k) (by rw [ep]; rfl) :)
      · rcases ep : p.threads with _ | ⟨w0, rest⟩
        · rw [ep] at e; cases e
        · rw [ep] at em; exact em
    | succ i =>
      obtain ⟨h1, h2⟩ := h.reader i _ e
      rcases er : rem (i + 1) with _ | ⟨q, qs⟩
      · rw [er] at h1; cases h1
      · rw [er] at h1
        obtain ⟨k', ek, h1⟩ := h1
        cases ek
        have hq := h2 q (by rw [er]; exact List.mem_cons_self) _ _ h.rel
        refine .inr ⟨q, qs, rfl, (List.getElem?_eq_some_iff.1 e).1, ?_, fun w ew => ?_, fun j m em => ?_⟩
        · rw [hq]; exact h.rel
        · rw [hq]
          simp only [Ne.symm (Nat.succ_ne_zero i), if_false]
          exact h.writer w (by rw [List.getElem?_set_ne (by omega)] at ew; exact ew)
        · rw [hq]
          by_cases hj : j = i
          · subst hj
            simp only [if_true]
            rw [List.getElem?_set_self (List.getElem?_eq_some_iff.1 e).1] at em
            cases em
            exact ⟨h1 _, fun q' hq' => h2 q' (by rw [er]; exact List.mem_cons_of_mem _ hq')⟩
          · simp only [Nat.succ.injEq, hj, if_false]
            rw [List.getElem?_set_ne (by omega)] at em
            exact h.reader j m em
  · rename_i f k e
    cases i with
    | zero =>
      rcases ep : p.threads with _ | ⟨w0, rest⟩
      · rw [ep] at e; cases e
      rw [ep] at e; cases e
      have hr : ∀ (i : Nat) m, rest[i]? = some m → p.threads[i + 1]? = some m := fun i m em => by rw [ep]; exact em
      rcases h.writer _ (by rw [ep]; rfl) with ⟨h1, h2⟩ | ⟨c, cs, e1, h1, h2⟩
      · refine .inl ⟨⟨h1, fun w ew => ?_, fun i m em => h.reader i m (hr i m em)⟩, fun h => absurd h (Nat.lt_irrefl 0)⟩
        cases ew; exact h2
      · refine .inr ⟨c, cs, e1, by simp, h1, fun w ew => ?_, fun i m em => ?_⟩
        · cases ew; exact h2
        · simp only [Nat.succ_ne_zero, if_false]
          exact h.reader i m (hr i m em)
    | succ i =>
      obtain ⟨h1, -⟩ := h.reader i _ e
      rcases er : rem (i + 1) with _ | ⟨q, qs⟩
      · rw [er] at h1; cases h1
      · rw [er] at h1; obtain ⟨k', ek, -⟩ := h1; cases ek
  · rename_i h1 h2
    refine .inl ⟨h, fun hi => ?_⟩
    cases i with
    | zero => exact absurd hi (Nat.lt_irrefl 0)
    | succ i =>
      rcases e : p.threads[i + 1]? with _ | m
      · exact .inl rfl
      · refine .inr ?_
        obtain ⟨k1, -⟩ := h.reader i _ e
        rcases er : rem (i + 1) with _ | ⟨q, qs⟩
        · rfl
        · rw [er] at k1; obtain ⟨k', ek, -⟩ := k1
          exact absurd (by rw [e, ek]) (h1 k')

/-- The order in which the calls take effect. -/
theorem Due.linear {R D : σ → τ → Prop} {step : ω → Py τ β} {look : ω → σ → Except PyErr β} (schedule : List Nat) :
    ∀ {p : Pool σ (List (Except PyErr β))} {t : τ} {rem : Nat → List ω} {got : Nat → List (Except PyErr β)}, p.Due R D step look t rem got →
    ∃ order : Nat → List (Nat × ω), order 0 = [] ∧ (∀ n, order n <+: order (n + 1)) ∧ (∀ n, ∀ e ∈ order n, e.1 < p.threads.length) ∧
      (∀ n i, callsOf i (order n) <+: rem i) ∧ (∀ n i, (callsOf i (order n)).length ≤ (schedule.take n).count i) ∧
      (∀ n i x, (p.run (schedule.take n)).threads[i]? = some (.ret x) → callsOf i (order n) = rem i ∧ x = .ok (got i ++ answersTo step t (order n) i)) ∧
      (∀ n i, 0 < i → i < p.threads.length → min (rem i).length ((schedule.take n).count i) ≤ (callsOf i (order n)).length) ∧
      ∀ n, R (p.run (schedule.take n)).shared (runHist step ((order n).map (·.2)) t).2 ∧
        ∀ x, (p.run (schedule.take n)).threads[0]? = some (.ret x) → D (p.run (schedule.take n)).shared (runHist step ((order n).map (·.2)) t).2 := by
  have base : ∀ {p : Pool σ (List (Except PyErr β))} {t : τ} {rem : Nat → List ω} {got : Nat → List (Except PyErr β)}, p.Due R D step look t rem got →
      ∀ i x, p.threads[i]? = some (.ret x) → rem i = [] ∧ x = .ok (got i) := by
    intro p t rem got h i x e
    cases i with
    | zero => obtain ⟨h1, h2, -⟩ := h.writer _ e; exact ⟨h1, h2⟩
    | succ i =>
      have h1 := (h.reader i _ e).1
      rcases er : rem (i + 1) with _ | ⟨q, qs⟩
      · rw [er] at h1; cases h1; exact ⟨rfl, rfl⟩
      · rw [er] at h1; obtain ⟨k', ek, -⟩ := h1; cases ek
  induction schedule with
  | nil =>
    intro p t rem got h
    refine ⟨fun _ => [], rfl, fun _ => List.prefix_refl _, by simp, fun _ _ => List.nil_prefix, by simp [callsOf_nil], fun n i x e => ?_, by simp, fun n => ?_⟩
    · rw [List.take_nil] at e
      obtain ⟨h1, h2⟩ := base h i x e
      exact ⟨h1.symm, by rw [h2, answersTo_nil, List.append_nil]⟩
    · rw [List.take_nil]
      exact ⟨h.rel, fun x e => (h.writer _ e).2.2⟩
  | cons j js ih =>
    intro p t rem got h
    rcases h.turn j with ⟨h1, h2⟩ | ⟨c, cs, e1, hj, h1⟩
    · obtain ⟨order, k0, k1, k2, k3, k4, k5, k6, k7⟩ := ih h1
      rw [turn_length] at k2 k6
      refine ⟨fun n => order (n - 1), k0, fun n => ?_, fun n => k2 _, fun n => k3 _, fun n i => ?_, fun n i x e => ?_, fun n i hi hl => ?_, fun n => ?_⟩
      · cases n with
        | zero => exact List.prefix_refl _
        | succ n => exact k1 n
      · cases n with
        | zero => exact Nat.le_of_eq (by rw [show (fun n => order (n - 1)) 0 = order 0 from rfl, k0]; rfl)
        | succ n =>
          refine Nat.le_trans (k4 n i) ?_
          rw [List.take_succ_cons, List.count_cons]
          exact Nat.le_add_right _ _
      · cases n with
        | zero =>
          obtain ⟨m1, m2⟩ := base h i x e
          show callsOf i (order 0) = rem i ∧ x = .ok (got i ++ answersTo step t (order 0) i)
          rw [k0]
          exact ⟨m1.symm, by rw [m2, answersTo_nil, List.append_nil]⟩
        | succ n => exact k5 n i x e
      · cases n with
        | zero => exact Nat.le_trans (Nat.min_le_right _ _) (Nat.zero_le _)
        | succ n =>
          refine Nat.le_trans ?_ (k6 n i hi hl)
          rw [List.take_succ_cons, List.count_cons]
          by_cases hij : j = i
          · subst hij
            rcases h2 hi with h2 | h2
            · rw [List.getElem?_eq_none_iff] at h2; omega
            · rw [h2]; simp
          · simp [hij]
      · cases n with
        | zero =>
          show R p.shared (runHist step ((order 0).map (·.2)) t).2 ∧ ∀ x, p.threads[0]? = some (.ret x) → D p.shared (runHist step ((order 0).map (·.2)) t).2
          rw [k0]
          exact ⟨h.rel, fun x e => (h.writer _ e).2.2⟩
        | succ n => exact k7 n
    · obtain ⟨order, k0, k1, k2, k3, k4, k5, k6, k7⟩ := ih h1
      rw [turn_length] at k2 k6
      refine ⟨fun n => match n with
        | 0 => []
        | n + 1 => (j, c) :: order n, rfl, fun n => ?_, fun n => ?_, fun n i => ?_, fun n i => ?_, fun n i x e => ?_, fun n i hi hl => ?_, fun n => ?_⟩
      · cases n with
        | zero => exact List.nil_prefix
        | succ n => exact List.cons_prefix_cons.2 ⟨rfl, k1 n⟩
      · cases n with
        | zero => simp
        | succ n =>
          intro e he
          rcases List.mem_cons.1 he with rfl | he
          · exact hj
          · exact k2 n e he
      · cases n with
        | zero => exact List.nil_prefix
        | succ n =>
          have := k3 n i
          show callsOf i ((j, c) :: order n) <+: rem i
          rw [callsOf_cons]
          by_cases hij : j = i
          · subst hij
            simp only [if_true] at this ⊢
            rw [e1]
            exact List.cons_prefix_cons.2 ⟨rfl, this⟩
          · simp only [hij, Ne.symm hij, if_false] at this ⊢
            exact this
      · cases n with
        | zero => exact Nat.zero_le _
        | succ n =>
          have := k4 n i
          show (callsOf i ((j, c) :: order n)).length ≤ _
          rw [callsOf_cons, List.take_succ_cons, List.count_cons]
          by_cases hij : j = i
          · simp [hij]; omega
          · simp [hij]; omega
      · cases n with
        | zero =>
          obtain ⟨m1, m2⟩ := base h i x e
          exact ⟨m1.symm, by rw [m2, answersTo_nil, List.append_nil]⟩
        | succ n =>
          obtain ⟨m1, m2⟩ := k5 n i x e
          show callsOf i ((j, c) :: order n) = rem i ∧ x = .ok (got i ++ answersTo step t ((j, c) :: order n) i)
          rw [callsOf_cons, answersTo_cons]
          by_cases hij : j = i
          · subst hij
            simp only [if_true] at m1 m2 ⊢
            exact ⟨by rw [m1, e1], by rw [m2, List.append_assoc]; rfl⟩
          · simp only [hij, Ne.symm hij, if_false] at m1 m2 ⊢
            exact ⟨m1, m2⟩
      · cases n with
        | zero => exact Nat.le_trans (Nat.min_le_right _ _) (Nat.zero_le _)
        | succ n =>
          have := k6 n i hi hl
          show _ ≤ (callsOf i ((j, c) :: order n)).length
          rw [callsOf_cons, List.take_succ_cons, List.count_cons]
          by_cases hij : j = i
          · subst hij
            simp only [if_true, beq_self_eq_true, e1, List.length_cons] at this ⊢
            omega
          · simp only [hij, Ne.symm hij, if_false, beq_iff_eq] at this ⊢
            omega
      · cases n with
        | zero => exact ⟨h.rel, fun x e => (h.writer _ e).2.2⟩
        | succ n => exact k7 n

end Pool

/-! ## Lookups, and calls with a log -/

namespace Prog

theorem bind_bind (m : Prog σ β) (f : β → Prog σ γ) (g : γ → Prog σ δ) : (m.bind f).bind g = m.bind fun b => (f b).bind g := by
  induction m with
  | ret x => cases x <;> rfl
  | read k ih => exact congrArg Prog.read (funext ih)
  | write f' k ih => exact congrArg (Prog.write f') ih

theorem Serves.calls (M : ω → Py σ β) (qs : List ω) : ∀ got : List (Except PyErr β),
    Serves (fun q s => (M q s).1) qs got (Prog.bind (Prog.calls (fun q => Prog.look (M q)) qs) fun xs => .ret (.ok (got ++ xs))) := by
  induction qs with
  | nil => intro got; exact congrArg (fun l => Prog.ret (.ok l)) (List.append_nil got)
  | cons q qs ih =>
    intro got
    refine ⟨_, rfl, fun s => ?_⟩
    have := ih (got ++ [(M q s).1])
    simp only [List.append_assoc, List.singleton_append] at this
    show Serves _ _ _ (Prog.bind (Prog.bind (Prog.calls _ qs) _) _)
    rw [bind_bind]
    exact this

/-- When the call has taken effect, the writes that are left change nothing. -/
theorem Lin.after {R D : σ → τ → Prop} {step : ω → Py τ β} {x : Except PyErr γ} {f : Except PyErr γ → Prog σ (List (Except PyErr β))} {cs : List ω} {t : τ} {got : List (Except PyErr β)} :
    ∀ (l : List σ) (s : σ), (∀ y ∈ l, R y t) → Lin R D step (f x) (l.getLastD s) cs t got → Lin R D step (Prog.bind (Prog.attempt (Prog.writes x l)) f) s cs t got := by
  intro l
  induction l with
  | nil => exact fun s _ h => h
  | cons y l ih => exact fun s hl h => .inl ⟨hl y (by simp), ih y (fun z hz => hl z (by simp [hz])) (by rw [List.getLastD_cons] at h; exact h)⟩

theorem Lin.before {R D : σ → τ → Prop} {step : ω → Py τ β} {x : Except PyErr γ} {f : Except PyErr γ → Prog σ (List (Except PyErr β))} {c : ω} {cs : List ω} {t : τ} {got : List (Except PyErr β)}
    (y : σ) (l : List σ) (hl : ∀ z ∈ y :: l, R z (step c t).2) (h : Lin R D step (f x) (l.getLastD y) cs (step c t).2 (got ++ [(step c t).1])) :
    ∀ (d : List σ) (s : σ), (∀ y ∈ d, R y t) → Lin R D step (Prog.bind (Prog.attempt (Prog.writes x (d ++ y :: l))) f) s (c :: cs) t got := by
  intro d
  induction d with
  | nil => exact fun s _ => .inr ⟨c, cs, rfl, hl y (by simp), Lin.after l y (fun z hz => hl z (by simp [hz])) h⟩
  | cons z d ih => exact fun s hd => .inl ⟨hd z (by simp), ih z fun y hy => hd y (by simp [hy])⟩

end Prog

/-- The part `part` of the object changes in one step, if at all: the states that are logged have the old one first, then the new one. -/
def IPy.OneStep (part : σ → δ) (m : IPy σ β) (s : σ) : Prop :=
  ∀ h, ∃ d1 d2, (m (s, h)).2.2 = h ++ d1 ++ d2 ∧ (∀ y ∈ d1, part y = part s) ∧ ∀ y ∈ d2, part y = part (m (s, h)).2.1

/-- The part `part` of the object does not change. -/
def IPy.Keeps (part : σ → δ) (m : IPy σ β) (s : σ) : Prop :=
  ∀ h, ∃ d, (m (s, h)).2.2 = h ++ d ∧ (∀ y ∈ d, part y = part s) ∧ part (m (s, h)).2.1 = part s

theorem Prog.Lin.calls {part : σ → δ} {step : ω → Py σ β} {mt : ω → IPy σ β} {Good : σ → Prop} (cs : List ω)
    (h : ∀ c ∈ cs, ∀ s, Good s → (mt c).run s = step c s ∧ (mt c).OneStep part s ∧ Good (step c s).2) :
    ∀ (s : σ) (got : List (Except PyErr β)), Good s →
      Prog.Lin (fun x t => part x = part t) Eq step (Prog.bind (Prog.calls (fun c => Prog.replay (mt c)) cs) fun xs => .ret (.ok (got ++ xs))) s cs s got := by
  induction cs with
  | nil => intro s got _; exact ⟨rfl, congrArg (Except.ok) (List.append_nil got), rfl⟩
  | cons c cs ih =>
    intro s got hs
    obtain ⟨h1, h2, h3⟩ := h c (by simp) s hs
    obtain ⟨d1, d2, e1, e2, e3⟩ := h2 []
    have e4 : (mt c (s, [])).1 = (step c s).1 := congrArg Prod.fst h1
    have e5 : (mt c (s, [])).2.1 = (step c s).2 := congrArg Prod.snd h1
    show Prog.Lin _ _ step (Prog.bind (Prog.bind (Prog.attempt (Prog.writes (mt c (s, [])).1 ((mt c (s, [])).2.2 ++ [(mt c (s, [])).2.1]))) _) _) s (c :: cs) s got
    rw [e1, List.nil_append, e4, e5, Prog.bind_bind, List.append_assoc]
    rw [e5] at e3
    have ih := ih (fun c hc => h c (by simp [hc])) (step c s).2 (got ++ [(step c s).1]) h3
    simp only [List.append_assoc, List.singleton_append] at ih
    have fin : ∀ (y : σ) (l : List σ), d2 ++ [(step c s).2] = y :: l →
        Prog.Lin (fun x t => part x = part t) Eq step (Prog.bind (Prog.attempt (Prog.writes (step c s).1 (d1 ++ y :: l)))
          (fun x => Prog.bind (Prog.bind (Prog.calls (fun c => Prog.replay (mt c)) cs) fun xs => .ret (.ok (x :: xs))) fun xs => .ret (.ok (got ++ xs)))) s (c :: cs) s got := by
      intro y l e
      have hl : l.getLastD y = (step c s).2 := by
        have : (y :: l).getLastD y = (d2 ++ [(step c s).2]).getLastD y := by rw [e]
        rw [List.getLastD_cons] at this
        rw [this]; simp
      refine Prog.Lin.before y l (fun z hz => ?_) ?_ d1 s e2
      · rw [← e] at hz
        rcases List.mem_append.1 hz with hz | hz
        · exact e3 z hz
        · rw [List.mem_singleton.1 hz]
      · rw [hl, Prog.bind_bind]; exact ih
    rcases e : d2 ++ [(step c s).2] with _ | ⟨y, l⟩
    · simp at e
    · exact fin y l e

namespace IPy
variable {part : σ → δ} {s : σ}

theorem Keeps.one {m : IPy σ β} (h : m.Keeps part s) : m.OneStep part s := fun hh => by
  obtain ⟨d, e1, e2, e3⟩ := h hh
  exact ⟨d, [], by simp [e1], e2, by simp⟩

theorem Keeps.still {m : Py σ β} (h : part (m s).2 = part s) : (IPy.still m).Keeps part s := fun hh => ⟨[], by simp [IPy.still], by simp, h⟩

theorem Keeps.bind {m : IPy σ β} {f : β → IPy σ γ} (h1 : m.Keeps part s) (h2 : ∀ b s', part s' = part s → (f b).Keeps part s') : (m >>= f).Keeps part s := by
  intro hh
  obtain ⟨d, e1, e2, e3⟩ := h1 hh
  have eq1 : (m >>= f) (s, hh) = Py.bind (σ := σ × List σ) m f (s, hh) := rfl
  rcases e : m (s, hh) with ⟨x, s', h'⟩
  rw [e] at e1 e3
  rw [eq1]
  unfold Py.bind
  rw [e]
  cases x with
  | error er => exact ⟨d, e1, e2, e3⟩
  | ok b =>
    obtain ⟨d', k1, k2, k3⟩ := h2 b s' e3 h'
    refine ⟨d ++ d', by rw [show (f b (s', h')).2.2 = _ from k1, show h' = _ from e1, List.append_assoc], fun y hy => ?_, k3.trans e3⟩
    rcases List.mem_append.1 hy with hy | hy
    · exact e2 y hy
    · exact (k2 y hy).trans e3

theorem Keeps.bind_one {m : IPy σ β} {f : β → IPy σ γ} (h1 : m.Keeps part s) (h2 : ∀ b s', part s' = part s → (f b).OneStep part s') : (m >>= f).OneStep part s := by
  intro hh
  obtain ⟨d, e1, e2, e3⟩ := h1 hh
  have eq1 : (m >>= f) (s, hh) = Py.bind (σ := σ × List σ) m f (s, hh) := rfl
  rcases e : m (s, hh) with ⟨x, s', h'⟩
  rw [e] at e1 e3
  rw [eq1]
  unfold Py.bind
  rw [e]
  cases x with
  | error er => exact ⟨d, [], by simpa using e1, e2, by simp⟩
  | ok b =>
    obtain ⟨d1, d2, k1, k2, k3⟩ := h2 b s' e3 h'
    refine ⟨d ++ d1, d2, by rw [show (f b (s', h')).2.2 = _ from k1, show h' = _ from e1]; simp only [List.append_assoc], fun y hy => ?_, k3⟩
    rcases List.mem_append.1 hy with hy | hy
    · exact e2 y hy
    · exact (k2 y hy).trans e3

theorem OneStep.bind {m : IPy σ β} {f : β → IPy σ γ} (h1 : m.OneStep part s) (h2 : ∀ b s', (f b).Keeps part s') : (m >>= f).OneStep part s := by
  intro hh
  obtain ⟨d1, d2, e1, e2, e3⟩ := h1 hh
  have eq1 : (m >>= f) (s, hh) = Py.bind (σ := σ × List σ) m f (s, hh) := rfl
  rcases e : m (s, hh) with ⟨x, s', h'⟩
  rw [e] at e1 e3
  rw [eq1]
  unfold Py.bind
  rw [e]
  cases x with
  | error er => exact ⟨d1, d2, e1, e2, e3⟩
  | ok b =>
    obtain ⟨d, k1, k2, k3⟩ := h2 b s' h'
    refine ⟨d1, d2 ++ d, by rw [show (f b (s', h')).2.2 = _ from k1, show h' = _ from e1]; simp only [List.append_assoc], e2, fun y hy => ?_⟩
    rcases List.mem_append.1 hy with hy | hy
    · exact (e3 y hy).trans k3.symm
    · exact (k2 y hy).trans k3.symm

theorem OneStep.write (f : σ → σ) : (IPy.write f).OneStep part s := fun hh => ⟨[], [f s], by simp [IPy.write], by simp, by simp [IPy.write]⟩

theorem OneStep.ite {c : Prop} [Decidable c] {m m' : IPy σ β} (h1 : m.OneStep part s) (h2 : m'.OneStep part s) : (if c then m else m').OneStep part s := by
  split
  · exact h1
  · exact h2

theorem OneStep.out {α : Type} {m : IPy σ β} (h : m.OneStep part s) (f : β → Out α) : IPy.OneStep part (Spec.out (σ := σ × List σ) f m : IPy σ (Out α)) s := fun hh => by
  obtain ⟨d1, d2, e1, e2, e3⟩ := h hh
  unfold Spec.out
  rcases e : m (s, hh) with ⟨x | x, s', h'⟩ <;> (rw [e] at e1 e3; exact ⟨d1, d2, e1, e2, e3⟩)

end IPy
end Verif
