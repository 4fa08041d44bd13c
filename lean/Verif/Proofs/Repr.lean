import Verif.Model.Repr
/-!
# Proofs about `repr`

`Solo`: what a thread does depends on its own pairs only.  The run of a call follows the derivation of `Shows`.
-/

namespace Verif
open Code

/-! ### The bodies ask for the parts -/

/-- The texts of `ps`, then `k` -/
def askParts {β : Type} : List ReprPart → (List String → Code β) → Code β
  | [], k => k []
  | .obj o :: ps, k => .repr o fun t => askParts ps fun ts => k (t :: ts)
  | .fail e :: _, _ => .done (.error e)

theorem askParts_bind {β γ : Type} (f : β → Code γ) : ∀ (ps : List ReprPart) (k : List String → Code β),
    Code.bind (askParts ps k) f = askParts ps fun ts => Code.bind (k ts) f
  | [], _ => rfl
  | .obj o :: ps, k => by
    simp only [askParts, Code.bind]
    congr 1; funext t
    exact askParts_bind f ps _
  | .fail e :: _, _ => rfl

theorem askParts_append {β : Type} : ∀ (ps qs : List ReprPart) (k : List String → Code β),
    askParts (ps ++ qs) k = askParts ps fun ts => askParts qs fun us => k (ts ++ us)
  | [], _, _ => rfl
  | .obj o :: ps, qs, k => by
    simp only [List.cons_append, askParts]
    congr 1; funext t
    exact askParts_append ps qs _
  | .fail e :: _, _, _ => rfl

theorem askEach_eq : ∀ xs : List Nat, askEach xs = askParts (xs.map .obj) fun ts => .done (.ok ts)
  | [] => rfl
  | x :: xs => by
    show Code.bind (ask x) (fun t => Code.bind (askEach xs) fun ts => .done (.ok (t :: ts))) = _
    simp only [ask, Code.bind, askEach_eq xs, askParts_bind, List.map_cons, askParts]

theorem reprItems_eq : ∀ xs : List (Nat × Nat),
    reprItems xs = askParts (xs.flatMap fun p => [.obj p.1, .obj p.2]) fun ts => .done (.ok (colons ts))
  | [] => rfl
  | (k, v) :: xs => by
    show Code.bind (ask k) (fun a => Code.bind (ask v) fun b => Code.bind (reprItems xs) fun ts => .done (.ok ((a ++ ": " ++ b) :: ts))) = _
    simp only [ask, Code.bind, reprItems_eq xs, askParts_bind, List.flatMap_cons, List.cons_append, List.nil_append, askParts, colons]

theorem reprEntries_eq (same : Nat → Nat → Bool) (d : List (Nat × Nat)) : ∀ ks : List Nat,
    reprEntries same d ks = askParts (itemParts same d ks) fun ts => .done (.ok (colons ts))
  | [] => rfl
  | k :: ks => by
    show Code.bind (.done (PyDict.getitem same d k)) (fun v => Code.bind (ask k) fun a => Code.bind (ask v) fun b =>
      Code.bind (reprEntries same d ks) fun ts => .done (.ok ((a ++ ": " ++ b) :: ts))) = _
    simp only [itemParts, List.flatMap_cons, PyDict.getitem]
    cases hl : PyDict.lookup same d k with
    | none => rfl
    | some v =>
      have ih := reprEntries_eq same d ks
      simp only [itemParts] at ih
      simp only [ask, Code.bind, ih, askParts_bind, List.cons_append, List.nil_append, askParts, colons]

theorem reprList_eq (xs : List Nat) : reprList xs = askParts (xs.map .obj) fun ts => .done (.ok ("[" ++ commas ts ++ "]")) := by
  show Code.bind (askEach xs) (fun ts => .done (.ok ("[" ++ commas ts ++ "]"))) = _
  rw [askEach_eq, askParts_bind]; rfl

theorem guard_eq (g : Graph) (o : Nat) : g.guard o = (g.node o).cutoff := by
  unfold Graph.guard Node.cutoff
  cases g.node o <;> rfl

private theorem e1 : "([" = "(" ++ "[" := by decide
private theorem e2 : "])" = "]" ++ ")" := by decide
private theorem e3 : "], key=" = "]" ++ ", key=" := by decide

theorem body_eq (g : Graph) (o : Nat) :
    g.body o = askParts ((g.node o).parts g.same) fun ts => .done (.ok ((g.node o).layout ts)) := by
  unfold Graph.body
  cases g.node o with
  | value x => cases x <;> rfl
  | list xs => exact reprList_eq xs
  | tuple xs =>
    show Code.bind (askEach xs) _ = _
    rw [askEach_eq, askParts_bind]
    simp only [Node.parts, Code.bind]
    congr 1; funext ts
    match ts with
    | [] => rfl
    | [_] => rfl
    | _ :: _ :: _ => rfl
  | dict items =>
    show Code.bind (reprItems items) _ = _
    rw [reprItems_eq, askParts_bind]; rfl
  | sortedList name s =>
    show Code.bind (reprList _) _ = _
    rw [reprList_eq, askParts_bind]
    simp only [Node.parts, Node.layout, Core.iter, Code.bind]
    congr 1; funext ts
    congr 1
    rw [e1, e2]
    simp only [String.append_assoc, -String.reduceAppend]
  | sortedKeyList name s key =>
    show Code.bind (reprList _) (fun values => Code.bind (ask key) fun k => .done (.ok (name ++ "(" ++ values ++ ", key=" ++ k ++ ")"))) = _
    rw [reprList_eq, askParts_bind]
    simp only [Node.parts, askParts_append, Node.layout, Core.iter, Code.bind, ask, askParts]
    congr 1; funext ts
    congr 1; funext t
    congr 2
    rw [e1, e3]
    simp [List.getLastD_eq_getLast?, String.append_assoc, -String.reduceAppend]
  | sortedSet name s key =>
    cases key with
    | none =>
      show Code.bind (reprList _) (fun values => .done (.ok (name ++ "(" ++ values ++ "" ++ ")"))) = _
      rw [reprList_eq, askParts_bind]
      simp only [Node.parts, Node.layout, Core.iter, Code.bind]
      congr 1; funext ts
      congr 2
      rw [e1, e2]
      simp [String.append_assoc, -String.reduceAppend]
    | some key =>
      show Code.bind (Code.bind (ask key) fun t => .done (.ok (", key=" ++ t))) (fun k =>
        Code.bind (reprList _) (fun values => .done (.ok (name ++ "(" ++ values ++ k ++ ")")))) = _
      simp only [ask, Code.bind, reprList_eq, askParts_bind, Node.parts, Node.layout, Core.iter, askParts]
      congr 1; funext t
      congr 1; funext ts
      congr 2
      rw [e1, e3]
      simp [String.append_assoc, -String.reduceAppend]
  | sortedDict name d s key =>
    cases key with
    | none =>
      show Code.bind (reprEntries _ _ _) (fun items => .done (.ok (name ++ "(" ++ "" ++ "{" ++ commas items ++ "})"))) = _
      rw [reprEntries_eq, askParts_bind]
      simp only [Node.parts, Node.layout, Core.iter, Code.bind]
      congr 1; funext ts
      congr 2
      simp [String.append_assoc]
    | some key =>
      show Code.bind (Code.bind (ask key) fun t => .done (.ok (t ++ ", "))) (fun k =>
        Code.bind (reprEntries _ _ _) (fun items => .done (.ok (name ++ "(" ++ k ++ "{" ++ commas items ++ "})")))) = _
      simp only [ask, Code.bind, reprEntries_eq, askParts_bind, Node.parts, Node.layout, Core.iter, askParts]
      congr 1; funext t
      congr 1; funext ts
      congr 2
      simp [String.append_assoc]
  | view name m =>
    show Code.bind (ask m) (fun t => .done (.ok (name ++ "(" ++ t ++ ")"))) = _
    simp only [ask, Code.bind, Node.parts, Node.layout, askParts]
    congr 1

/-! ### One thread -/

namespace Graph
variable (g : Graph)

/-- The step of a thread whose own pairs are `P`. -/
def solo (c : (Nat → Bool) × Shower) : (Nat → Bool) × Shower :=
  let r := g.step 0 (fun x _ => c.1 x) c.2
  (fun x => r.1 x 0, r.2)

def soloN : Nat → (Nat → Bool) × Shower → (Nat → Bool) × Shower
  | 0, c => c
  | n + 1, c => soloN n (g.solo c)

theorem soloN_add : ∀ (m n : Nat) (c), g.soloN (m + n) c = g.soloN n (g.soloN m c)
  | 0, n, c => by rw [Nat.zero_add]; rfl
  | m + 1, n, c => by
    rw [Nat.add_right_comm]
    exact soloN_add m n (g.solo c)

theorem solo_done (P : Nat → Bool) (x : Except PyErr String) : g.solo (P, ⟨.run (.done x), []⟩) = (P, ⟨.run (.done x), []⟩) := rfl

theorem soloN_done (P : Nat → Bool) (x : Except PyErr String) : ∀ n, g.soloN n (P, ⟨.run (.done x), []⟩) = (P, ⟨.run (.done x), []⟩)
  | 0 => rfl
  | n + 1 => by
    show g.soloN n (g.solo _) = _
    rw [solo_done]; exact soloN_done P x n

/-- The texts of the parts, one after the other. -/
theorem run_parts (P : Nat → Bool) (f : List String → String) : ∀ (ps : List ReprPart) (rs : List (Except PyErr String)),
    rs.length = ps.length →
    (∀ (i : Nat) (e : PyErr), ps[i]? = some (.fail e) → rs[i]? = some (.error e)) →
    (∀ (i x : Nat) (r : Except PyErr String), ps[i]? = some (.obj x) → rs[i]? = some r →
      ∃ n, ∀ stack, g.soloN n (P, ⟨.call x, stack⟩) = (P, ⟨.run (.done r), stack⟩)) →
    ∀ pre : List String,
    ∃ n, ∀ stack, g.soloN n (P, ⟨.run (askParts ps fun ts => .done (.ok (f (pre ++ ts)))), stack⟩) =
      (P, ⟨.run (.done ((fun ts => f (pre ++ ts)) <$> allShown rs)), stack⟩)
  | [], rs, hl, _, _, pre => by
    have : rs = [] := List.eq_nil_of_length_eq_zero hl
    subst this
    exact ⟨0, fun _ => rfl⟩
  | .fail e :: ps, rs, hl, hf, _, pre => by
    have h0 := hf 0 e rfl
    match rs, h0 with
    | r :: rs, h0 =>
      simp only [List.getElem?_cons_zero, Option.some.injEq] at h0
      subst h0
      exact ⟨0, fun _ => rfl⟩
  | .obj x :: ps, rs, hl, hf, hp, pre => by
    match rs, hl with
    | r :: rs, hl =>
      obtain ⟨n, hn⟩ := hp 0 x r rfl rfl
      cases r with
      | error e =>
        refine ⟨1 + (n + 1), fun stack => ?_⟩
        rw [soloN_add, soloN_add]
        show g.soloN 1 (g.soloN n (P, ⟨.call x, .resume _ :: stack⟩)) = _
        rw [hn]
        rfl
      | ok t =>
        obtain ⟨m, hm⟩ := run_parts P f ps rs (Nat.succ.inj hl) (fun i e h => hf (i + 1) e h) (fun i y r h h' => hp (i + 1) y r h h') (pre ++ [t])
        refine ⟨1 + (n + (1 + m)), fun stack => ?_⟩
        rw [soloN_add, soloN_add, soloN_add]
        show g.soloN m (g.soloN 1 (g.soloN n (P, ⟨.call x, .resume _ :: stack⟩))) = _
        rw [hn]
        have e : ∀ ts : List String, pre ++ t :: ts = pre ++ [t] ++ ts := fun ts => by simp
        have := hm stack
        simp only [← e] at this
        refine Eq.trans this ?_
        simp only [allShown]
        cases allShown rs <;> rfl

/-- A call of `repr` runs as `Shows` says, and leaves the thread's pairs as they were. -/
theorem run_shows {P : Nat → Bool} {o : Nat} {r : Except PyErr String} (h : Shows g P o r) :
    ∃ n, ∀ stack, g.soloN n (P, ⟨.call o, stack⟩) = (P, ⟨.run (.done r), stack⟩) := by
  induction h with
  | @again P o t hc hi =>
    refine ⟨1, fun stack => ?_⟩
    simp only [soloN, solo, step, guard_eq, hc, hi, if_true]
  | @container P o t rs hc hi hl hf hp ih =>
    obtain ⟨n, hn⟩ := g.run_parts (within P o) (g.node o).layout _ rs hl hf ih []
    refine ⟨1 + (1 + (n + 1)), fun stack => ?_⟩
    rw [soloN_add, soloN_add, soloN_add]
    have e1 : g.soloN 1 (P, ⟨.call o, stack⟩) = (P, ⟨.enter o, stack⟩) := by
      simp only [soloN, solo, step, guard_eq, hc, hi]
      rfl
    have e2 : g.soloN 1 (P, ⟨.enter o, stack⟩) = (within P o, ⟨.run (g.body o), .wrapper o :: stack⟩) := by
      simp only [soloN, solo, step]
      refine Prod.ext ?_ rfl
      funext x
      simp only [within]
      cases hx : x == o <;> simp
    have hn := hn (.wrapper o :: stack)
    simp only [List.nil_append] at hn
    rw [e1, e2, body_eq, hn]
    simp only [soloN, solo, step]
    refine Prod.ext ?_ rfl
    funext x
    simp only [within]
    by_cases hx : x = o
    · subst hx; simp [hi]
    · simp [hx]
  | @plain P o rs hc hl hf hp ih =>
    obtain ⟨n, hn⟩ := g.run_parts P (g.node o).layout _ rs hl hf ih []
    refine ⟨1 + n, fun stack => ?_⟩
    rw [soloN_add]
    have e1 : g.soloN 1 (P, ⟨.call o, stack⟩) = (P, ⟨.run (g.body o), stack⟩) := by
      simp only [soloN, solo, step, guard_eq, hc]
    have hn := hn stack
    simp only [List.nil_append] at hn
    rw [e1, body_eq, hn]

/-- What a finished call gives does not depend on how long it is left to run. -/
theorem run_result {P : Nat → Bool} {o : Nat} {r : Except PyErr String} (h : Shows g P o r) :
    ∃ n, (∀ m, n ≤ m → g.soloN m (P, ⟨.call o, []⟩) = (P, ⟨.run (.done r), []⟩)) ∧
      ∀ m x, (g.soloN m (P, ⟨.call o, []⟩)).2.result = some x → g.soloN m (P, ⟨.call o, []⟩) = (P, ⟨.run (.done r), []⟩) := by
  obtain ⟨n, hn⟩ := g.run_shows h
  have hn := hn []
  refine ⟨n, fun m hm => ?_, fun m x hx => ?_⟩
  · obtain ⟨d, rfl⟩ := Nat.le.dest hm
    rw [soloN_add, hn, soloN_done]
  · generalize hc : g.soloN m (P, ⟨.call o, []⟩) = c at hx
    obtain ⟨Q, d, st⟩ := c
    have hd : d = .run (.done x) ∧ st = [] := by
      unfold Shower.result at hx
      split at hx
      · rename_i h1 h2
        dsimp only at h1 h2
        injection hx with hx
        subst hx
        exact ⟨h1, h2⟩
      · exact nomatch hx
    obtain ⟨rfl, rfl⟩ := hd
    have h1 : g.soloN (m + n) (P, ⟨.call o, []⟩) = (Q, ⟨.run (.done x), []⟩) := by rw [soloN_add, hc, soloN_done]
    have h2 : g.soloN (n + m) (P, ⟨.call o, []⟩) = (P, ⟨.run (.done r), []⟩) := by rw [soloN_add, hn, soloN_done]
    rw [Nat.add_comm] at h1
    exact h1.symm.trans h2

end Graph

theorem Shows.unique {g : Graph} {P : Nat → Bool} {o : Nat} {r r' : Except PyErr String} (h : Shows g P o r) (h' : Shows g P o r') : r = r' := by
  obtain ⟨n, hn, _⟩ := g.run_result h
  obtain ⟨m, hm, _⟩ := g.run_result h'
  have := (hn (max n m) (Nat.le_max_left ..)).symm.trans (hm (max n m) (Nat.le_max_right ..))
  injection this with _ h1
  injection h1 with h1
  injection h1 with h1
  injection h1

/-! ### Threads -/

namespace Graph
variable (g : Graph)

/-- A step of thread `t` follows its own pairs and leaves those of the others alone. -/
theorem step_solo (t : Nat) (running : Running) (P : Nat → Bool) (h : ∀ x, running x t = P x) (s : Shower) :
    (g.step t running s).2 = (g.solo (P, s)).2 ∧ (∀ x, (g.step t running s).1 x t = (g.solo (P, s)).1 x) ∧
      ∀ x u, u ≠ t → (g.step t running s).1 x u = running x u := by
  obtain ⟨d, st⟩ := s
  cases d with
  | call o =>
    simp only [solo, step]
    cases g.guard o with
    | none => exact ⟨rfl, h, fun _ _ _ => rfl⟩
    | some text =>
      dsimp only
      rw [h o]
      cases P o
      · exact ⟨rfl, h, fun _ _ _ => rfl⟩
      · exact ⟨rfl, h, fun _ _ _ => rfl⟩
  | enter o =>
    refine ⟨rfl, fun x => ?_, fun x u hu => ?_⟩
    · simp [solo, step, h x]
    · simp [step, hu]
  | run c =>
    cases c with
    | repr o k => exact ⟨rfl, h, fun _ _ _ => rfl⟩
    | done x =>
      cases st with
      | nil => exact ⟨rfl, h, fun _ _ _ => rfl⟩
      | cons w st =>
        cases w with
        | resume k => cases x <;> exact ⟨rfl, h, fun _ _ _ => rfl⟩
        | wrapper o =>
          refine ⟨rfl, fun x => ?_, fun x u hu => ?_⟩
          · simp [solo, step, h x]
          · simp [step, hu]

/-- Every thread runs as if it ran alone. -/
theorem run_solo (schedule : List Nat) : ∀ (p : Showers) (i : Nat) (s : Shower), p.threads[i]? = some s →
    (g.run schedule p).threads[i]? = some (g.soloN (schedule.count i) (fun x => p.running x i, s)).2 ∧
      ∀ x, (g.run schedule p).running x i = (g.soloN (schedule.count i) (fun x => p.running x i, s)).1 x := by
  induction schedule with
  | nil => intro p i s h; exact ⟨h, fun _ => rfl⟩
  | cons t schedule ih =>
    intro p i s h
    show (g.run schedule (g.turn p t)).threads[i]? = _ ∧ ∀ x, (g.run schedule (g.turn p t)).running x i = _
    cases ht : p.threads[t]? with
    | none =>
      have hne : t ≠ i := by rintro rfl; rw [h] at ht; exact nomatch ht
      have e : g.turn p t = p := by simp only [turn, ht]
      rw [e, List.count_cons_of_ne hne]
      exact ih p i s h
    | some s' =>
      have e : g.turn p t = ⟨(g.step t p.running s').1, p.threads.set t (g.step t p.running s').2⟩ := by simp only [turn, ht]
      obtain ⟨h1, h2, h3⟩ := g.step_solo t p.running (fun x => p.running x t) (fun _ => rfl) s'
      by_cases hi : t = i
      · subst hi
        rw [h] at ht
        injection ht with ht
        subst ht
        have hlt : t < p.threads.length := (List.getElem?_eq_some_iff.1 h).1
        have := ih (g.turn p t) t (g.step t p.running s).2 (by rw [e]; simp [hlt])
        rw [List.count_cons_self]
        have e2 : (fun x => (g.turn p t).running x t) = (g.solo (fun x => p.running x t, s)).1 := by
          rw [e]; funext x; exact h2 x
        rw [e2, h1] at this
        exact this
      · have := ih (g.turn p t) i s (by rw [e]; simp [hi, h])
        rw [List.count_cons_of_ne hi]
        have e2 : (fun x => (g.turn p t).running x i) = fun x => p.running x i := by
          rw [e]; funext x; exact h3 x i (Ne.symm hi)
        rw [e2] at this
        exact this

/-- The pairs of threads that are not there stay. -/
theorem run_rest (schedule : List Nat) : ∀ (p : Showers) (j : Nat), p.threads.length ≤ j →
    ∀ x, (g.run schedule p).running x j = p.running x j := by
  induction schedule with
  | nil => intro p j _ x; rfl
  | cons t schedule ih =>
    intro p j hj x
    show (g.run schedule (g.turn p t)).running x j = _
    cases ht : p.threads[t]? with
    | none =>
      have e : g.turn p t = p := by simp only [turn, ht]
      rw [e]; exact ih p j hj x
    | some s' =>
      have e : g.turn p t = ⟨(g.step t p.running s').1, p.threads.set t (g.step t p.running s').2⟩ := by simp only [turn, ht]
      obtain ⟨_, _, h3⟩ := g.step_solo t p.running (fun x => p.running x t) (fun _ => rfl) s'
      have hlt : t < p.threads.length := (List.getElem?_eq_some_iff.1 ht).1
      rw [ih _ j (by rw [e]; simpa using hj)]
      rw [e]
      exact h3 x j (by omega)

end Graph

/-! ### Everything can be shown -/

/-- How many of the objects `< n` are not being shown. -/
def free (P : Nat → Bool) : Nat → Nat
  | 0 => 0
  | n + 1 => free P n + if P n then 0 else 1

theorem free_within_le (P : Nat → Bool) (o : Nat) : ∀ n, free (within P o) n ≤ free P n
  | 0 => Nat.le_refl _
  | n + 1 => by
    have := free_within_le P o n
    have h : (if within P o n then 0 else 1) ≤ if P n then 0 else 1 := by
      simp only [within]
      by_cases hp : P n = true <;> by_cases hn : n = o <;> simp [hp, hn]
    simp only [free]
    omega

theorem free_within_lt {P : Nat → Bool} {o : Nat} (hP : P o = false) : ∀ {n}, o < n → free (within P o) n < free P n
  | n + 1, h => by
    simp only [free]
    by_cases ho : o = n
    · subst ho
      have := free_within_le P o o
      have e : within P o o = true := by simp [within]
      rw [e, hP]
      simp only [if_true]
      simp
      omega
    · have := free_within_lt hP (n := n) (by omega)
      have h : (if within P o n then 0 else 1) ≤ if P n then 0 else 1 := by
        simp only [within]
        by_cases hp : P n = true <;> by_cases hn : n = o <;> simp [hp, hn]
      omega

/-- What each part is shown as. -/
theorem shows_parts (Q : Nat → Except PyErr String → Prop) : ∀ ps : List ReprPart, (∀ x, ReprPart.obj x ∈ ps → ∃ r, Q x r) →
    ∃ rs : List (Except PyErr String), rs.length = ps.length ∧
      (∀ (i : Nat) (e : PyErr), ps[i]? = some (.fail e) → rs[i]? = some (.error e)) ∧
      ∀ (i x : Nat) (r : Except PyErr String), ps[i]? = some (.obj x) → rs[i]? = some r → Q x r
  | [], _ => ⟨[], rfl, fun _ _ h => by simp at h, fun _ _ _ h => by simp at h⟩
  | p :: ps, h => by
    obtain ⟨rs, hl, hf, hp⟩ := shows_parts Q ps fun x hx => h x (List.mem_cons_of_mem _ hx)
    cases p with
    | fail e =>
      refine ⟨.error e :: rs, by simp [hl], fun i e' hi => ?_, fun i x r hi hr => ?_⟩
      · cases i with
        | zero => simp at hi; simp [hi]
        | succ i => simp at hi ⊢; exact hf i e' hi
      · cases i with
        | zero => simp at hi
        | succ i => simp at hi hr; exact hp i x r hi hr
    | obj y =>
      obtain ⟨r0, hr0⟩ := h y (List.mem_cons_self ..)
      refine ⟨r0 :: rs, by simp [hl], fun i e' hi => ?_, fun i x r hi hr => ?_⟩
      · cases i with
        | zero => simp at hi
        | succ i => simp at hi ⊢; exact hf i e' hi
      · cases i with
        | zero => simp at hi hr; subst hi; subst hr; exact hr0
        | succ i => simp at hi hr; exact hp i x r hi hr

theorem Graph.Finite.shows {g : Graph} (hg : g.Finite) (P : Nat → Bool) (o : Nat) : ∃ r, Shows g P o r := by
  obtain ⟨n, hn⟩ := hg.bound
  generalize hm : free P n = m
  induction m using Nat.strongRecOn generalizing P o with
  | ind m ih =>
    have hcont : ∀ o t, (g.node o).cutoff = some t → ∃ r, Shows g P o r := fun o t hc => by
      cases hi : P o with
      | true => exact ⟨_, .again hc hi⟩
      | false =>
        have ho : o < n := by
          refine Nat.lt_of_not_le fun hle => ?_
          obtain ⟨r, hr⟩ := hn o hle
          rw [hr] at hc
          exact nomatch hc
        have hlt := free_within_lt hi ho
        obtain ⟨rs, hl, hf, hp⟩ := shows_parts (Shows g (within P o)) ((g.node o).parts g.same) fun x _ => ih _ (by omega) _ x rfl
        exact ⟨_, .container hc hi hl hf hp⟩
    cases hc : (g.node o).cutoff with
    | some t => exact hcont o t hc
    | none =>
      obtain ⟨rs, hl, hf, hp⟩ := shows_parts (Shows g P) ((g.node o).parts g.same) fun x hx => by
        cases ho : g.node o with
        | value r =>
          rw [ho] at hx
          cases r with
          | ok _ => simp [Node.parts] at hx
          | error _ => simp [Node.parts] at hx
        | view name m' =>
          rw [ho] at hx
          simp only [Node.parts, List.mem_singleton, ReprPart.obj.injEq] at hx
          subst hx
          obtain ⟨t, ht⟩ := hg.views o name _ ho
          exact hcont _ t ht
        | _ => rw [ho] at hc; exact nomatch hc
      exact ⟨_, .plain hc hl hf hp⟩

end Verif
