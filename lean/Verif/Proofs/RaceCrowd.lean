import Verif.Proofs.RaceNew
/-!
# Threads in the logic of `Proofs/Race.lean`
-/

namespace Verif

/-- The values that a call passes to the list. -/
def Op.given {α : Type} : Op α → List α
  | .add v => [v]
  | .update xs | .iadd xs | .concat xs => xs
  | _ => []

/-- How often a call doubles the number of values, at most. -/
def Op.doubles {α : Type} : Op α → Nat
  | .imul n => n.toNat
  | _ => 0

/-- The values of the list that an answer shows. -/
def Out.shown {α : Type} : Out α → List α
  | .val v => [v]
  | .vals l => l
  | _ => []

/-- Calls that leave all values where they are. -/
def Op.stays {α : Type} : Op α → Bool
  | .add _ | .contains _ | .getInt _ | .getSlice _ | .islice .. | .irange .. | .index .. | .bisectLeft _ | .bisectRight _ | .count _ | .len | .iter | .reversed | .compare .. | .copy | .concat _ | .mul _ | .unsupported _ => true
  | _ => false

/-- The same without `in`, `index` and `count`. -/
def Op.keyStays {α : Type} : Op α → Bool
  | .add _ | .getInt _ | .getSlice _ | .islice .. | .irange .. | .bisectLeft _ | .bisectRight _ | .len | .iter | .reversed | .compare .. | .copy | .concat _ | .mul _ | .unsupported _ => true
  | _ => false

def KOp.given {α κ : Type} : KOp α κ → List α
  | .op o => o.given
  | _ => []

def KOp.doubles {α κ : Type} : KOp α κ → Nat
  | .op o => o.doubles
  | _ => 0

/-- Calls on a SortedKeyList that leave all values where they are, without `in`, `index` and `count`. -/
def KOp.stays {α κ : Type} : KOp α κ → Bool
  | .op o => o.keyStays
  | _ => true

namespace Task
variable {σ β : Type}

/-- A program ends, or goes round for ever, if it has enough turns. -/
def ended : Task σ β → Bool
  | act _ _ => false
  | _ => true

end Task

namespace Crowd
variable {σ β : Type}

theorem turn_other (p : Crowd σ β) {i j : Nat} (h : j ≠ i) : (p.turn j).threads[i]? = p.threads[i]? := by
  unfold turn
  split
  · exact List.getElem?_set_ne h
  · rfl

theorem turn_self (p : Crowd σ β) {i : Nat} {f : σ → σ} {k : σ → Task σ β} (h : p.threads[i]? = some (.act f k)) : (p.turn i).threads[i]? = some (k p.shared) := by
  have hi : i < p.threads.length := by
    by_cases hi : i < p.threads.length
    · exact hi
    · rw [List.getElem?_eq_none (Nat.le_of_not_lt hi)] at h; cases h
  unfold turn
  rw [h]
  simp [hi]

/-- The first `n` turns of an endless schedule. -/
def first (p : Crowd σ β) (schedule : Nat → Nat) (n : Nat) : Crowd σ β := p.run ((List.range n).map schedule)

theorem first_succ (p : Crowd σ β) (schedule : Nat → Nat) (n : Nat) : p.first schedule (n + 1) = (p.first schedule n).turn (schedule n) := by
  simp [first, run, List.range_succ]

/-- A thread that has turns again and again gets through. -/
theorem gets_through (p : Crowd σ β) (schedule : Nat → Nat) (i : Nat) (fair : ∀ n, ∃ m, n ≤ m ∧ schedule m = i) (m : Task σ β) :
    ∀ n, (p.first schedule n).threads[i]? = some m → ∃ n' m', (p.first schedule n').threads[i]? = some m' ∧ m'.ended = true := by
  induction m with
  | ret x => exact fun n h => ⟨n, _, h, rfl⟩
  | spin => exact fun n h => ⟨n, _, h, rfl⟩
  | act f k ih =>
    intro n h
    obtain ⟨j, hj, hji⟩ := fair n
    -- until its next turn, or earlier
    have wait : ∀ d, (∃ m', n ≤ m' ∧ m' < n + d ∧ schedule m' = i) ∨ (p.first schedule (n + d)).threads[i]? = some (.act f k) := by
      intro d
      induction d with
      | zero => exact .inr h
      | succ d ihd =>
        rcases ihd with ⟨m', h1, h2, h3⟩ | h'
        · exact .inl ⟨m', h1, by omega, h3⟩
        · by_cases he : schedule (n + d) = i
          · exact .inl ⟨n + d, by omega, by omega, he⟩
          · right
            rw [← Nat.add_assoc, first_succ, turn_other _ he]
            exact h'
    -- the first turn
    have : ∃ d, schedule (n + d) = i ∧ (p.first schedule (n + d)).threads[i]? = some (.act f k) := by
      have key : ∀ d, (∃ m', n ≤ m' ∧ m' < n + d ∧ schedule m' = i) → ∃ d', schedule (n + d') = i ∧ (p.first schedule (n + d')).threads[i]? = some (.act f k) := by
        intro d
        induction d with
        | zero => rintro ⟨m', h1, h2, -⟩; omega
        | succ d ihd =>
          rintro ⟨m', h1, h2, h3⟩
          rcases wait d with h' | h'
          · exact ihd h'
          · by_cases e : m' = n + d
            · exact ⟨d, e ▸ h3, h'⟩
            · exact ihd ⟨m', h1, by omega, h3⟩
      exact key (j + 1 - n) ⟨j, hj, by omega, hji⟩
    obtain ⟨d, hd, hd'⟩ := this
    refine ih (p.first schedule (n + d)).shared (n + d + 1) ?_
    rw [first_succ, hd]
    exact turn_self _ hd'

end Crowd

namespace Task
variable {σ β γ : Type}

/-- The program does not end with an exception. -/
def NoErr : Task σ β → Prop
  | ret (.ok _) => True
  | ret (.error _) => False
  | act _ k => ∀ s, NoErr (k s)
  | spin => True

theorem NoErr.bind {m : Task σ β} {f : β → Task σ γ} (h : NoErr m) (hf : ∀ b, NoErr (f b)) : NoErr (Task.bind m f) := by
  induction m with
  | ret x =>
    match x, h with
    | .ok b, _ => exact hf b
  | spin => trivial
  | act g k ih => exact fun s => ih s (h s)

theorem NoErr.attempt (m : Task σ β) : NoErr (Task.attempt m) := by
  induction m with
  | ret x => trivial
  | spin => trivial
  | act g k ih => exact ih

theorem NoErr.calls (step : γ → Task σ β) (cs : List γ) : NoErr (Task.calls step cs) := by
  induction cs with
  | nil => trivial
  | cons c cs ih => exact NoErr.bind (NoErr.attempt _) fun _ => NoErr.bind ih fun _ => trivial

end Task

namespace Crowd
variable {σ β : Type}

theorem noErr (schedule : List Nat) {p : Crowd σ β} (h : ∀ m ∈ p.threads, m.NoErr) : ∀ m ∈ (p.run schedule).threads, m.NoErr := by
  induction schedule generalizing p with
  | nil => exact h
  | cons i schedule ih =>
    refine ih (p := p.turn i) fun m hm => ?_
    unfold turn at hm
    split at hm
    · rename_i f k hi
      rcases List.mem_or_eq_of_mem_set hm with h' | h'
      · exact h m h'
      · exact h' ▸ h _ (List.mem_of_getElem? hi) p.shared
    · exact h m hm

theorem result_ok {p : Crowd σ β} (h : ∀ m ∈ p.threads, m.NoErr) {i : Nat} {x : Except PyErr β} (hr : p.result i = some x) : ∃ b, x = .ok b := by
  unfold result at hr
  split at hr
  · rename_i y hy
    cases hr
    have := h _ (List.mem_of_getElem? hy)
    match x, this with
    | .ok b, _ => exact ⟨b, rfl⟩
  · cases hr

end Crowd

namespace Race.Bounds
variable {α κ β γ : Type} {B : Bounds α κ}

theorem Safe.attempt {Q : β → Prop} {s : Shared α κ} {m : Run α κ β} (h : B.Safe (fun _ => Q) s m) :
    B.Safe (fun _ x => (∀ b, x = .ok b → Q b) ∧ ∀ e, x = .error e → B.err e) s (Task.attempt m) := by
  induction m generalizing s with
  | ret x =>
    match x, h with
    | .ok b, h => exact ⟨fun _ e => by cases e; exact h, fun _ e => by cases e⟩
    | .error e, h => exact ⟨fun _ e => (by cases e), fun _ e => by cases e; exact h⟩
  | act f k ih => exact fun t ht => ⟨(h t ht).1, ih t (h t ht).2⟩
  | spin => exact h

theorem Safe.map {Q : β → Prop} {Q' : γ → Prop} {s : Shared α κ} {m : Run α κ β} {f : β → γ} (hs : B.Holds s) (h : B.Safe (fun _ => Q) s m) (hf : ∀ b, Q b → Q' (f b)) :
    B.Safe (fun _ => Q') s (f <$> m : Run α κ γ) :=
  Safe.bind hs h fun _ _ _ _ hb => Safe.pure (hf _ hb)

/-- What is safe for a call is safe for a thread. -/
theorem Safe.calls {Q : β → Prop} {step : γ → Run α κ β} {cs : List γ} (h : ∀ c ∈ cs, ∀ s, B.Holds s → B.Safe (fun _ => Q) s (step c)) {s : Shared α κ} (hs : B.Holds s) :
    B.Safe (fun _ (xs : List (Except PyErr β)) => xs.length = cs.length ∧ ∀ x ∈ xs, (∀ b, x = .ok b → Q b) ∧ ∀ e, x = .error e → B.err e) s (Task.calls step cs) := by
  induction cs generalizing s with
  | nil => exact ⟨rfl, fun _ h => by cases h⟩
  | cons c cs ih =>
    unfold Task.calls
    refine Safe.bind hs (Safe.attempt (h c (by simp) s hs)) fun t x _ ht hx => ?_
    refine Safe.bind ht (ih (fun c hc => h c (by simp [hc])) ht) fun u xs _ _ hxs => ?_
    refine Safe.pure ⟨by simp [hxs.1], fun y hy => ?_⟩
    rcases List.mem_cons.1 hy with h | h
    · exact h ▸ hx
    · exact hxs.2 y h

/-- What is safe for each thread is safe for all together. -/
theorem Safe.turn {Q : Nat → β → Prop} {p : Crowd (Shared α κ) β} (hp : B.Holds p.shared) (h : ∀ j m, p.threads[j]? = some m → B.Safe (fun _ => Q j) p.shared m) (i : Nat) :
    B.Holds (p.turn i).shared ∧ ∀ j m, (p.turn i).threads[j]? = some m → B.Safe (fun _ => Q j) (p.turn i).shared m := by
  cases hi : p.threads[i]? with
  | none =>
    have e : p.turn i = p := by unfold Crowd.turn; rw [hi]
    rw [e]; exact ⟨hp, h⟩
  | some m =>
    cases m with
    | ret x =>
      have e : p.turn i = p := by unfold Crowd.turn; rw [hi]
      rw [e]; exact ⟨hp, h⟩
    | spin =>
      have e : p.turn i = p := by unfold Crowd.turn; rw [hi]
      rw [e]; exact ⟨hp, h⟩
    | act f k =>
      have hm := h i _ hi p.shared hp.refl
      have e : (p.turn i).shared = f p.shared := by unfold Crowd.turn; rw [hi]
      rw [e]
      refine ⟨hm.1.1, fun j m hj => ?_⟩
      by_cases hji : j = i
      · subst hji
        rw [Crowd.turn_self p hi] at hj
        cases hj
        exact hm.2
      · rw [Crowd.turn_other p (Ne.symm hji)] at hj
        exact (h j m hj).later hm.1

theorem Safe.run {Q : Nat → β → Prop} (schedule : List Nat) {p : Crowd (Shared α κ) β} (hp : B.Holds p.shared)
    (h : ∀ j m, p.threads[j]? = some m → B.Safe (fun _ => Q j) p.shared m) :
    B.Holds (p.run schedule).shared ∧ ∀ j m, (p.run schedule).threads[j]? = some m → B.Safe (fun _ => Q j) (p.run schedule).shared m := by
  induction schedule generalizing p with
  | nil => exact ⟨hp, h⟩
  | cons i schedule ih =>
    obtain ⟨h1, h2⟩ := Safe.turn hp h i
    exact ih h1 h2

theorem Safe.result {Q : Nat → β → Prop} {p : Crowd (Shared α κ) β} (h : ∀ j m, p.threads[j]? = some m → B.Safe (fun _ => Q j) p.shared m) {i : Nat} {b : β}
    (hr : p.result i = some (.ok b)) : Q i b := by
  unfold Crowd.result at hr
  split at hr
  · rename_i x hx
    cases hr
    exact h _ _ hx
  · cases hr

/-- All threads keep to `B` if all calls do. -/
theorem Safe.crowd {γ : Type} {step : γ → Run α κ (Out α)} (threads : List (List γ)) (schedule : List Nat) {s : Shared α κ} (hs : B.Holds s)
    (h : ∀ cs ∈ threads, ∀ op ∈ cs, ∀ s, B.Holds s → B.Safe (fun _ out => ∀ v ∈ out.shown, B.val v) s (step op)) :
    let p := (Crowd.mk s (threads.map (Task.calls step))).run schedule
    B.Holds p.shared ∧
    (∀ j : Nat, p.threads[j]? = some .spin → ¬ B.grow) ∧
    ∀ i x, p.result i = some x → ∃ answers, x = .ok answers ∧ some answers.length = (threads[i]?).map List.length ∧ ∀ a ∈ answers,
      (∀ out, a = .ok out → ∀ v ∈ out.shown, B.val v) ∧ ∀ e, a = .error e → B.err e := by
  intro p
  have start : ∀ (j : Nat) m, (Crowd.mk s (threads.map (Task.calls step))).threads[j]? = some m → B.Safe (fun _ (xs : List (Except PyErr (Out α))) =>
      some xs.length = (threads[j]?).map List.length ∧ ∀ x ∈ xs, (∀ b, x = .ok b → ∀ v ∈ b.shown, B.val v) ∧ ∀ e, x = .error e → B.err e) s m := by
    intro j m hj
    rw [List.getElem?_map] at hj
    cases hcs : threads[j]? with
    | none => rw [hcs] at hj; cases hj
    | some cs =>
      rw [hcs] at hj
      cases hj
      refine Safe.mono (Safe.calls (h cs (List.mem_of_getElem? hcs)) hs) fun _ xs hxs => ?_
      exact ⟨by simp [hxs.1], hxs.2⟩
  obtain ⟨h1, h2⟩ := Safe.run (Q := fun j (xs : List (Except PyErr (Out α))) =>
      some xs.length = (threads[j]?).map List.length ∧ ∀ x ∈ xs, (∀ b, x = .ok b → ∀ v ∈ b.shown, B.val v) ∧ ∀ e, x = .error e → B.err e) schedule hs start
  refine ⟨h1, fun j hj => h2 j _ hj, fun i x hx => ?_⟩
  · have : ∀ m ∈ p.threads, m.NoErr := Crowd.noErr schedule fun m hm => by
      obtain ⟨cs, -, rfl⟩ := List.mem_map.1 hm
      exact Task.NoErr.calls step cs
    obtain ⟨b, rfl⟩ := Crowd.result_ok this hx
    exact ⟨b, rfl, Safe.result h2 hx⟩

theorem Holds.of (s : St α κ) (hv : ∀ l ∈ s.lists, ∀ v ∈ l, B.val v) (hl : B.load s.load) : B.Holds (Shared.of s) := ⟨hv, hl⟩

theorem Safe.SL_step {B : Bounds α α} {E : Env α} (hE : B.Suits E) (fuel : Nat) (op : Op α) (hop : B.grow → op.stays = true) (hv : ∀ v ∈ op.given, B.val v)
    (hr : ∀ load, op = .reset load → B.load load) (hu : ∀ u, op = .unsupported u → B.err .notImplementedError) (s : Shared α α) (hs : B.Holds s) : B.Safe (fun _ out => ∀ v ∈ out.shown, B.val v) s (SL.step E fuel op) := by
  have nil : ∀ {v : α}, v ∈ ([] : List α) → B.val v := fun h => by cases h
  have one : ∀ x : α, B.val x → ∀ v ∈ (Out.val x).shown, B.val v := fun x hx v h => List.mem_singleton.1 h ▸ hx
  cases op with
  | add v => exact Safe.map hs (Safe.SL_add hE fuel (hv v (by simp [Op.given])) hs) fun _ _ _ h => nil h
  | update xs => exact Safe.map hs (Safe.SL_update hE (fun g => by have := hop g; cases this) fuel hv hs) fun _ _ _ h => nil h
  | discard v => exact Safe.map hs (Safe.SL_discard hE (fun g => by have := hop g; cases this) fuel v hs) fun _ _ _ h => nil h
  | remove v => exact Safe.map hs (Safe.SL_remove hE (fun g => by have := hop g; cases this) fuel v hs) fun _ _ _ h => nil h
  | clear => exact Safe.map hs (Safe.SL_clear (fun g => by have := hop g; cases this) hs) fun _ _ _ h => nil h
  | delInt i => exact Safe.map hs (Safe.SL_delInt (fun g => by have := hop g; cases this) fuel i hs) fun _ _ _ h => nil h
  | pop i => exact Safe.map hs (Safe.SL_pop (fun g => by have := hop g; cases this) fuel i hs) one
  | contains v => exact Safe.map hs (Safe.SL_contains hE v hs) fun _ _ _ h => nil h
  | getInt i => exact Safe.map hs (Safe.getInt _ i hs) one
  | bisectLeft v => exact Safe.map hs (Safe.SL_bisect hE false v hs) fun _ _ _ h => nil h
  | bisectRight v => exact Safe.map hs (Safe.SL_bisect hE true v hs) fun _ _ _ h => nil h
  | count v => exact Safe.map hs (Safe.SL_count hE v hs) fun _ _ _ h => nil h
  | len => exact Safe.map hs Safe.length fun _ _ _ h => nil h
  | iter => exact Safe.map hs Safe.toList fun _ hx => hx
  | reversed => exact Safe.map hs Safe.reversed fun _ hx => hx
  | getSlice sl => exact Safe.map hs (Safe.getSlice _ sl hs) fun _ hx => hx
  | delSlice sl => exact Safe.map hs (Safe.SL_delSlice hE (fun g => by have := hop g; cases this) fuel sl hs) fun _ _ _ h => nil h
  | islice i j r => exact Safe.map hs (Safe.islice _ i j r hs) fun _ hx => hx
  | irange lo hi a b r => exact Safe.map hs (Safe.SL_irange hE lo hi a b r hs) fun _ hx => hx
  | index v i j => exact Safe.map hs (Safe.SL_index hE v i j hs) fun _ _ _ h => nil h
  | iadd xs => exact Safe.map hs (Safe.SL_update hE (fun g => by have := hop g; cases this) fuel hv hs) fun _ _ _ h => nil h
  | compare o other => exact Safe.map hs (Safe.compare hE.cmp o other hs) fun _ _ _ h => nil h
  | copy => exact Safe.map hs (Safe.SL_copy hE hs) fun _ hx => hx
  | concat xs => exact Safe.map hs (Safe.SL_concat hE hv hs) fun _ hx => hx
  | mul n => exact Safe.map hs (Safe.SL_mul hE n hs) fun _ hx => hx
  | imul n => exact Safe.map hs (Safe.SL_imul hE (fun g => by have := hop g; cases this) fuel n hs) fun _ _ _ h => nil h
  | reset load => exact Safe.map hs (Safe.SL_reset hE (fun g => by have := hop g; cases this) fuel (hr load rfl) hs) fun _ _ _ h => nil h
  | unsupported u => exact Safe.raise (hu u rfl)

theorem Safe.SKL_step {K : KEnv α κ} (hE : B.KSuits K) (hcmp : ∀ op x y e, K.vcmp op x y = .error e → B.err e) (fuel : Nat) (op : Op α) (hop : B.grow → op.keyStays = true) (hv : ∀ v ∈ op.given, B.val v)
    (hr : ∀ load, op = .reset load → B.load load) (hu : ∀ u, op = .unsupported u → B.err .notImplementedError) (s : Shared α κ) (hs : B.Holds s) : B.Safe (fun _ out => ∀ v ∈ out.shown, B.val v) s (SKL.step K fuel op) := by
  have nil : ∀ {v : α}, v ∈ ([] : List α) → B.val v := fun h => by cases h
  have one : ∀ x : α, B.val x → ∀ v ∈ (Out.val x).shown, B.val v := fun x hx v h => List.mem_singleton.1 h ▸ hx
  cases op with
  | add v => exact Safe.map hs (Safe.SKL_add hE fuel (hv v (by simp [Op.given])) hs) fun _ _ _ h => nil h
  | update xs => exact Safe.map hs (Safe.SKL_update hE (fun g => by have := hop g; cases this) fuel hv hs) fun _ _ _ h => nil h
  | discard v => exact Safe.map hs (Safe.SKL_discard hE (fun g => by have := hop g; cases this) fuel v hs) fun _ _ _ h => nil h
  | remove v => exact Safe.map hs (Safe.SKL_remove hE (fun g => by have := hop g; cases this) fuel v hs) fun _ _ _ h => nil h
  | clear => exact Safe.map hs (Safe.SKL_clear (fun g => by have := hop g; cases this) hs) fun _ _ _ h => nil h
  | delInt i => exact Safe.map hs (Safe.SKL_delInt (fun g => by have := hop g; cases this) fuel i hs) fun _ _ _ h => nil h
  | pop i => exact Safe.map hs (Safe.SKL_pop (fun g => by have := hop g; cases this) fuel i hs) one
  | contains v => exact Safe.map hs (Safe.SKL_contains hE (fun g => by have := hop g; cases this) fuel v hs) fun _ _ _ h => nil h
  | getInt i => exact Safe.map hs (Safe.getInt _ i hs) one
  | bisectLeft v => exact Safe.map hs (Safe.SKL_bisect hE false v hs) fun _ _ _ h => nil h
  | bisectRight v => exact Safe.map hs (Safe.SKL_bisect hE true v hs) fun _ _ _ h => nil h
  | count v => exact Safe.map hs (Safe.SKL_count hE (fun g => by have := hop g; cases this) fuel v hs) fun _ _ _ h => nil h
  | len => exact Safe.map hs Safe.length fun _ _ _ h => nil h
  | iter => exact Safe.map hs Safe.toList fun _ hx => hx
  | reversed => exact Safe.map hs Safe.reversed fun _ hx => hx
  | getSlice sl => exact Safe.map hs (Safe.getSlice _ sl hs) fun _ hx => hx
  | delSlice sl => exact Safe.map hs (Safe.SKL_delSlice hE (fun g => by have := hop g; cases this) fuel sl hs) fun _ _ _ h => nil h
  | islice i j r => exact Safe.map hs (Safe.islice _ i j r hs) fun _ hx => hx
  | irange lo hi a b r => exact Safe.map hs (Safe.SKL_irange hE lo hi a b r hs) fun _ hx => hx
  | index v i j => exact Safe.map hs (Safe.SKL_index hE (fun g => by have := hop g; cases this) fuel v i j hs) fun _ _ _ h => nil h
  | iadd xs => exact Safe.map hs (Safe.SKL_update hE (fun g => by have := hop g; cases this) fuel hv hs) fun _ _ _ h => nil h
  | compare o other => exact Safe.map hs (Safe.compare hcmp o other hs) fun _ _ _ h => nil h
  | copy => exact Safe.map hs (Safe.SKL_copy hE hs) fun _ hx => hx
  | concat xs => exact Safe.map hs (Safe.SKL_concat hE hv hs) fun _ hx => hx
  | mul n => exact Safe.map hs (Safe.SKL_mul hE n hs) fun _ hx => hx
  | imul n => exact Safe.map hs (Safe.SKL_imul hE (fun g => by have := hop g; cases this) fuel n hs) fun _ _ _ h => nil h
  | reset load => exact Safe.map hs (Safe.SKL_reset hE (fun g => by have := hop g; cases this) fuel (hr load rfl) hs) fun _ _ _ h => nil h
  | unsupported u => exact Safe.raise (hu u rfl)

theorem Safe.SKL_call {K : KEnv α κ} (hE : B.KSuits K) (hcmp : ∀ op x y e, K.vcmp op x y = .error e → B.err e) (fuel : Nat) (op : KOp α κ) (hop : B.grow → op.stays = true) (hv : ∀ v ∈ op.given, B.val v)
    (hr : ∀ load, op = .op (.reset load) → B.load load) (hu : ∀ u, op = .op (.unsupported u) → B.err .notImplementedError) (s : Shared α κ) (hs : B.Holds s) :
    B.Safe (fun _ out => ∀ v ∈ out.shown, B.val v) s (SKL.call K fuel op) := by
  cases op with
  | op o => exact Safe.SKL_step hE hcmp fuel o hop hv (fun load e => hr load (e ▸ rfl)) (fun u e => hu u (e ▸ rfl)) s hs
  | bisectKeyLeft k => exact Safe.map hs (Safe.SKL_bisectKey hE false k hs) fun _ _ _ h => by cases h
  | bisectKeyRight k => exact Safe.map hs (Safe.SKL_bisectKey hE true k hs) fun _ _ _ h => by cases h
  | irangeKey lo hi a b r => exact Safe.map hs (Safe.SKL_irangeKey hE lo hi a b r hs) fun _ hx => hx

end Race.Bounds
end Verif

/-! ## Threads that never end -/

namespace Verif
namespace Task
variable {σ β γ : Type}

/-- As long as it runs alone, on objects in `I`, the program does not end within `n` turns. -/
def Never (I : σ → Prop) : Nat → Task σ β → Prop
  | _, ret _ => False
  | _, spin => True
  | 0, act _ _ => True
  | n + 1, act f k => ∀ s, I s → I (f s) ∧ Never I n (k s)

theorem Never.bind {I : σ → Prop} {n : Nat} {m : Task σ β} {f : β → Task σ γ} (h : Never I n m) : Never I n (Task.bind m f) := by
  induction m generalizing n with
  | ret x => exact (by cases n <;> exact h : False).elim
  | spin => cases n <;> trivial
  | act g k ih =>
    cases n with
    | zero => trivial
    | succ n => exact fun s hs => ⟨(h s hs).1, ih s (h s hs).2⟩

theorem Never.attempt {I : σ → Prop} {n : Nat} {m : Task σ β} (h : Never I n m) : Never I n (Task.attempt m) := by
  induction m generalizing n with
  | ret x => exact (by cases n <;> exact h : False).elim
  | spin => cases n <;> trivial
  | act g k ih =>
    cases n with
    | zero => trivial
    | succ n => exact fun s hs => ⟨(h s hs).1, ih s (h s hs).2⟩

end Task

namespace Crowd
variable {σ β : Type}

theorem run_append (p : Crowd σ β) (a b : List Nat) : p.run (a ++ b) = (p.run a).run b := List.foldl_append ..

/-- Turns of the first and of the second of two threads, to follow a schedule by hand. -/
theorem run_zero {s s' : σ} {t u : Task σ β} {f : σ → σ} {k : σ → Task σ β} {schedule : List Nat} {q : Crowd σ β} (h : t = .act f k) (hs : f s = s')
    (hq : (Crowd.mk s' [k s, u]).run schedule = q) : (Crowd.mk s [t, u]).run (0 :: schedule) = q := by
  subst h hs; exact hq

theorem run_one {s s' : σ} {t u : Task σ β} {f : σ → σ} {k : σ → Task σ β} {schedule : List Nat} {q : Crowd σ β} (h : u = .act f k) (hs : f s = s')
    (hq : (Crowd.mk s' [t, k s]).run schedule = q) : (Crowd.mk s [t, u]).run (1 :: schedule) = q := by
  subst h hs; exact hq

theorem never (I : σ → Prop) {n i : Nat} {p : Crowd σ β} {m : Task σ β} (hp : I p.shared) (hi : p.threads[i]? = some m) (h : m.Never I n) :
    (p.run (List.replicate n i)).result i = none ∧ ∀ j, j ≠ i → (p.run (List.replicate n i)).result j = p.result j := by
  induction n generalizing p m with
  | zero =>
    refine ⟨?_, fun _ _ => rfl⟩
    show p.result i = none
    unfold result
    rw [hi]
    cases m with
    | ret x => exact h.elim
    | spin => rfl
    | act f k => rfl
  | succ n ih =>
    rw [List.replicate_succ]
    show ((p.turn i).run _).result i = none ∧ ∀ j, j ≠ i → ((p.turn i).run _).result j = _
    have other : ∀ j, j ≠ i → (p.turn i).result j = p.result j := fun j hj => by
      unfold result
      rw [turn_other p (Ne.symm hj)]
    cases m with
    | ret x => exact h.elim
    | spin =>
      have e : p.turn i = p := by unfold turn; rw [hi]
      rw [e]
      exact ih hp hi (by cases n <;> trivial)
    | act f k =>
      obtain ⟨h1, h2⟩ := h p.shared hp
      have e : (p.turn i).shared = f p.shared := by unfold turn; rw [hi]
      obtain ⟨a, b⟩ := ih (p := p.turn i) (by rw [e]; exact h1) (turn_self p hi) h2
      exact ⟨a, fun j hj => (b j hj).trans (other j hj)⟩

end Crowd

/-- `while child: _index[child] += 1; child = (child - 1) >> 1` with `child = -1` does not end while `_index` is not empty. -/
theorem Race.sink_never {α κ : Type} (fuel n : Nat) : (Race.sink fuel (-1) : Race.Run α κ Unit).Never (fun s => s.index ≠ []) n := by
  have fetch_ok : ∀ l : List Int, l ≠ [] → ∃ x, fetch l (-1) = .ok x := fun l hl => by
    have := List.length_pos_iff.2 hl
    refine ⟨l[l.length - 1]'(by omega), ?_⟩
    have e : place l.length (-1) = .ok (l.length - 1) := by
      unfold place
      rw [if_neg (by omega), if_pos (by omega)]
      congr 1; omega
    unfold fetch
    rw [e]
    show getItem l (l.length - 1) = _
    simp [getItem, List.getElem?_eq_getElem (show l.length - 1 < l.length by omega)]
  have store_ok : ∀ (l : List Int) x, l ≠ [] → ∃ l', store l (-1) x = .ok l' ∧ l' ≠ [] := fun l x hl => by
    have := List.length_pos_iff.2 hl
    refine ⟨l.set (l.length - 1) x, ?_, by simpa using hl⟩
    have e : place l.length (-1) = .ok (l.length - 1) := by
      unfold place
      rw [if_neg (by omega), if_pos (by omega)]
      congr 1; omega
    unfold store
    rw [e]
    rfl
  induction fuel generalizing n with
  | zero => cases n <;> trivial
  | succ fuel ih =>
    cases n with
    | zero => trivial
    | succ n =>
      intro s hs
      refine ⟨hs, ?_⟩
      obtain ⟨x, hx⟩ := fetch_ok s.index hs
      show Task.Never _ n (Task.bind (Task.bind (Task.ret (fetch s.index (-1))) _) _)
      rw [hx]
      cases n with
      | zero => trivial
      | succ n =>
        intro t ht
        obtain ⟨l', hl', hne⟩ := store_ok t.index (x + 1) ht
        have hc : ((fun i => { t with index := i }) <$> store t.index (-1) (x + 1) : Except PyErr (Shared α κ)) = .ok { t with index := l' } := by rw [hl']; rfl
        simp only [hc]
        exact ⟨hne, ih n⟩

end Verif
