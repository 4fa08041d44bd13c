import Verif.Proofs.HeapList
/-!
# Iterators of a container that holds a sorted list
-/

namespace Verif
namespace Heap
variable {σ α κ β K C R : Type}

/-- What matters about the calls.  `plain`: the calls whose iterators never raise an IndexError. -/
structure BoxSys.Lawful (A : BoxSys σ α κ β K C R) (plain : K → Prop) : Prop where
  call : ∀ op s, Own (A.list s) → Own (A.list (A.call op s).2) ∧ Live (A.list s) (A.list (A.call op s).2)
  opens : ∀ k s, (A.list (A.opens k s).2).mem = (A.list s).mem ∧ (A.list (A.opens k s).2).self.lists = (A.list s).self.lists ∧
    (A.list (A.opens k s).2).self.keys = (A.list s).self.keys
  holds : ∀ k s h, (A.opens k s).1 = .ok h → (∀ a ∈ h.addrs, a ∈ (A.list s).self.lists) ∧ (plain k → h.Plain)

namespace BoxSys
variable {A : BoxSys σ α κ β K C R} {plain : K → Prop}

/-- The sorted list as an iterable. -/
abbrev contents (A : BoxSys σ α κ β K C R) (x : BoxState σ K) : List α := Verif.Core.iter (A.list x.1).view

/-- The list objects that the `j`-th iterator holds have only values with `S`, and so has the container. -/
structure Holds (A : BoxSys σ α κ β K C R) (p : Prop) (j : Nat) (k : K) (S : α → Prop) (x : BoxState σ K) : Prop where
  own : Own (A.list x.1)
  now : ∀ v ∈ A.contents x, S v
  held : ∃ c, x.2[j]? = some (k, c) ∧
    (∀ a ∈ c.addrs, a < (A.list x.1).mem.vals.length ∧ ∀ v ∈ (A.list x.1).cell a, S v) ∧ (p → c.Plain)

theorem own_step (hA : A.Lawful plain) (ev : Event K C) {x : BoxState σ K} (h : Own (A.list x.1)) :
    Own (A.list (A.step ev x).2.1) := by
  obtain ⟨s, its⟩ := x
  cases ev with
  | opens k =>
    obtain ⟨e1, e2, e3⟩ := hA.opens k s
    simp only [step]
    split <;> rename_i hx <;> rw [hx] at e1 e2 e3 <;> exact LiveSys.Own.congr h e1 e2 e3
  | next j =>
    simp only [step]
    split
    · exact h
    · split
      · exact h
      · exact h
      · split <;> exact h
  | call op =>
    have h1 := (hA.call op s h).1
    simp only [step]
    split <;> rename_i hx <;> rw [hx] at h1 <;> exact h1

theorem own_hist (hA : A.Lawful plain) (evs : List (Event K C)) {x : BoxState σ K} (h : Own (A.list x.1)) :
    Own (A.list (runHist A.step evs x).2.1) := by
  induction evs generalizing x with
  | nil => exact h
  | cons ev evs ih => exact ih (own_step hA ev h)

/-- A request does not change the container. -/
theorem next_fst (j : Nat) (x : BoxState σ K) : (A.step (.next j) x).2.1 = x.1 := by
  obtain ⟨s, its⟩ := x
  simp only [step]
  split
  · rfl
  · split
    · rfl
    · rfl
    · split <;> rfl

/-- Nor another iterator. -/
theorem next_other {i j : Nat} (hij : i ≠ j) (x : BoxState σ K) : (A.step (.next i) x).2.2[j]? = x.2[j]? := by
  obtain ⟨s, its⟩ := x
  have key : ∀ p, (its.set i p)[j]? = its[j]? := fun p => List.getElem?_set_ne hij
  simp only [step]
  split
  · rfl
  · split
    · exact key _
    · exact key _
    · split <;> exact key _

/-- The iterator afterwards is what the request left of it, or finished. -/
theorem next_self {j : Nat} {k : K} {c : HCursor} {x : BoxState σ K} (h : x.2[j]? = some (k, c)) :
    (A.step (.next j) x).2.2[j]? = some (k, (c.next (A.list x.1).self.lists (A.list x.1).cell).2) ∨
    (A.step (.next j) x).2.2[j]? = some (k, []) := by
  obtain ⟨s, its⟩ := x
  have h : its[j]? = some (k, c) := h
  have hl := (List.getElem?_eq_some_iff.1 h).1
  simp only [step, h]
  split <;> rename_i hx
  · rw [hx]; exact .inl (List.getElem?_set_self hl)
  · rw [hx]; exact .inl (List.getElem?_set_self hl)
  · rw [hx]
    split
    · exact .inl (List.getElem?_set_self hl)
    · exact .inr (List.getElem?_set_self hl)

theorem holds_step (hA : A.Lawful plain) {p : Prop} {j : Nat} {k : K} {S : α → Prop} (ev : Event K C) {x : BoxState σ K}
    (h : Holds A p j k S x) : Holds A p j k (fun v => S v ∨ v ∈ A.contents (A.step ev x).2) (A.step ev x).2 := by
  have ho := own_step hA ev h.own
  refine ⟨ho, fun v hv => .inr hv, ?_⟩
  cases ev with
  | opens k' =>
    obtain ⟨s, its⟩ := x
    obtain ⟨h1, h2, d, h3, h4, h5⟩ := h
    obtain ⟨e1, e2, e3⟩ := hA.opens k' s
    simp only [step]
    split <;> rename_i hx <;> rw [hx] at e1
    · refine ⟨d, ?_, fun a ha => ?_, h5⟩
      · show (its ++ _)[j]? = _
        rw [List.getElem?_append_left (List.getElem?_eq_some_iff.1 h3).1]; exact h3
      · obtain ⟨h6, h7⟩ := h4 a ha
        dsimp only at e1
        exact ⟨e1 ▸ h6, fun v hv => .inl (h7 v (by unfold Ctx.cell at hv ⊢; rw [e1] at hv; exact hv))⟩
    · refine ⟨d, h3, fun a ha => ?_, h5⟩
      obtain ⟨h6, h7⟩ := h4 a ha
      dsimp only at e1
      exact ⟨e1 ▸ h6, fun v hv => .inl (h7 v (by unfold Ctx.cell at hv ⊢; rw [e1] at hv; exact hv))⟩
  | next i =>
    obtain ⟨h1, h2, d, h3, h4, h5⟩ := h
    rw [next_fst]
    have weaken : ∀ a, (a < (A.list x.1).mem.vals.length ∧ ∀ v ∈ (A.list x.1).cell a, S v) →
        (a < (A.list x.1).mem.vals.length ∧ ∀ v ∈ (A.list x.1).cell a, S v ∨ v ∈ A.contents (A.step (.next i) x).2) :=
      fun a h => ⟨h.1, fun v hv => .inl (h.2 v hv)⟩
    by_cases hij : i = j
    · subst hij
      have hs := HCursor.step (as := (A.list x.1).self.lists) (cell := (A.list x.1).cell) d
      rcases next_self (A := A) h3 with e | e
      · refine ⟨_, e, fun a ha => weaken a ?_, fun hp => hs.plain (h5 hp)⟩
        rcases hs.addrs a ha with h6 | h6
        · exact h4 a h6
        · exact ⟨h1.bound a h6, fun v hv => h2 v (mem_iter.2 ⟨a, h6, hv⟩)⟩
      · exact ⟨_, e, fun a ha => by simp [HCursor.addrs] at ha, fun _ q hq => by simp at hq⟩
    · exact ⟨d, (next_other hij x).trans h3, fun a ha => weaken a (h4 a ha), h5⟩
  | call op =>
    obtain ⟨s, its⟩ := x
    obtain ⟨h1, h2, d, h3, h4, h5⟩ := h
    obtain ⟨l1, l2⟩ := (hA.call op s h1).2
    simp only [step]
    split <;> rename_i hx <;> rw [hx] at l1 l2 <;>
    · refine ⟨d, h3, fun a ha => ?_, h5⟩
      obtain ⟨h6, h7⟩ := h4 a ha
      refine ⟨Nat.lt_of_lt_of_le h6 l1, fun v hv => ?_⟩
      rcases l2 a h6 v hv with h8 | h8 | h8
      · exact .inl (h7 v h8)
      · exact .inl (h2 v h8)
      · exact .inr h8

theorem Holds.mono {p : Prop} {j : Nat} {k : K} {S T : α → Prop} {x : BoxState σ K} (h : Holds A p j k S x)
    (hT : ∀ v, S v → T v) : Holds A p j k T x := by
  obtain ⟨h1, h2, d, h3, h4, h5⟩ := h
  exact ⟨h1, fun v hv => hT v (h2 v hv), d, h3, fun a ha => ⟨(h4 a ha).1, fun v hv => hT v ((h4 a ha).2 v hv)⟩, h5⟩

theorem holds_hist (hA : A.Lawful plain) {p : Prop} {j : Nat} {k : K} {S : α → Prop} (evs : List (Event K C))
    {x : BoxState σ K} (h : Holds A p j k S x) :
    Holds A p j k (fun v => S v ∨ ∃ evs', evs' <+: evs ∧ v ∈ A.contents (runHist A.step evs' x).2) (runHist A.step evs x).2 := by
  induction evs generalizing x S with
  | nil => exact h.mono fun v hv => .inl hv
  | cons ev evs ih =>
    refine (ih (holds_step hA ev h)).mono fun v hv => ?_
    rcases hv with (hv | hv) | ⟨evs', h1, h2⟩
    · exact .inl hv
    · exact .inr ⟨[ev], List.cons_prefix_cons.2 ⟨rfl, List.nil_prefix⟩, hv⟩
    · exact .inr ⟨ev :: evs', List.cons_prefix_cons.2 ⟨rfl, h1⟩, h2⟩

theorem holds_open (hA : A.Lawful plain) (k : K) {x x' : BoxState σ K} (ho : Own (A.list x.1))
    (h : A.step (.opens k) x = (.ok .opened, x')) :
    Holds A (plain k) x.2.length k (fun v => v ∈ A.contents x') x' := by
  have ho' := own_step hA (.opens k) ho
  rw [h] at ho'
  obtain ⟨s, its⟩ := x
  obtain ⟨e1, e2, e3⟩ := hA.opens k s
  simp only [step] at h
  split at h
  · rename_i d s' hx
    cases h
    rw [hx] at e1 e2
    obtain ⟨h1, h2⟩ := hA.holds k s d (by rw [hx])
    dsimp only at e1 e2 ho'
    refine ⟨ho', fun _ h => h, d, ?_, fun a ha => ⟨?_, fun v hv => mem_iter.2 ⟨a, ?_, hv⟩⟩, h2⟩
    · show (its ++ [(k, d)])[its.length]? = _
      simp
    · rw [e1]; exact ho.bound a (h1 a ha)
    · rw [e2]; exact h1 a ha
  · cases h

/-- What a request can be answered. -/
theorem answer {p : Prop} {j : Nat} {k : K} {S : α → Prop} {x : BoxState σ K} (h : Holds A p j k S x)
    (r : Except PyErr (EvOut β R)) (hr : (A.step (.next j) x).1 = r) :
    (∃ v b, r = .ok (.value b) ∧ S v ∧ A.view k v x.1 = .ok b) ∨ r = .ok .stop ∨ (r = .error .indexError ∧ ¬ p) ∨
    ∃ v e, r = .error e ∧ S v ∧ A.view k v x.1 = .error e := by
  obtain ⟨s, its⟩ := x
  obtain ⟨h1, h2, d, h3, h4, h5⟩ := h
  have hs := HCursor.step (as := (A.list s).self.lists) (cell := (A.list s).cell) d
  dsimp only at h3
  simp only [step, h3] at hr
  subst hr
  split
  · rename_i hx
    obtain ⟨rfl, h6⟩ := hs.error _ (congrArg Prod.fst hx)
    exact .inr (.inr (.inl ⟨rfl, fun hp => h6 (h5 hp)⟩))
  · exact .inr (.inl rfl)
  · rename_i v _ hx
    obtain ⟨a, h6, h7⟩ := hs.value _ (congrArg Prod.fst hx)
    have hv : S v := by
      rcases h6 with h6 | h6
      · exact (h4 a h6).2 v h7
      · exact h2 v (mem_iter.2 ⟨a, h6, h7⟩)
    split <;> rename_i e
    · exact .inl ⟨v, _, rfl, hv, e⟩
    · exact .inr (.inr (.inr ⟨v, _, rfl, hv, e⟩))

/-- An iterator that was created after `pre`: every answer to a request after `mid`. -/
theorem answers (hA : A.Lawful plain) (pre mid : List (Event K C)) (k : K) {s : σ} (ho : Own (A.list s))
    (hk : (A.step (.opens k) (A.after s pre)).1 = .ok .opened) (r : Except PyErr (EvOut β R))
    (hr : (A.step (.next (A.after s pre).2.length) (A.after s (pre ++ .opens k :: mid))).1 = r) :
    let old (v : α) : Prop := ∃ mid', mid' <+: mid ∧ v ∈ A.contents (A.after s (pre ++ .opens k :: mid'))
    (∃ v b, r = .ok (.value b) ∧ old v ∧ A.view k v (A.after s (pre ++ .opens k :: mid)).1 = .ok b) ∨
    r = .ok .stop ∨ (r = .error .indexError ∧ ¬ plain k) ∨
    ∃ v e, r = .error e ∧ old v ∧ A.view k v (A.after s (pre ++ .opens k :: mid)).1 = .error e := by
  intro old
  have h1 := holds_open hA k (own_hist hA pre (x := (s, [])) ho) (Prod.ext hk rfl)
  have h2 := holds_hist hA mid h1
  have e : ∀ mid, A.after s (pre ++ .opens k :: mid) =
      (runHist A.step mid (A.step (.opens k) (A.after s pre)).2).2 := fun mid => LiveSys.runHist_append ..
  have hold : ∀ v, (v ∈ A.contents (A.step (.opens k) (runHist A.step pre (s, [])).2).2 ∨ ∃ evs', evs' <+: mid ∧
      v ∈ A.contents (runHist A.step evs' (A.step (.opens k) (runHist A.step pre (s, [])).2).2).2) → old v := by
    rintro v (h4 | ⟨mid', h5, h6⟩)
    · exact ⟨[], List.nil_prefix, by rw [e]; exact h4⟩
    · exact ⟨mid', h5, by rw [e]; exact h6⟩
  rw [e] at hr ⊢
  rcases answer h2 r hr with ⟨v, b, h3, h4, h5⟩ | h3 | h3 | ⟨v, e', h3, h4, h5⟩
  · exact .inl ⟨v, b, h3, hold v h4, h5⟩
  · exact .inr (.inl h3)
  · exact .inr (.inr (.inl h3))
  · exact .inr (.inr (.inr ⟨v, e', h3, hold v h4, h5⟩))

/-! ## An iterator that has stopped, and an iterator of a container that is left alone -/

/-- The iterator has nothing left. -/
def Done (j : Nat) (x : BoxState σ K) : Prop := ∃ k, x.2[j]? = some (k, [])

theorem done_of_stop {j : Nat} {x : BoxState σ K} (h : (A.step (.next j) x).1 = .ok .stop) :
    Done j (A.step (.next j) x).2 := by
  obtain ⟨s, its⟩ := x
  revert h
  simp only [step]
  split
  · intro h; cases h
  · rename_i k d hd
    have hs := HCursor.step (as := (A.list s).self.lists) (cell := (A.list s).cell) d
    split
    · intro h; cases h
    · rename_i d' hx
      intro _
      have h1 := hs.stop (congrArg Prod.fst hx)
      rw [hx] at h1
      dsimp only at h1
      subst h1
      exact ⟨k, List.getElem?_set_self (List.getElem?_eq_some_iff.1 hd).1⟩
    · split <;> intro h <;> cases h

/-- Only looking up a key raises a KeyError. -/
theorem done_of_keyError {j : Nat} {x : BoxState σ K} (h : (A.step (.next j) x).1 = .error .keyError) :
    Done j (A.step (.next j) x).2 := by
  obtain ⟨s, its⟩ := x
  revert h
  simp only [step]
  split
  · intro h; cases h
  · rename_i k d hd
    have hs := HCursor.step (as := (A.list s).self.lists) (cell := (A.list s).cell) d
    split
    · rename_i e d' hx
      intro h
      cases h
      have := (hs.error _ (congrArg Prod.fst hx)).1
      cases this
    · intro h; cases h
    · split
      · intro h; cases h
      · exact fun _ => ⟨k, List.getElem?_set_self (List.getElem?_eq_some_iff.1 hd).1⟩

theorem done_next {j : Nat} {x : BoxState σ K} (h : Done j x) : (A.step (.next j) x).1 = .ok .stop := by
  obtain ⟨s, its⟩ := x
  obtain ⟨k, h⟩ := h
  have h : its[j]? = some (k, []) := h
  simp only [step, h, HCursor.next_nil]

theorem done_step {j : Nat} (ev : Event K C) {x : BoxState σ K} (h : Done j x) : Done j (A.step ev x).2 := by
  obtain ⟨k, h⟩ := h
  cases ev with
  | opens k' =>
    obtain ⟨s, its⟩ := x
    have hl := (List.getElem?_eq_some_iff.1 h).1
    simp only [step]
    split
    · refine ⟨k, ?_⟩
      show (its ++ _)[j]? = _
      rw [List.getElem?_append_left hl]; exact h
    · exact ⟨k, h⟩
  | next i =>
    by_cases hij : i = j
    · subst hij
      rcases next_self (A := A) h with e | e
      · rw [HCursor.next_nil] at e; exact ⟨k, e⟩
      · exact ⟨k, e⟩
    · exact ⟨k, (next_other hij x).trans h⟩
  | call op =>
    simp only [step]
    split <;> exact ⟨k, h⟩

theorem done_hist {j : Nat} (evs : List (Event K C)) {x : BoxState σ K} (h : Done j x) : Done j (runHist A.step evs x).2 := by
  induction evs generalizing x with
  | nil => exact h
  | cons ev evs ih => exact ih (done_step ev h)

/-- Once left alone, the iterator ends. -/
theorem ends {j : Nat} {x : BoxState σ K} (hj : j < x.2.length) :
    ∃ n, (A.step (.next j) (runHist A.step (List.replicate n (.next j)) x).2).1 = .ok .stop := by
  obtain ⟨s, its⟩ := x
  obtain ⟨⟨k, d⟩, hd⟩ : ∃ d, its[j]? = some d := ⟨_, List.getElem?_eq_getElem hj⟩
  clear hj
  generalize hn : d.size (A.list s).self.lists (A.list s).cell = n
  induction n using Nat.strongRecOn generalizing its d with
  | ind n ih =>
    subst hn
    have hs := HCursor.step (as := (A.list s).self.lists) (cell := (A.list s).cell) d
    by_cases hstop : (d.next (A.list s).self.lists (A.list s).cell).1 = .ok none
    · refine ⟨0, ?_⟩
      simp only [List.replicate_zero, runHist, step, hd]
      split <;> rename_i hx <;> rw [hx] at hstop <;> first | rfl | cases hstop
    · have hlt := hs.size hstop
      have e1 := next_fst (A := A) j (s, its)
      rcases hx : (A.step (.next j) (s, its)).2 with ⟨s', its'⟩
      rw [hx] at e1
      have e1 : s' = s := e1
      subst e1
      rcases next_self (A := A) (x := (s', its)) hd with e | e <;> rw [hx] at e
      · obtain ⟨m, hm⟩ := ih _ hlt its' _ e rfl
        refine ⟨m + 1, ?_⟩
        rw [List.replicate_succ]
        simp only [runHist, hx]
        exact hm
      · refine ⟨1, ?_⟩
        simp only [List.replicate_succ, List.replicate_zero, runHist, hx]
        exact done_next ⟨k, e⟩

/-! ## What is promised -/

/-- What makes a container with iterators behave as specified. -/
structure Conforms {τ : Type} (A : BoxSys σ α κ β K C R) (B : IterSpec τ α β K C R) (I : σ → Prop) (abs : σ → τ)
    (V : C → Prop) : Prop where
  call : ∀ op s, V op → I s →
    (A.call op s).1 = (B.call op (abs s)).1 ∧ abs (A.call op s).2 = (B.call op (abs s)).2 ∧ I (A.call op s).2
  quiet : ∀ op s, V op → I s → B.quiet op (abs s) = true →
    (A.list (A.call op s).2).self.lists = (A.list s).self.lists ∧ (A.list (A.call op s).2).view.lists = (A.list s).view.lists
  opens : ∀ k s, I s → ∃ h s', A.opens k s = (.ok h, s') ∧
    (∃ d, HCursor.resolve (A.list s).self.lists d = .ok h ∧ Cursor.Yields (A.list s).view.lists d (B.values k (abs s))) ∧
    (A.list s').self.lists = (A.list s).self.lists ∧ (A.list s').view.lists = (A.list s).view.lists ∧ abs s' = abs s ∧ I s'
  view : ∀ k v s, I s → A.view k v s = B.view k v (abs s)
  /-- looking up the values does not raise -/
  found : ∀ k s, I s → ∀ v ∈ B.values k (abs s), ∃ b, B.view k v (abs s) = .ok b
  stays : ∀ op s, V op → I s → B.quiet op (abs s) = true → ∀ k v b, B.view k v (abs s) = .ok b →
    ∃ b', B.view k v (B.call op (abs s)).2 = .ok b'

variable {τ : Type} {B : IterSpec τ α β K C R} {I : σ → Prop} {abs : σ → τ} {V : C → Prop}

/-- The iterators are as promised. -/
structure Promised (A : BoxSys σ α κ β K C R) (B : IterSpec τ α β K C R) (I : σ → Prop) (abs : σ → τ) (x : BoxState σ K)
    (y : IterSpec.State τ α K) : Prop where
  inv : I x.1
  abs : abs x.1 = y.1
  length : x.2.length = y.2.length
  yields : ∀ (j : Nat) (k : K) (xs : List α), y.2[j]? = some (some (k, xs)) →
    (∃ h d, x.2[j]? = some (k, h) ∧ HCursor.resolve (A.list x.1).self.lists d = .ok h ∧
      Cursor.Yields (A.list x.1).view.lists d xs) ∧ ∀ v ∈ xs, ∃ b, B.view k v y.1 = .ok b

theorem Conforms.step (h : A.Conforms B I abs V) (ev : Event K C) (hv : ev.Valid V) {x : BoxState σ K}
    {y : IterSpec.State τ α K} (hr : Promised A B I abs x y) :
    Meets (B.step ev y).1 (A.step ev x).1 ∧ Promised A B I abs (A.step ev x).2 (B.step ev y).2 := by
  obtain ⟨s, its⟩ := x
  obtain ⟨t, jts⟩ := y
  obtain ⟨hi, rfl, hl, hy⟩ := hr
  dsimp only at hi hl hy ⊢
  cases ev with
  | opens k =>
    obtain ⟨c, s', e, ⟨d, h0, h1⟩, h2, h3, h4, h5⟩ := h.opens k s hi
    simp only [BoxSys.step, IterSpec.step, e]
    refine ⟨rfl, h5, h4, by simp [hl], fun j k' xs hj => ?_⟩
    dsimp only at hj ⊢
    rw [h2, h3]
    rcases Nat.lt_trichotomy j jts.length with hlt | rfl | hgt
    · rw [List.getElem?_append_left hlt] at hj
      rw [List.getElem?_append_left (hl ▸ hlt)]
      exact hy j k' xs hj
    · rw [List.getElem?_append_right (Nat.le_refl _)] at hj
      rw [List.getElem?_append_right (Nat.le_of_eq hl)]
      simp only [Nat.sub_self, List.getElem?_cons_zero, Option.some.injEq, Prod.mk.injEq] at hj
      obtain ⟨rfl, rfl⟩ := hj
      exact ⟨⟨c, d, by simp [hl], h0, h1⟩, h.found k s hi⟩
    · rw [List.getElem?_eq_none (by simp; omega)] at hj
      cases hj
  | next j =>
    simp only [BoxSys.step, IterSpec.step]
    cases hj : jts[j]? with
    | none =>
      have : its[j]? = none := List.getElem?_eq_none (by rw [hl]; exact List.getElem?_eq_none_iff.1 hj)
      simp only [this]
      exact ⟨rfl, hi, rfl, hl, hy⟩
    | some o =>
      have hjl : j < jts.length := (List.getElem?_eq_some_iff.1 hj).1
      cases o with
      | none =>
        refine ⟨trivial, ?_⟩
        obtain ⟨⟨k, c⟩, hc⟩ : ∃ p, its[j]? = some p := ⟨_, List.getElem?_eq_getElem (hl ▸ hjl)⟩
        have key : ∀ c', Promised A B I abs (s, its.set j (k, c')) (abs s, jts) := fun c' =>
          ⟨hi, rfl, by simp [hl], fun j' k' xs hj' => by
            have hne : j ≠ j' := by rintro rfl; rw [hj] at hj'; cases hj'
            obtain ⟨⟨d, d', hd, hd'⟩, hf⟩ := hy j' k' xs hj'
            exact ⟨⟨d, d', by rw [List.getElem?_set_ne hne]; exact hd, hd'⟩, hf⟩⟩
        simp only [hc]
        split
        · exact key _
        · exact key _
        · split <;> exact key _
      | some p =>
        obtain ⟨k, xs⟩ := p
        obtain ⟨⟨c, d, hc, hd, hyc⟩, hf⟩ := hy j k xs hj
        simp only [hc]
        have key : ∀ c' d' xs', HCursor.resolve (A.list s).self.lists d' = .ok c' → Cursor.Yields (A.list s).view.lists d' xs' →
            (∀ v ∈ xs', v ∈ xs) →
            Promised A B I abs (s, its.set j (k, c')) (abs s, jts.set j (some (k, xs'))) := fun c' d' xs' h0 hh hsub =>
          ⟨hi, rfl, by simp [hl], fun j' k' ys hj' => by
            by_cases hne : j = j'
            · subst hne
              dsimp only at hj' ⊢
              rw [List.getElem?_set_self hjl] at hj'
              cases hj'
              exact ⟨⟨c', d', List.getElem?_set_self (hl ▸ hjl), h0, hh⟩, fun v hv => hf v (hsub v hv)⟩
            · dsimp only at hj' ⊢
              rw [List.getElem?_set_ne hne] at hj' ⊢
              exact hy j' k' ys hj'⟩
        cases xs with
        | nil =>
          have e : d.next (A.list s).view.lists = .ok (none, []) := hyc
          obtain ⟨h', e1, e2⟩ := HCursor.next_resolve d hd e
          simp only [e1]
          refine ⟨rfl, ?_⟩
          have := key h' [] [] e2 Cursor.yields_nil (fun _ h => h)
          rwa [show jts.set j (some (k, [])) = jts from List.ext_getElem? fun i => by
            by_cases hij : j = i
            · subst hij; rw [List.getElem?_set_self hjl, hj]
            · rw [List.getElem?_set_ne hij]] at this
        | cons v xs =>
          obtain ⟨d', e, hy'⟩ := hyc
          obtain ⟨h', e1, e2⟩ := HCursor.next_resolve d hd e
          obtain ⟨b, hb⟩ := hf v (by simp)
          simp only [e1, h.view k v s hi, hb]
          exact ⟨rfl, key h' d' xs e2 hy' fun v hv => List.mem_cons_of_mem _ hv⟩
  | call op =>
    obtain ⟨h1, h2, h3⟩ := h.call op s hv hi
    have hq := h.quiet op s hv hi
    have hst := h.stays op s hv hi
    simp only [BoxSys.step, IterSpec.step]
    rcases hb : B.call op (abs s) with ⟨r, t'⟩
    rcases ha : A.call op s with ⟨r', s'⟩
    rw [ha] at h1 h2 h3 hq
    rw [hb] at h1 h2 hst
    dsimp only at h1 h2 h3 hq hst
    subst h1
    subst h2
    have key : Promised A B I abs (s', its) (abs s', if B.quiet op (abs s) = true then jts else jts.map fun _ => none) := by
      refine ⟨h3, rfl, by dsimp only; split <;> simp [hl], fun j k xs hj => ?_⟩
      dsimp only at hj ⊢
      split at hj
      · rename_i hqq
        obtain ⟨q1, q2⟩ := hq hqq
        rw [q1, q2]
        obtain ⟨h5, h6⟩ := hy j k xs hj
        refine ⟨h5, fun v hv => ?_⟩
        obtain ⟨b, hb⟩ := h6 v hv
        exact hst hqq k v b hb
      · simp at hj
    cases r' with
    | ok b => exact ⟨rfl, key⟩
    | error e => exact ⟨rfl, key⟩

/-- Every schedule. -/
theorem Conforms.hist (h : A.Conforms B I abs V) (evs : List (Event K C)) (hv : ∀ ev ∈ evs, ev.Valid V) {x : BoxState σ K}
    {y : IterSpec.State τ α K} (hr : Promised A B I abs x y) :
    (runHist A.step evs x).1.length = (runHist B.step evs y).1.length ∧
    (∀ (i : Nat) r r', (runHist B.step evs y).1[i]? = some r → (runHist A.step evs x).1[i]? = some r' → Meets r r') ∧
    Promised A B I abs (runHist A.step evs x).2 (runHist B.step evs y).2 := by
  induction evs generalizing x y with
  | nil => exact ⟨rfl, fun _ _ _ h => by simp [runHist] at h, hr⟩
  | cons ev evs ih =>
    obtain ⟨h1, h2⟩ := h.step ev (hv ev (by simp)) hr
    obtain ⟨i1, i2, i3⟩ := ih (fun e he => hv e (by simp [he])) h2
    refine ⟨by simp [runHist, i1], fun i r r' e e' => ?_, i3⟩
    cases i with
    | zero =>
      simp only [runHist, List.getElem?_cons_zero, Option.some.injEq] at e e'
      subst e e'; exact h1
    | succ i => exact i2 i r r' e e'

theorem promised_start {s : σ} (hi : I s) : Promised A B I abs (s, []) (abs s, []) :=
  ⟨hi, rfl, rfl, fun _ _ _ h => by simp at h⟩

end BoxSys
end Heap
end Verif
