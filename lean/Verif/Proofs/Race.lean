import Verif.Model.Race
/-!
# A program logic for threads that change one list

`B.Safe Q s m`: after the object was seen as `s`, the program `m` does only what the other threads may count on (`B.Rel`), provided that they do the same; it raises only exceptions
in `B.err`, returns only results in `Q`, and if `B.grow` it never goes round for ever.
-/

namespace Verif.Race
variable {α κ β γ : Type}

/-- What all threads keep to: the values in sublists are in `val`, the load factor is in `load`; if `grow`, then `_maxes` is never emptied.  `err` are the exceptions that they may raise. -/
structure Bounds (α κ : Type) where
  val : α → Prop
  load : Nat → Prop
  grow : Prop
  err : PyErr → Prop
  index : err .indexError
  value : err .valueError

namespace Bounds
variable {B : Bounds α κ}

def Holds (B : Bounds α κ) (s : Shared α κ) : Prop := (∀ l ∈ s.cells, ∀ v ∈ l, B.val v) ∧ B.load s.load

/-- `s'` may come after `s`. -/
def Rel (B : Bounds α κ) (s s' : Shared α κ) : Prop := B.Holds s' ∧ (B.grow → s.maxes ≠ [] → s'.maxes ≠ [])

theorem Rel.trans {s t u : Shared α κ} (h : B.Rel s t) (h' : B.Rel t u) : B.Rel s u := ⟨h'.1, fun g n => h'.2 g (h.2 g n)⟩
theorem Holds.refl {s : Shared α κ} (h : B.Holds s) : B.Rel s s := ⟨h, fun _ => id⟩

def Safe (B : Bounds α κ) (Q : Shared α κ → β → Prop) : Shared α κ → Run α κ β → Prop
  | s, .ret (.ok b) => Q s b
  | _, .ret (.error e) => B.err e
  | s, .act f k => ∀ t, B.Rel s t → B.Rel t (f t) ∧ Safe B Q (f t) (k t)
  | _, .spin => ¬ B.grow

variable {Q : Shared α κ → β → Prop} {Q' : Shared α κ → γ → Prop} {s : Shared α κ}

theorem Safe.bind {m : Run α κ β} {f : β → Run α κ γ} (hs : B.Holds s) (h : B.Safe Q s m) (hf : ∀ t b, B.Rel s t → B.Holds t → Q t b → B.Safe Q' t (f b)) :
    B.Safe Q' s (m >>= f) := by
  show B.Safe Q' s (Task.bind m f)
  induction m generalizing s with
  | ret x =>
    match x, h with
    | .ok b, h => exact hf s b hs.refl hs h
    | .error e, h => exact h
  | act g k ih =>
    intro t ht
    obtain ⟨h1, h2⟩ := h t ht
    exact ⟨h1, ih t h1.1 h2 fun u b r hu q => hf u b ((ht.trans h1).trans r) hu q⟩
  | spin => exact h

theorem Safe.mono {m : Run α κ β} {Q' : Shared α κ → β → Prop} (h : B.Safe Q s m) (hq : ∀ t b, Q t b → Q' t b) : B.Safe Q' s m := by
  induction m generalizing s with
  | ret x =>
    match x, h with
    | .ok b, h => exact hq _ _ h
    | .error e, h => exact h
  | act g k ih =>
    intro t ht
    exact ⟨(h t ht).1, ih t (h t ht).2⟩
  | spin => exact h

/-- A program may also be started later. -/
theorem Safe.later {m : Run α κ β} {Q : β → Prop} {t : Shared α κ} (h : B.Safe (fun _ => Q) s m) (r : B.Rel s t) : B.Safe (fun _ => Q) t m := by
  cases m with
  | ret x => match x, h with
    | .ok b, h => exact h
    | .error e, h => exact h
  | act g k => exact fun u hu => h u (r.trans hu)
  | spin => exact h

theorem Safe.pure {b : β} (h : Q s b) : B.Safe Q s (pure b : Run α κ β) := h
theorem Safe.raise {e : PyErr} (h : B.err e) : B.Safe Q s (Task.raise e : Run α κ β) := h
theorem Safe.lift {x : Except PyErr β} (he : ∀ e, x = .error e → B.err e) (h : ∀ b, x = .ok b → Q s b) : B.Safe Q s (Task.lift x : Run α κ β) := by
  match x with
  | .ok b => exact h b rfl
  | .error e => exact he e rfl

theorem Safe.tsee {f : Shared α κ → Except PyErr β} (he : ∀ t e, B.Holds t → f t = .error e → B.err e) (h : ∀ t b, B.Rel s t → f t = .ok b → Q t b) :
    B.Safe Q s (Task.see f) := by
  intro t ht
  refine ⟨ht.1.refl, ?_⟩
  show B.Safe Q t (.ret (f t))
  cases hx : f t with
  | ok b => exact h t b ht hx
  | error e => exact he t e ht.1 hx

theorem Safe.see (f : Shared α κ → β) : B.Safe (fun t b => B.Rel s t ∧ b = f t) s (Race.see f) :=
  Safe.tsee (fun _ _ _ h => by cases h) fun t b r h => ⟨r, by cases h; rfl⟩

theorem Safe.change {f : Shared α κ → Except PyErr (Shared α κ)} (he : ∀ t e, f t = .error e → B.err e) (h : ∀ t t', B.Holds t → f t = .ok t' → B.Rel t t') :
    B.Safe (fun _ _ => True) s (Task.change f) := by
  intro t ht
  simp only
  cases hx : f t with
  | ok t' => exact ⟨h t t' ht.1 hx, trivial⟩
  | error e => exact ⟨ht.1.refl, he t e hx⟩

theorem Safe.assign {f : Shared α κ → Shared α κ} (h : ∀ t, B.Holds t → B.Rel t (f t)) : B.Safe (fun _ _ => True) s (Race.assign f) :=
  Safe.change (fun _ _ h => by cases h) fun t t' ht e => by cases e; exact h t ht

theorem place_err {n : Nat} {i : Int} {e : PyErr} (h : place n i = .error e) : e = .indexError := by
  unfold place at h
  split at h
  · cases h
  · split at h
    · cases h
    · cases h; rfl

theorem fetch_err {l : List β} {i : Int} {e : PyErr} (h : fetch l i = .error e) : e = .indexError := by
  unfold fetch at h
  cases hp : place l.length i with
  | error e' => rw [hp] at h; cases h; exact place_err hp
  | ok j =>
    rw [hp] at h
    change getItem l j = _ at h
    unfold getItem at h
    split at h
    · cases h
    · cases h; rfl

theorem fetch_mem {l : List β} {i : Int} {x : β} (h : fetch l i = .ok x) : x ∈ l := by
  unfold fetch at h
  cases hp : place l.length i with
  | error e' => rw [hp] at h; cases h
  | ok j =>
    rw [hp] at h
    change getItem l j = _ at h
    unfold getItem at h
    split at h
    · rename_i hx; cases h; exact List.mem_of_getElem? hx
    · cases h

theorem map_place_err {n : Nat} {i : Int} {f : Nat → β} {e : PyErr} (h : f <$> place n i = .error e) : e = .indexError := by
  cases hp : place n i with
  | error e' => rw [hp] at h; cases h; exact place_err hp
  | ok j => rw [hp] at h; cases h

theorem map_err {x : Except PyErr β} {f : β → γ} {e : PyErr} (h : f <$> x = .error e) : x = .error e := by
  cases x with
  | error e' => cases h; rfl
  | ok j => cases h

theorem map_ok {x : Except PyErr β} {f : β → γ} {c : γ} (h : f <$> x = .ok c) : ∃ b, x = .ok b ∧ c = f b := by
  cases x with
  | error e' => cases h
  | ok j => cases h; exact ⟨j, rfl, rfl⟩

theorem Holds.cell {t : Shared α κ} (h : B.Holds t) (a : Nat) : ∀ v ∈ t.cell a, B.val v := by
  intro v hv
  unfold Shared.cell at hv
  by_cases ha : a < t.cells.length
  · have e : t.cells.getD a [] = t.cells[a] := by simp [ha]
    rw [e] at hv
    exact h.1 _ (List.getElem_mem ha) v hv
  · have e : t.cells.getD a [] = [] := by simp [List.getD, List.getElem?_eq_none (Nat.le_of_not_lt ha)]
    rw [e] at hv; cases hv

theorem Holds.put {t : Shared α κ} (h : B.Holds t) (a : Nat) {l : List α} (hl : ∀ v ∈ l, B.val v) : B.Rel t (t.put a l) := by
  refine ⟨⟨fun l' hl' => ?_, h.2⟩, fun _ => id⟩
  rcases List.mem_or_eq_of_mem_set hl' with h' | h'
  · exact h.1 l' h'
  · exact h' ▸ hl

theorem Safe.sublist (p : Int) : B.Safe (fun _ _ => True) s (sublist p : Run α κ Nat) :=
  Safe.tsee (fun _ _ _ h => fetch_err h ▸ B.index) fun _ _ _ _ => trivial

theorem Safe.subkeys (p : Int) : B.Safe (fun _ _ => True) s (subkeys p : Run α κ Nat) :=
  Safe.tsee (fun _ _ _ h => fetch_err h ▸ B.index) fun _ _ _ _ => trivial

theorem Safe.entry (a : Nat) (i : Int) : B.Safe (fun _ x => B.val x) s (entry a i : Run α κ α) :=
  Safe.tsee (fun _ _ _ h => fetch_err h ▸ B.index) fun _ _ r h => r.1.cell a _ (fetch_mem h)

theorem Safe.kentry (a : Nat) (i : Int) : B.Safe (fun _ _ => True) s (kentry a i : Run α κ κ) :=
  Safe.tsee (fun _ _ _ h => fetch_err h ▸ B.index) fun _ _ _ _ => trivial

theorem Safe.look (f : Shared α κ → List β) (i : Int) : B.Safe (fun _ _ => True) s (Task.see fun t => fetch (f t) i : Run α κ β) :=
  Safe.tsee (fun _ _ _ h => fetch_err h ▸ B.index) fun _ _ _ _ => trivial

theorem Safe.alloc {f : Shared α κ → List α} (hf : ∀ t, B.Holds t → ∀ v ∈ f t, B.val v) : B.Safe (fun _ _ => True) s (alloc f) := by
  intro t ht
  refine ⟨⟨⟨fun l hl => ?_, ht.1.2⟩, fun _ => id⟩, trivial⟩
  rcases List.mem_append.1 hl with h' | h'
  · exact ht.1.1 l h'
  · simp only [List.mem_singleton] at h'
    exact h' ▸ hf t ht.1

theorem Safe.kalloc (f : Shared α κ → List κ) : B.Safe (fun _ _ => True) s (kalloc f) :=
  fun _ ht => ⟨⟨ht.1, fun _ => id⟩, trivial⟩

theorem Safe.alter (a : Nat) {f : List α → List α} (hf : ∀ l, (∀ v ∈ l, B.val v) → ∀ v ∈ f l, B.val v) : B.Safe (fun _ _ => True) s (alter a f : Run α κ Unit) :=
  Safe.assign fun _ ht => ht.put a (hf _ (ht.cell a))

theorem Safe.kalter (a : Nat) (f : List κ → List κ) : B.Safe (fun _ _ => True) s (kalter a f : Run α κ Unit) :=
  Safe.assign fun _ ht => ⟨ht, fun _ => id⟩

theorem Safe.setMax (p : Int) (m : κ) : B.Safe (fun _ _ => True) s (setMax p m : Run α κ Unit) := by
  refine Safe.change (fun t e h => map_place_err (map_err h) ▸ B.index) fun t t' ht h => ?_
  obtain ⟨x, h1, rfl⟩ := map_ok h
  obtain ⟨j, -, rfl⟩ := map_ok h1
  refine ⟨ht, fun _ hn => ?_⟩
  simpa using hn

theorem Safe.dropList (p : Int) : B.Safe (fun _ _ => True) s (dropList p : Run α κ Unit) := by
  refine Safe.change (fun t e h => map_place_err (map_err h) ▸ B.index) fun t t' ht h => ?_
  obtain ⟨x, h1, rfl⟩ := map_ok h
  exact ⟨ht, fun _ => id⟩

theorem Safe.dropKeys (p : Int) : B.Safe (fun _ _ => True) s (dropKeys p : Run α κ Unit) := by
  refine Safe.change (fun t e h => map_place_err (map_err h) ▸ B.index) fun t t' ht h => ?_
  obtain ⟨x, h1, rfl⟩ := map_ok h
  exact ⟨ht, fun _ => id⟩

theorem Safe.dropMax (hg : ¬ B.grow) (p : Int) : B.Safe (fun _ _ => True) s (dropMax p : Run α κ Unit) := by
  refine Safe.change (fun t e h => map_place_err (map_err h) ▸ B.index) fun t t' ht h => ?_
  obtain ⟨x, h1, rfl⟩ := map_ok h
  exact ⟨ht, fun g => absurd g hg⟩

theorem Safe.dropIndex : B.Safe (fun _ _ => True) s (dropIndex : Run α κ Unit) := Safe.assign fun _ ht => ⟨ht, fun _ => id⟩

theorem remove_mem {l l' : List β} {i : Int} (h : Race.remove l i = .ok l') : ∀ v ∈ l', v ∈ l := by
  obtain ⟨j, -, rfl⟩ := map_ok h
  exact fun v hv => List.mem_of_mem_eraseIdx hv

theorem Safe.erase (a : Nat) (i : Int) : B.Safe (fun _ _ => True) s (Task.change fun t => (fun l => t.put a l) <$> Race.remove (t.cell a) i : Run α κ Unit) := by
  refine Safe.change (fun t e h => map_place_err (map_err h) ▸ B.index) fun t t' ht h => ?_
  obtain ⟨x, h1, rfl⟩ := map_ok h
  exact ht.put a fun v hv => ht.cell a v (remove_mem h1 v hv)

theorem Safe.kerase (a : Nat) (i : Int) : B.Safe (fun _ _ => True) s (Task.change fun t => (fun l => t.kput a l) <$> Race.remove (t.kcell a) i : Run α κ Unit) := by
  refine Safe.change (fun t e h => map_place_err (map_err h) ▸ B.index) fun t t' ht h => ?_
  obtain ⟨x, h1, rfl⟩ := map_ok h
  exact ⟨ht, fun _ => id⟩

/-- Assignments that leave the sublists of values, the load factor and `_maxes` alone. -/
theorem Safe.other {f : Shared α κ → Shared α κ} (h1 : ∀ t, (f t).cells = t.cells) (h2 : ∀ t, (f t).load = t.load) (h3 : ∀ t, t.maxes ≠ [] → (f t).maxes ≠ []) :
    B.Safe (fun _ _ => True) s (Race.assign f) :=
  Safe.assign fun t ht => ⟨⟨by rw [h1]; exact ht.1, by rw [h2]; exact ht.2⟩, fun _ => h3 t⟩

theorem insert_ne {l : List β} {i : Int} {x : β} : insert l i x ≠ [] := by
  intro h
  have := congrArg List.length h
  simp [insert, insertAt] at this

theorem insert_mem {l : List β} {i : Int} {x v : β} (h : v ∈ insert l i x) : v = x ∨ v ∈ l := by
  simp only [insert, insertAt, List.mem_append, List.mem_cons] at h
  rcases h with h | h | h
  · exact .inr (List.mem_of_mem_take h)
  · exact .inl h
  · exact .inr (List.mem_of_mem_drop h)

/-- One access after the other: `B.Holds` is known of the state before, and becomes known of the state after. -/
macro "go" t:term : tactic => `(tactic| (refine Safe.bind (by assumption) $t ?_; intro _ _ _ _ _))

theorem Safe.bisectLoop {lt : κ → κ → Except PyErr Bool} (hlt : ∀ x y e, lt x y = .error e → B.err e) (right : Bool) (f : Shared α κ → List κ) (x : κ) (n lo hi : Nat)
    (hs : B.Holds s) : B.Safe (fun _ _ => True) s (bisectLoop lt right (fun i => Task.see fun t => fetch (f t) i) x n lo hi) := by
  induction n generalizing s lo hi with
  | zero => exact Safe.pure trivial
  | succ n ih =>
    unfold Race.bisectLoop
    split
    · go Safe.look _ _
      refine Safe.bind (Q := fun _ _ => True) (by assumption) (Safe.lift (fun e he => ?_) fun _ _ => trivial) ?_
      · split at he
        · exact hlt _ _ _ he
        · exact hlt _ _ _ he
      · intro _ _ _ _ _
        split
        · exact ih _ _ (by assumption)
        · exact ih _ _ (by assumption)
    · exact Safe.pure trivial

theorem Safe.bisectMaxes {lt : κ → κ → Except PyErr Bool} (hlt : ∀ x y e, lt x y = .error e → B.err e) (right : Bool) (x : κ) (hs : B.Holds s) :
    B.Safe (fun _ _ => True) s (bisectMaxes lt right x : Run α κ Nat) := by
  unfold Race.bisectMaxes
  go Safe.see _
  exact Safe.bisectLoop hlt right _ x _ _ _ (by assumption)

theorem Safe.addLen (d : Int) (hs : B.Holds s) : B.Safe (fun _ _ => True) s (addLen d : Run α κ Unit) := by
  unfold Race.addLen
  go Safe.see _
  exact Safe.other (fun _ => rfl) (fun _ => rfl) fun _ => id

theorem Safe.bump (d i : Int) (hs : B.Holds s) : B.Safe (fun _ _ => True) s (bump d i : Run α κ Unit) := by
  unfold Race.bump
  go Safe.look _ _
  refine Safe.change (fun t e h => map_place_err (map_err h) ▸ B.index) fun t t' ht h => ?_
  obtain ⟨x, h1, rfl⟩ := map_ok h
  exact ⟨ht, fun _ => id⟩

theorem Safe.buildIndex (ilog2 : Nat → Nat) (hs : B.Holds s) : B.Safe (fun _ _ => True) s (buildIndex ilog2 : Run α κ Unit) := by
  have two : ∀ {t : Shared α κ} (f g : Shared α κ → Shared α κ), B.Holds t → (∀ t, (f t).cells = t.cells ∧ (f t).load = t.load ∧ (f t).maxes = t.maxes) →
      (∀ t, (g t).cells = t.cells ∧ (g t).load = t.load ∧ (g t).maxes = t.maxes) → B.Safe (fun _ _ => True) t (do Race.assign f; Race.assign g : Run α κ Unit) := by
    intro t f g ht hf hg
    go Safe.other (fun t => (hf t).1) (fun t => (hf t).2.1) (fun t h => by rw [(hf t).2.2]; exact h)
    exact Safe.other (fun t => (hg t).1) (fun t => (hg t).2.1) (fun t h => by rw [(hg t).2.2]; exact h)
  unfold Race.buildIndex
  go Safe.see _
  split
  · exact two _ _ (by assumption) (fun _ => ⟨rfl, rfl, rfl⟩) fun _ => ⟨rfl, rfl, rfl⟩
  · simp only
    repeat' split
    all_goals first
      | exact Safe.raise B.value
      | exact two _ _ (by assumption) (fun _ => ⟨rfl, rfl, rfl⟩) fun _ => ⟨rfl, rfl, rfl⟩

theorem Safe.ensureIndex (ilog2 : Nat → Nat) (hs : B.Holds s) : B.Safe (fun _ _ => True) s (ensureIndex ilog2 : Run α κ Unit) := by
  unfold Race.ensureIndex
  go Safe.see _
  split
  · exact Safe.buildIndex ilog2 (by assumption)
  · exact Safe.pure trivial

theorem Safe.locLoop (n pos : Nat) (total : Int) (hs : B.Holds s) : B.Safe (fun _ _ => True) s (locLoop n pos total : Run α κ Int) := by
  induction n generalizing s pos total with
  | zero => exact Safe.pure trivial
  | succ n ih =>
    unfold Race.locLoop
    split
    · exact Safe.pure trivial
    · split
      · go Safe.look _ _
        exact ih _ _ (by assumption)
      · exact ih _ _ hs

theorem Safe.loc (ilog2 : Nat → Nat) (pos idx : Nat) (hs : B.Holds s) : B.Safe (fun _ _ => True) s (loc ilog2 pos idx : Run α κ Int) := by
  unfold Race.loc
  split
  · exact Safe.pure trivial
  · go Safe.ensureIndex ilog2 (by assumption)
    go Safe.see _
    go Safe.locLoop _ _ _ (by assumption)
    exact Safe.pure trivial

theorem Safe.posLoop (m n pos child : Nat) (idx : Int) (hs : B.Holds s) : B.Safe (fun _ _ => True) s (posLoop m n pos child idx : Run α κ (Nat × Int)) := by
  induction n generalizing s pos child idx with
  | zero => exact Safe.pure trivial
  | succ n ih =>
    unfold Race.posLoop
    split
    · go Safe.look _ _
      split
      · exact ih _ _ _ (by assumption)
      · exact ih _ _ _ (by assumption)
    · exact Safe.pure trivial

theorem Safe.posNonneg (ilog2 : Nat → Nat) (idx : Int) (hs : B.Holds s) : B.Safe (fun _ _ => True) s (posNonneg ilog2 idx : Run α κ (Int × Int)) := by
  unfold Race.posNonneg
  go Safe.sublist _
  go Safe.see _
  split
  · exact Safe.pure trivial
  · go Safe.ensureIndex ilog2 (by assumption)
    go Safe.see _
    go Safe.posLoop _ _ _ _ _ (by assumption)
    go Safe.see _
    exact Safe.pure trivial

theorem Safe.pos (ilog2 : Nat → Nat) (idx : Int) (hs : B.Holds s) : B.Safe (fun _ _ => True) s (pos ilog2 idx : Run α κ (Int × Int)) := by
  unfold Race.pos
  split
  · go Safe.sublist _
    go Safe.see _
    split
    · go Safe.see _
      exact Safe.pure trivial
    · go Safe.see _
      split
      · exact Safe.raise B.index
      · exact Safe.posNonneg ilog2 _ (by assumption)
  · go Safe.see _
    split
    · exact Safe.raise B.index
    · exact Safe.posNonneg ilog2 _ (by assumption)

theorem Safe.getFar (ilog2 : Nat → Nat) (i : Int) (hs : B.Holds s) : B.Safe (fun _ x => B.val x) s (getFar ilog2 i : Run α κ α) := by
  unfold Race.getFar
  go Safe.sublist _
  go Safe.see _
  split
  · go Safe.sublist _
    exact Safe.entry _ _
  · go Safe.pos ilog2 _ (by assumption)
    go Safe.sublist _
    exact Safe.entry _ _

theorem Safe.getInt (ilog2 : Nat → Nat) (i : Int) (hs : B.Holds s) : B.Safe (fun _ x => B.val x) s (getInt ilog2 i : Run α κ α) := by
  unfold Race.getInt
  go Safe.see _
  split
  · exact Safe.raise B.index
  · split
    · go Safe.sublist _
      exact Safe.entry _ _
    · split
      · go Safe.sublist _
        exact Safe.entry _ _
      · split
        · go Safe.sublist _
          go Safe.see _
          split
          · go Safe.sublist _
            exact Safe.entry _ _
          · exact Safe.getFar ilog2 i (by assumption)
        · exact Safe.getFar ilog2 i (by assumption)

theorem Safe.length : B.Safe (fun _ _ => True) s (length : Run α κ Int) := by
  refine Safe.tsee (fun t e _ h => ?_) fun _ _ _ _ => trivial
  split at h
  · cases h; exact B.value
  · cases h

theorem Safe.toList : B.Safe (fun _ l => ∀ v ∈ l, B.val v) s (toList : Run α κ (List α)) := by
  refine Safe.mono (Safe.see _) ?_
  rintro t l ⟨r, rfl⟩ v hv
  obtain ⟨a, -, ha⟩ := List.mem_flatMap.1 hv
  exact r.1.cell a v ha

theorem Safe.reversed : B.Safe (fun _ l => ∀ v ∈ l, B.val v) s (reversed : Run α κ (List α)) := by
  refine Safe.mono (Safe.see _) ?_
  rintro t l ⟨r, rfl⟩ v hv
  obtain ⟨a, -, ha⟩ := List.mem_flatMap.1 (List.mem_reverse.1 hv)
  exact r.1.cell a v ha

theorem cut_mem {l : List β} {i j : Option Int} {v : β} (h : v ∈ cut l i j) : v ∈ l := by
  unfold cut at h
  split at h
  · exact List.mem_of_mem_take (List.mem_of_mem_drop h)
  · cases h

theorem Safe.seeVals {f : Shared α κ → List α} (hf : ∀ t, B.Holds t → ∀ v ∈ f t, B.val v) : B.Safe (fun _ l => ∀ v ∈ l, B.val v) s (Race.see f) := by
  refine Safe.mono (Safe.see _) ?_
  rintro t l ⟨r, rfl⟩
  exact hf t r.1

theorem Safe.any {m : Run α κ β} {Q : Shared α κ → β → Prop} (h : B.Safe Q s m) : B.Safe (fun _ _ => True) s m := h.mono fun _ _ _ => trivial

theorem indices_err {sl : PySlice} {n : Nat} {e : PyErr} (h : sl.indices n = .error e) : e = .valueError := by
  unfold PySlice.indices at h
  simp only at h
  split at h <;> cases h
  rfl

theorem Safe.indices (sl : PySlice) : B.Safe (fun _ _ => True) s (indices sl : Run α κ (Int × Int × Int)) := by
  refine Safe.tsee (fun t e _ h => ?_) fun _ _ _ _ => trivial
  split at h
  · cases h; exact B.value
  · exact indices_err h ▸ B.value

theorem Safe.mapEach {f : γ → Run α κ β} {Q : β → Prop} {xs : List γ} (hf : ∀ x ∈ xs, ∀ t, B.Holds t → B.Safe (fun _ => Q) t (f x)) (hs : B.Holds s) :
    B.Safe (fun _ ys => ∀ y ∈ ys, Q y) s (mapEach f xs) := by
  induction xs generalizing s with
  | nil => exact Safe.pure fun _ h => by cases h
  | cons x xs ih =>
    unfold Race.mapEach
    refine Safe.bind hs (hf x (by simp) s hs) fun t b _ ht hb => ?_
    refine Safe.bind ht (ih (fun y hy => hf y (by simp [hy])) ht) fun u l _ _ hl => Safe.pure ?_
    intro y hy
    rcases List.mem_cons.1 hy with rfl | h
    · exact hb
    · exact hl y h

theorem Safe.seeIf (c : Prop) [Decidable c] (f : Shared α κ → Bool) : B.Safe (fun _ _ => True) s (seeIf c f) := by
  unfold Race.seeIf
  split
  · exact (Safe.see _).any
  · exact Safe.pure trivial

theorem Safe.sliceEnd (ilog2 : Nat → Nat) (i j : Int) (hs : B.Holds s) : B.Safe (fun _ _ => True) s (sliceEnd ilog2 i j : Run α κ (Int × Int)) := by
  unfold Race.sliceEnd
  split
  · go Safe.see _
    go Safe.sublist _
    go Safe.see _
    exact Safe.pure trivial
  · exact Safe.pos ilog2 _ hs

theorem Safe.isliceEnd (ilog2 : Nat → Nat) (i j : Int) (hs : B.Holds s) : B.Safe (fun _ _ => True) s (isliceEnd ilog2 i j : Run α κ (Int × Int)) := by
  unfold Race.isliceEnd
  split
  · go Safe.see _
    go Safe.sublist _
    go Safe.see _
    exact Safe.pure trivial
  · exact Safe.pos ilog2 _ hs

theorem Safe.getSliceFar (ilog2 : Nat → Nat) (i j : Int) (hs : B.Holds s) : B.Safe (fun _ l => ∀ v ∈ l, B.val v) s (getSliceFar ilog2 i j : Run α κ (List α)) := by
  unfold Race.getSliceFar
  go Safe.pos ilog2 _ (by assumption)
  go Safe.sublist _
  go Safe.see _
  split
  · exact Safe.seeVals fun t ht v hv => ht.cell _ v (cut_mem hv)
  · go Safe.see _
    go Safe.sliceEnd ilog2 _ _ (by assumption)
    · go Safe.sublist _
      refine Safe.bind (by assumption) (Safe.seeVals fun t ht v hv => ht.cell _ v (cut_mem hv)) fun _ pre _ _ h1 => ?_
      go Safe.see _
      refine Safe.bind (by assumption) (Safe.seeVals fun t ht v hv => by
        obtain ⟨a, -, ha⟩ := List.mem_flatMap.1 hv
        exact ht.cell a v ha) fun _ mid _ _ h2 => ?_
      go Safe.sublist _
      refine Safe.bind (by assumption) (Safe.seeVals fun t ht v hv => ht.cell _ v (cut_mem hv)) fun _ post _ _ h3 => Safe.pure ?_
      intro v hv
      rcases List.mem_append.1 hv with hv | hv
      · rcases List.mem_append.1 hv with hv | hv
        · exact h1 v hv
        · exact h2 v hv
      · exact h3 v hv

theorem Safe.getSliceFwd (ilog2 : Nat → Nat) (i j : Int) (hs : B.Holds s) : B.Safe (fun _ l => ∀ v ∈ l, B.val v) s (getSliceFwd ilog2 i j : Run α κ (List α)) := by
  unfold Race.getSliceFwd
  go Safe.seeIf _ _
  · split
    · exact Safe.toList
    · exact Safe.getSliceFar ilog2 _ _ (by assumption)

theorem Safe.getSliceStep1 (ilog2 : Nat → Nat) (i j : Option Int) (hs : B.Holds s) : B.Safe (fun _ l => ∀ v ∈ l, B.val v) s (getSliceStep1 ilog2 i j : Run α κ (List α)) := by
  unfold Race.getSliceStep1
  go Safe.indices _
  split
  · exact Safe.getSliceFwd ilog2 _ _ (by assumption)
  · exact Safe.mapEach (fun x _ t ht => Safe.getInt ilog2 x ht) (by assumption)

theorem Safe.getSlice (ilog2 : Nat → Nat) (sl : PySlice) (hs : B.Holds s) : B.Safe (fun _ l => ∀ v ∈ l, B.val v) s (getSlice ilog2 sl : Run α κ (List α)) := by
  unfold Race.getSlice
  go Safe.indices _
  split
  · exact Safe.getSliceFwd ilog2 _ _ (by assumption)
  · split
    · refine Safe.bind (by assumption) (Safe.getSliceStep1 ilog2 _ _ (by assumption)) fun _ l _ _ h => Safe.pure fun v hv => h v (List.mem_reverse.1 hv)
    · exact Safe.mapEach (fun x _ t ht => Safe.getInt ilog2 x ht) (by assumption)

theorem fetches_err {l : List β} {is : List Int} {e : PyErr} (h : fetches l is = .error e) : e = .indexError := by
  unfold fetches at h
  induction is with
  | nil => cases h
  | cons i is ih =>
    rw [mapE] at h
    split at h
    · rename_i h'; cases h; exact fetch_err h'
    · split at h
      · rename_i h'; cases h; exact ih h'
      · cases h

theorem fetches_mem {l : List β} {is : List Int} {xs : List β} (h : fetches l is = .ok xs) : ∀ x ∈ xs, x ∈ l := by
  unfold fetches at h
  induction is generalizing xs with
  | nil => cases h; exact fun _ h => by cases h
  | cons i is ih =>
    rw [mapE] at h
    split at h
    · cases h
    · split at h
      · cases h
      · rename_i h1 _ ys h2
        cases h
        intro x hx
        rcases List.mem_cons.1 hx with rfl | hx
        · exact fetch_mem h1
        · exact ih h2 x hx

theorem parts {ζ : Type} {x z : Except PyErr β} {y : Except PyErr γ} {f : β → γ → β → ζ} {r : Except PyErr ζ} (hr : (x >>= fun a => y >>= fun b => z >>= fun c => .ok (f a b c)) = r)
    (hx : ∀ e, x = .error e → B.err e) (hy : ∀ e, y = .error e → B.err e) (hz : ∀ e, z = .error e → B.err e) :
    (∃ e, r = .error e ∧ B.err e) ∨ ∃ a b c, x = .ok a ∧ y = .ok b ∧ z = .ok c ∧ r = .ok (f a b c) := by
  subst hr
  cases x with
  | error e => exact .inl ⟨e, rfl, hx e rfl⟩
  | ok a =>
    cases y with
    | error e => exact .inl ⟨e, rfl, hy e rfl⟩
    | ok b =>
      cases z with
      | error e => exact .inl ⟨e, rfl, hz e rfl⟩
      | ok c => exact .inr ⟨a, b, c, rfl, rfl, rfl, rfl⟩

theorem Safe.islicePos (a b c d : Int) (rev : Bool) (hs : B.Holds s) : B.Safe (fun _ l => ∀ v ∈ l, B.val v) s (islicePos a b c d rev : Run α κ (List α)) := by
  have he : ∀ {β : Type} (l : List β) is e, fetches l is = .error e → B.err e := fun l is e h => fetches_err h ▸ B.index
  unfold Race.islicePos
  split
  · exact Safe.pure fun _ h => by cases h
  · split
    · go Safe.sublist _
      exact Safe.tsee (fun t e _ h => he _ _ e h) fun t l r h v hv => r.1.cell _ v (fetches_mem h v hv)
    · go Safe.sublist _
      go Safe.see _
      split
      · go Safe.sublist _
        go Safe.sublist _
        refine Safe.tsee (fun t e _ h => ?_) fun t l r h v hv => ?_
        · obtain ⟨e', h1, h2⟩ | ⟨_, _, _, _, _, _, h1⟩ := parts (B := B) h (he _ _) (he _ _) (he _ _) <;> cases h1
          exact h2
        obtain ⟨e', h1, h2⟩ | ⟨xs, ys, zs, h1, h2, h3, h4⟩ := parts (B := B) h (he _ _) (he _ _) (he _ _)
        · cases h1
        cases h4
        rcases List.mem_append.1 hv with hv | hv
        · rcases List.mem_append.1 hv with hv | hv
          · exact r.1.cell _ v (fetches_mem h1 v hv)
          · obtain ⟨a, -, ha⟩ := List.mem_flatMap.1 hv
            exact r.1.cell a v (List.mem_reverse.1 ha)
        · exact r.1.cell _ v (fetches_mem h3 v hv)
      · go Safe.sublist _
        go Safe.sublist _
        refine Safe.tsee (fun t e _ h => ?_) fun t l r h v hv => ?_
        · obtain ⟨e', h1, h2⟩ | ⟨_, _, _, _, _, _, h1⟩ := parts (B := B) h (he _ _) (he _ _) (he _ _) <;> cases h1
          exact h2
        obtain ⟨e', h1, h2⟩ | ⟨xs, ys, zs, h1, h2, h3, h4⟩ := parts (B := B) h (he _ _) (he _ _) (he _ _)
        · cases h1
        cases h4
        rcases List.mem_append.1 hv with hv | hv
        · rcases List.mem_append.1 hv with hv | hv
          · exact r.1.cell _ v (fetches_mem h1 v hv)
          · obtain ⟨a, -, ha⟩ := List.mem_flatMap.1 hv
            exact r.1.cell a v ha
        · exact r.1.cell _ v (fetches_mem h3 v hv)

theorem Safe.islice (ilog2 : Nat → Nat) (i j : Option Int) (rev : Bool) (hs : B.Holds s) : B.Safe (fun _ l => ∀ v ∈ l, B.val v) s (islice ilog2 i j rev : Run α κ (List α)) := by
  unfold Race.islice
  go Safe.see _
  split
  · exact Safe.pure fun _ h => by cases h
  · go Safe.indices _
    split
    · exact Safe.pure fun _ h => by cases h
    · go Safe.pos ilog2 _ (by assumption)
      go Safe.isliceEnd ilog2 _ _ (by assumption)
      exact Safe.islicePos _ _ _ _ _ (by assumption)

theorem Safe.irangeTop {lt : κ → κ → Except PyErr Bool} (hlt : ∀ x y e, lt x y = .error e → B.err e) {bisectCell : Bool → Nat → κ → Run α κ Nat} {size : Int → Run α κ Nat}
    (hb : ∀ r p x t, B.Holds t → B.Safe (fun _ _ => True) t (bisectCell r p x)) (hz : ∀ p t, B.Holds t → B.Safe (fun _ _ => True) t (size p)) (m : Option κ) (inc : Bool) (hs : B.Holds s) :
    B.Safe (fun _ _ => True) s (irangeTop lt bisectCell size m inc) := by
  unfold Race.irangeTop
  split
  · go Safe.see _
    go hz _ _ (by assumption)
    exact Safe.pure trivial
  · go Safe.bisectMaxes hlt _ _ (by assumption)
    go Safe.see _
    split
    · go hz _ _ (by assumption)
      exact Safe.pure trivial
    · go hb _ _ _ _ (by assumption)
      exact Safe.pure trivial

theorem Safe.irangeWith {lt : κ → κ → Except PyErr Bool} (hlt : ∀ x y e, lt x y = .error e → B.err e) {bisectCell : Bool → Nat → κ → Run α κ Nat} {size : Int → Run α κ Nat}
    (hb : ∀ r p x t, B.Holds t → B.Safe (fun _ _ => True) t (bisectCell r p x)) (hz : ∀ p t, B.Holds t → B.Safe (fun _ _ => True) t (size p)) (lo hi : Option κ) (incMin incMax rev : Bool) (hs : B.Holds s) :
    B.Safe (fun _ l => ∀ v ∈ l, B.val v) s (irangeWith lt bisectCell size lo hi incMin incMax rev) := by
  unfold Race.irangeWith
  go Safe.see _
  split
  · exact Safe.pure fun _ h => by cases h
  · split
    · go Safe.irangeTop hlt hb hz _ _ (by assumption)
      exact Safe.islicePos _ _ _ _ _ (by assumption)
    · go Safe.bisectMaxes hlt _ _ (by assumption)
      go Safe.see _
      split
      · exact Safe.pure fun _ h => by cases h
      · go hb _ _ _ _ (by assumption)
        go Safe.irangeTop hlt hb hz _ _ (by assumption)
        exact Safe.islicePos _ _ _ _ _ (by assumption)

theorem Safe.climb (d : Int) (n : Nat) (child : Int) (hs : B.Holds s) : B.Safe (fun _ _ => True) s (climb d n child : Run α κ Unit) := by
  induction n generalizing s child with
  | zero => exact Safe.pure trivial
  | succ n ih =>
    unfold Race.climb
    split
    · go Safe.bump _ _ (by assumption)
      exact ih _ (by assumption)
    · exact Safe.pure trivial

theorem Safe.sink (hg : ¬ B.grow) (fuel : Nat) (child : Int) (hs : B.Holds s) : B.Safe (fun _ _ => True) s (sink fuel child : Run α κ Unit) := by
  induction fuel generalizing s child with
  | zero => exact hg
  | succ fuel ih =>
    unfold Race.sink
    go Safe.bump _ _ (by assumption)
    exact ih _ (by assumption)

theorem Safe.bumpUp (fuel : Nat) (child : Int) (hc : B.grow → 0 ≤ child) (hs : B.Holds s) : B.Safe (fun _ _ => True) s (bumpUp fuel child : Run α κ Unit) := by
  unfold Race.bumpUp
  split
  · exact Safe.sink (fun g => by have := hc g; omega) _ _ hs
  · go Safe.climb _ _ _ (by assumption)
    exact Safe.bump _ _ (by assumption)

theorem Safe.bumpDown (child : Int) (hs : B.Holds s) : B.Safe (fun _ _ => True) s (bumpDown child : Run α κ Unit) := by
  unfold Race.bumpDown
  go Safe.climb _ _ _ (by assumption)
  exact Safe.bump _ _ (by assumption)

theorem Safe.touchUp (fuel : Nat) (pos : Int) (hp : B.grow → 0 ≤ pos) (hs : B.Holds s) : B.Safe (fun _ _ => True) s (touchUp fuel pos : Run α κ Unit) := by
  unfold Race.touchUp
  go Safe.see _
  split
  · exact Safe.pure trivial
  · go Safe.see _
    exact Safe.bumpUp fuel _ (fun g => by have := hp g; omega) (by assumption)

theorem Safe.touchDown (pos : Int) (hs : B.Holds s) : B.Safe (fun _ _ => True) s (touchDown pos : Run α κ Unit) := by
  unfold Race.touchDown
  go Safe.see _
  split
  · exact Safe.pure trivial
  · go Safe.see _
    exact Safe.bumpDown _ (by assumption)

theorem Safe.forEach {f : γ → Run α κ Unit} {xs : List γ} (hf : ∀ x ∈ xs, ∀ t, B.Holds t → B.Safe (fun _ _ => True) t (f x)) (hs : B.Holds s) :
    B.Safe (fun _ _ => True) s (Task.forEach f xs) := by
  induction xs generalizing s with
  | nil => exact Safe.pure trivial
  | cons x xs ih =>
    unfold Task.forEach
    go hf x (by simp) _ (by assumption)
    exact ih (fun y hy => hf y (by simp [hy])) (by assumption)

theorem Safe.delSliceWith (ilog2 : Nat → Nat) {clear : Run α κ Unit} {update : List α → Run α κ Unit} {delInt : Int → Run α κ Unit} (hc : ∀ t, B.Holds t → B.Safe (fun _ _ => True) t clear)
    (hu : ∀ xs, (∀ v ∈ xs, B.val v) → ∀ t, B.Holds t → B.Safe (fun _ _ => True) t (update xs)) (hd : ∀ i t, B.Holds t → B.Safe (fun _ _ => True) t (delInt i)) (sl : PySlice) (hs : B.Holds s) :
    B.Safe (fun _ _ => True) s (delSliceWith ilog2 clear update delInt sl) := by
  unfold Race.delSliceWith
  go Safe.indices _
  go Safe.seeIf _ _
  split
  · exact hc _ (by assumption)
  go Safe.seeIf _ _
  split
  · refine Safe.bind (by assumption) (Safe.getSliceStep1 ilog2 _ _ (by assumption)) fun _ l _ _ h => ?_
    go Safe.see _
    refine Safe.bind (Q := fun _ l => ∀ v ∈ l, B.val v) (by assumption) ?_ fun t l' _ _ h' => ?_
    · unfold Race.getRest
      split
      · exact Safe.getSliceStep1 ilog2 _ _ (by assumption)
      · exact Safe.pure fun _ h => by cases h
    go hc _ (by assumption)
    refine hu _ (fun v hv => ?_) _ (by assumption)
    rcases List.mem_append.1 hv with hv | hv
    · exact h v hv
    · exact h' v hv
  · exact Safe.forEach (fun x _ t ht => hd x t ht) (by assumption)

theorem Safe.addLists {cs : List (List α)} (h : ∀ c ∈ cs, ∀ v ∈ c, B.val v) (hs : B.Holds s) : B.Safe (fun _ _ => True) s (addLists cs : Run α κ Unit) := by
  unfold Race.addLists
  refine Safe.forEach (fun c hc t ht => ?_) hs
  go Safe.alloc fun _ _ => h c hc
  exact Safe.other (fun _ => rfl) (fun _ => rfl) fun _ => id

end Bounds
end Verif.Race
