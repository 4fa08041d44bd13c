import Verif.Proofs.RaceAlone
import Verif.Proofs.CountedSize
/-!
# The methods of both list classes, run alone
-/

namespace Verif
variable {α κ β γ δ : Type}
namespace Race
variable {s : Shared α κ} {t : St α κ}

/-- The positional index has an entry for each sublist. -/
def Fits (t : St α κ) : Prop := t.index ≠ [] → t.offset + t.lists.length ≤ t.index.length

theorem Fits.of_inv {k : α → κ} {lt : κ → κ → Bool} {keyed : Bool} (h : Inv k lt keyed t) : Fits t := fun hn => by
  have := (h.index_ok hn).1.length_eq
  simp at this; omega

namespace Agrees

theorem touchUp (fuel : Nat) {p : Nat} (hM : Mirrors s t) (hp : t.index ≠ [] → t.offset + p < t.index.length) : Agrees id (Race.touchUp fuel p) s (Core.touchIndex Core.incr p) t := by
  unfold Race.touchUp Core.touchIndex
  refine see (get ?_)
  refine ite hM.index_nil (fun _ => pure hM rfl) fun h => see ?_
  have hn : t.index ≠ [] := fun h' => h (hM.index_nil.2 h')
  cases e : Core.bumpPath Core.incr t.index (t.offset + p) with
  | error e' =>
    exfalso
    have : ∀ n c (l : List Nat), c ≤ n → c < l.length → ∃ l', Core.bumpPath Core.incr l c = .ok l' := by
      intro n
      induction n with
      | zero =>
        intro c l h1 h2
        rw [Core.bumpPath, show getItem l c = .ok l[c] by simp [getItem, h2]]
        simp [Core.incr, show c = 0 by omega]
      | succ n ih =>
        intro c l h1 h2
        rw [Core.bumpPath, show getItem l c = .ok l[c] by simp [getItem, h2]]
        by_cases h0 : c = 0
        · simp [Core.incr, h0]
        · simp only [Core.incr, dif_neg h0]
          exact ih _ _ (by omega) (by simp; omega)
    obtain ⟨l', h'⟩ := this _ _ t.index (Nat.le_refl _) (hp hn)
    rw [h'] at e; cases e
  | ok index' =>
    refine ret (c := ()) (s' := { s with index := index'.map Int.ofNat }) (t' := { t with index := index' }) ?_ rfl (hM.setIndex _)
    have := alone_climb (s := s) (f := Core.incr) (d := 1) (fun x y h => by cases h; rfl) (t.offset + p) (t.offset + p) t.index index' (Nat.le_refl _) hM.index (hp hn) e
    unfold bumpUp
    rw [show ((s.offset : Int) + (p : Int)) = ((t.offset + p : Nat) : Int) by rw [hM.offset]; omega, if_neg (by omega), Int.toNat_natCast]
    exact this

theorem touchDown {p : Nat} (hM : Mirrors s t) (hp : t.index ≠ [] → t.offset + p < t.index.length) : Agrees id (Race.touchDown p) s (Core.touchIndex Core.decr p) t := by
  unfold Race.touchDown Core.touchIndex
  refine see (get ?_)
  refine ite hM.index_nil (fun _ => pure hM rfl) fun h => see ?_
  have hn : t.index ≠ [] := fun h' => h (hM.index_nil.2 h')
  cases e : Core.bumpPath Core.decr t.index (t.offset + p) with
  | error e' =>
    have : ∀ n c (l : List Nat), c ≤ n → c < l.length → ∀ e', Core.bumpPath Core.decr l c = .error e' → e' = .modelGap := by
      intro n
      induction n with
      | zero =>
        intro c l h1 h2 e' h
        rw [Core.bumpPath, show getItem l c = .ok l[c] by simp [getItem, h2]] at h
        cases hc : l[c] <;> simp_all [Core.decr]
      | succ n ih =>
        intro c l h1 h2 e' h
        rw [Core.bumpPath, show getItem l c = .ok l[c] by simp [getItem, h2]] at h
        by_cases h0 : c = 0
        · cases hc : l[c] <;> simp_all [Core.decr]
        · cases hc : l[c] with
          | zero => simp_all [Core.decr]
          | succ m =>
            simp only [hc, Core.decr, dif_neg h0] at h
            exact ih _ _ (by omega) (by simp; omega) _ h
    have := this _ _ t.index (Nat.le_refl _) (hp hn) _ e
    subst this
    exact .inl rfl
  | ok index' =>
    refine ret (c := ()) (s' := { s with index := index'.map Int.ofNat }) (t' := { t with index := index' }) ?_ rfl (hM.setIndex _)
    have := alone_climb (s := s) (f := Core.decr) (d := -1) (fun x y h => by cases x <;> simp_all [Core.decr] <;> omega) (t.offset + p) (t.offset + p) t.index index' (Nat.le_refl _) hM.index (hp hn) e
    unfold bumpDown
    rw [show ((s.offset : Int) + (p : Int)) = ((t.offset + p : Nat) : Int) by rw [hM.offset]; omega, Int.toNat_natCast]
    exact this

/-- Only the positional index differs. -/
def Kept (s s' : Shared α κ) : Prop := ∃ i o, s' = { s with index := i, offset := o }

theorem Kept.refl (s : Shared α κ) : Kept s s := ⟨_, _, rfl⟩

theorem buildIndex (ilog2 : Nat → Nat) (hM : Mirrors s t) (hl : t.lists ≠ []) :
    ∃ s' t', (Race.buildIndex ilog2).alone s = some (.ok (), s') ∧ Core.buildIndex ilog2 t = (.ok (), t') ∧ Mirrors s' t' ∧ Kept s s' ∧ Reindexed t t' := by
  have e0 : t.lists.map List.length = s.lists.map fun a => (s.cell a).length := by rw [hM.lists, List.map_map]; rfl
  unfold Race.buildIndex Core.buildIndex
  rw [Task.alone_bind', alone_see, Py.get_bind]
  dsimp only
  rw [← e0]
  have hne : (t.lists.map List.length).length ≠ 0 := by simpa using hl
  generalize t.lists.map List.length = row0 at hne
  by_cases h1 : row0.length = 1
  · rw [if_pos h1, if_pos h1]
    exact ⟨_, _, rfl, rfl, (hM.setIndex row0).setOffset 0, ⟨_, _, rfl⟩, ⟨_, _, rfl⟩⟩
  · rw [if_neg h1, if_neg h1]
    generalize hr : (if row0.length % 2 = 1 then Core.pairSums row0 ++ row0.getLast?.toList else Core.pairSums row0) = row1
    have hr1 : row1.length ≠ 0 := by
      subst hr
      have := Core.pairSums_length row0
      intro h
      split at h <;> (try simp only [List.length_append] at h) <;> omega
    by_cases h2 : row1.length = 1
    · rw [if_pos h2, if_pos h2]
      exact ⟨_, _, rfl, rfl, (hM.setIndex (row1 ++ row0)).setOffset 1, ⟨_, _, rfl⟩, ⟨_, _, rfl⟩⟩
    · rw [if_neg h2, if_neg h2, if_neg hr1]
      refine ⟨_, _, rfl, rfl, ?_, ⟨_, _, rfl⟩, ⟨_, _, rfl⟩⟩
      have := (hM.setIndex (t.index ++ (Core.growTree [row0, row1 ++ List.replicate (2 ^ (ilog2 (row1.length - 1) + 1) - row1.length) 0]
        (row1 ++ List.replicate (2 ^ (ilog2 (row1.length - 1) + 1) - row1.length) 0)).reverse.flatten)).setOffset (2 ^ (ilog2 (row1.length - 1) + 1) * 2 - 1)
      rw [List.map_append, ← hM.index] at this
      exact this

theorem ensureIndex (ilog2 : Nat → Nat) (hM : Mirrors s t) (hl : t.lists ≠ []) :
    ∃ s' t', (Race.ensureIndex ilog2).alone s = some (.ok (), s') ∧ Core.ensureIndex ilog2 t = (.ok (), t') ∧ Mirrors s' t' ∧ Kept s s' ∧ Reindexed t t' := by
  unfold Race.ensureIndex Core.ensureIndex
  rw [Task.alone_bind', alone_see, Py.get_bind]
  dsimp only
  by_cases h : s.index = []
  · rw [if_pos h, if_pos (hM.index_nil.1 h)]
    exact buildIndex ilog2 hM hl
  · rw [if_neg h, if_neg (fun h' => h (hM.index_nil.2 h'))]
    exact ⟨s, t, rfl, rfl, hM, .refl s, .refl t⟩

theorem loc (ilog2 : Nat → Nat) (pos idx : Nat) (hM : Mirrors s t) (hl : t.lists ≠ []) :
    Agrees Int.ofNat (Race.loc ilog2 pos idx) s (Core.loc ilog2 pos idx) t := by
  unfold Race.loc Core.loc
  refine ite Iff.rfl (fun _ => pure hM rfl) fun _ => ?_
  obtain ⟨s', t', e, e', hM', _, _⟩ := ensureIndex ilog2 hM hl
  refine left e ?_
  show Agrees _ _ _ (fun t => (Core.ensureIndex ilog2 >>= _) t) _
  have : ∀ m (q : Unit → Py (St α κ) Nat), Agrees (Int.ofNat) m s' (q ()) t' → Agrees Int.ofNat m s' (Core.ensureIndex ilog2 >>= q) t := by
    intro m q h
    unfold Agrees at *
    rw [Py.bind_ok e']
    exact h
  refine this _ _ (see (get ?_))
  refine reads Int.toNat (x := (Core.locLoop t'.index (pos + t'.offset) 0).map Int.ofNat) ?_ ?_ hM' ?_
  · rw [← hM'.offset]
    exact alone_locLoop hM'.index _ _ 0 (Nat.le_refl _)
  · cases Core.locLoop t'.index (pos + t'.offset) 0 <;> rfl
  · intro b hb
    cases hx : Core.locLoop t'.index (pos + t'.offset) 0 with
    | error e => rw [hx] at hb; cases hb
    | ok n => rw [hx] at hb; cases hb; exact pure hM' (by simp)

/-- A position: the sublist and the offset in it -/
def place (r : Nat × Nat) : Int × Int := (r.1, r.2)

/-- `Agrees`, and only the positional index changes -/
def Keeps (f : γ → β) (m : Run α κ β) (s : Shared α κ) (p : Py (St α κ) γ) (t : St α κ) : Prop :=
  (p t).1 = .error .modelGap ∨ ∃ s', m.alone s = some ((p t).1.map f, s') ∧ Mirrors s' (p t).2 ∧ Kept s s' ∧ Reindexed t (p t).2

theorem Keeps.agrees {f : γ → β} {m : Run α κ β} {p : Py (St α κ) γ} (h : Keeps f m s p t) : Agrees f m s p t := by
  rcases h with h | ⟨s', a, b, _⟩
  · exact .inl h
  · exact .inr ⟨s', a, b⟩

theorem posNonneg (ilog2 : Nat → Nat) (idx : Nat) (hM : Mirrors s t) : Keeps place (Race.posNonneg ilog2 idx) s (Core.posNonneg ilog2 idx) t := by
  unfold Keeps Race.posNonneg Core.posNonneg
  have hg := hM.getItem_lists 0
  simp only [Task.alone_bind', Race.sublist, Task.alone_see, show fetch s.lists 0 = getItem s.lists 0 from fetch_nat s.lists 0, Py.get_bind]
  cases h0 : getItem s.lists 0 with
  | error e =>
    rw [h0] at hg
    exact .inr ⟨s, by simp [hg, Except.map], by simpa [hg, Except.map] using hM, .refl s, by simpa [hg, Except.map] using Reindexed.refl t⟩
  | ok a =>
    rw [h0] at hg
    have hne : t.lists ≠ [] := by
      intro h
      rw [h] at hg; cases hg
    simp only [hg, Except.map, Py.lift_ok_bind, alone_see]
    by_cases h1 : idx < (s.cell a).length
    · rw [if_pos h1, if_pos (by omega)]
      exact .inr ⟨s, rfl, hM, .refl s, .refl t⟩
    · rw [if_neg h1, if_neg (by omega)]
      obtain ⟨s', t', e, e', hM', hk, hr⟩ := ensureIndex ilog2 hM hne
      rw [Task.alone_bind', e, Py.bind_ok e', Py.get_bind]
      dsimp only
      rw [Task.alone_bind', alone_see]
      dsimp only
      rw [Task.alone_bind', hM'.index_length, alone_posLoop hM'.index _ _ _ _ (by omega)]
      dsimp only
      rw [Task.alone_bind', alone_see]
      dsimp only
      by_cases h2 : (Core.posLoop t'.index 0 1 idx).1 < t'.offset
      · rw [if_pos h2]; exact .inl rfl
      · rw [if_neg h2]
        refine .inr ⟨s', ?_, hM', hk, hr⟩
        rw [Task.alone_pure, ← hM'.offset]
        show _ = some (Except.ok (place _), s')
        unfold place
        rw [Int.ofNat_sub (by omega)]

theorem pos (ilog2 : Nat → Nat) (idx : Int) (hM : Mirrors s t) : Keeps place (Race.pos ilog2 idx) s (Core.pos ilog2 idx) t := by
  unfold Race.pos Core.pos
  have raises : ∀ e, Keeps place (Task.raise e) s (Py.raise e) t := fun e => .inr ⟨s, rfl, hM, .refl s, .refl t⟩
  by_cases h0 : idx < 0
  · have hg := hM.lastItem_lists
    unfold Keeps
    rw [if_pos h0]
    simp only [Task.alone_bind', Race.sublist, Task.alone_see, fetch_last, Py.get_bind, if_pos h0]
    cases h1 : lastItem s.lists with
    | error e =>
      rw [h1] at hg
      exact .inr ⟨s, by simp [hg, Except.map], by simpa [hg, Except.map] using hM, .refl s, by simpa [hg, Except.map] using Reindexed.refl t⟩
    | ok a =>
      rw [h1] at hg
      have hne : t.lists.length ≠ 0 := by
        intro h
        rw [List.length_eq_zero_iff.1 h] at hg; cases hg
      simp only [hg, Except.map, Py.lift_ok_bind, alone_see]
      by_cases h2 : -idx ≤ (s.cell a).length
      · rw [if_pos h2, if_pos h2]
        refine .inr ⟨s, ?_, hM, .refl s, .refl t⟩
        rw [Task.alone_bind', alone_see, ← hM.lists_length]
        show some (Except.ok ((t.lists.length : Int) - 1, ((s.cell a).length : Int) + idx), s) = some (Except.ok (place (t.lists.length - 1, (((s.cell a).length : Int) + idx).toNat)), s)
        unfold place
        rw [Int.ofNat_sub (by omega), Int.toNat_of_nonneg (by omega)]; rfl
      · rw [if_neg h2, if_neg h2, Task.alone_bind', alone_see, hM.len]
        dsimp only
        by_cases h3 : idx + (t.len : Int) < 0
        · rw [if_pos h3, if_pos h3]; exact raises _
        · rw [if_neg h3, if_neg h3]
          have := posNonneg ilog2 (idx + (t.len : Int)).toNat hM
          unfold Keeps at this
          rw [Int.toNat_of_nonneg (by omega)] at this
          exact this
  · unfold Keeps
    rw [if_neg h0, Task.alone_bind', alone_see, Py.get_bind, hM.len, if_neg h0]
    dsimp only
    by_cases h3 : (t.len : Int) ≤ idx
    · rw [if_pos h3, if_pos h3]; exact raises _
    · rw [if_neg h3, if_neg h3]
      have := posNonneg ilog2 idx.toNat hM
      unfold Keeps at this
      rw [Int.toNat_of_nonneg (by omega)] at this
      exact this

theorem right_ok {ε : Type} {g : ε → δ} {m : Run α κ δ} {y : Except PyErr γ} {c : γ} {q : γ → Py (St α κ) ε} (e : y = .ok c) (h : Agrees g m s (q c) t) :
    Agrees g m s (Py.lift y >>= q) t := by subst e; exact h

theorem Keeps.bind {ε : Type} {f : γ → β} {g : ε → δ} {m : Run α κ β} {p : Py (St α κ) γ} {k : β → Run α κ δ} {q : γ → Py (St α κ) ε} (h : Keeps f m s p t)
    (hk : ∀ c s' t', p t = (.ok c, t') → Kept s s' → Reindexed t t' → Mirrors s' t' → Agrees g (k (f c)) s' (q c) t') : Agrees g (m >>= k) s (p >>= q) t := by
  refine Agrees.bind h.agrees fun c s' t' e e' hM => ?_
  rcases h with h | ⟨s'', h1, h2, h3, h4⟩
  · rw [e] at h; cases h
  · rw [e', e] at h1; cases h1
    rw [e] at h4
    exact hk c _ t' e h3 h4 hM

theorem again_last {ε : Type} {g : ε → δ} {p : Py (St α κ) ε} {k : Nat → Run α κ δ} {a : Nat} (ha : s.lists.getLast? = some a) (h : Agrees g (k a) s p t) : Agrees g (Race.sublist (-1) >>= k) s p t :=
  left (b := a) (s' := s) (by simp [Race.sublist, fetch_last, lastItem, ha]) h

/-- The last line of a method -/
theorem last {m : Run α κ β} {x : Except PyErr β} (hx : m.alone s = some (x, s)) (hM : Mirrors s t) : Agrees id m s (Py.lift x) t :=
  .inr ⟨s, by cases x <;> exact hx, hM⟩

theorem alone_entry {a : Nat} {i : Int} (h : 0 ≤ i) : (Race.entry a i).alone s = some (getItem (s.cell a) i.toNat, s) := by
  obtain ⟨n, rfl⟩ := Int.eq_ofNat_of_zero_le h
  simp [Race.entry, fetch_nat]

theorem getInt (ilog2 : Nat → Nat) (index : Int) (hM : Mirrors s t) (hne : t.len ≠ 0 → t.lists ≠ []) : Agrees id (Race.getInt ilog2 index) s (Core.getInt ilog2 index) t := by
  unfold Race.getInt Core.getInt
  refine see (get ?_)
  rw [hM.len]
  by_cases h0 : t.len = 0
  · rw [if_pos (by omega), if_neg (by simpa using h0)]; exact raise hM
  rw [if_neg (by omega), if_pos h0]
  refine ite Iff.rfl (fun _ => sublist (i := 0) hM fun a ha => last (by simp [Race.entry, show fetch (s.cell a) 0 = getItem (s.cell a) 0 from fetch_nat _ 0]) hM) fun h1 => ?_
  refine ite Iff.rfl (fun _ => sublist_last hM fun a ha => last (by simp [Race.entry, fetch_last]) hM) fun h2 => ?_
  obtain ⟨b, hb⟩ : ∃ b, s.lists[0]? = some b := by
    have := hM.lists_length
    have := List.length_pos_iff.2 (hne h0)
    exact ⟨_, List.getElem?_eq_getElem (by omega)⟩
  have hb' : getItem t.lists 0 = .ok (s.cell b) := by rw [hM.getItem_lists, show getItem s.lists 0 = .ok b from getItem_ok_iff.2 hb]; rfl
  refine right_ok hb' ?_
  have far : ∀ h : ¬ (0 ≤ index ∧ index < (s.cell b).length), Agrees id (getFar ilog2 index) s (do
      let last ← Py.lift (lastItem t.lists)
      if -(last.length : Int) < index ∧ index < 0 then
        Py.lift (getItem last ((last.length : Int) + index).toNat)
      else
        let (pos, idx) ← Core.pos ilog2 index
        let l ← Py.lift (getItem t.lists pos)
        Py.lift (getItem l idx)) t := by
    intro h
    unfold getFar
    refine sublist_last hM fun a ha => see ?_
    refine ite Iff.rfl (fun hc => again_last ha ?_) fun _ => ?_
    · exact last (alone_entry (by omega)) hM
    · refine (pos ilog2 index hM).bind fun c s' t' _ hk hr hM' => ?_
      rw [← hr.lists]
      exact sublist hM' fun a ha => last (by simp [Race.entry, fetch_nat, place]) hM'
  by_cases h3 : 0 ≤ index
  · rw [if_pos h3]
    refine again (i := 0) hb (see ?_)
    by_cases h4 : index < (s.cell b).length
    · rw [if_pos h4, if_pos ⟨h3, h4⟩]
      exact again (i := 0) hb (last (alone_entry h3) hM)
    · rw [if_neg h4, if_neg (by omega)]
      exact far (by omega)
  · rw [if_neg h3, if_neg (by omega)]
    exact far (by omega)

theorem length (hM : Mirrors s t) : Race.length.alone s = some (.ok (t.len : Int), s) := by
  unfold Race.length
  rw [Task.alone_see, hM.len, if_neg (by omega)]

/-! ## Deleting at a position -/

section Delete
variable {k : α → κ} {lt : κ → κ → Bool} {keyed : Bool} {del : Int → Int → Run α κ Unit} {M : Methods α κ}

/-- `del` is the method `_delete` of the class with the methods `M`. -/
def Deletes (k : α → κ) (lt : κ → κ → Bool) (keyed : Bool) (del : Int → Int → Run α κ Unit) (M : Methods α κ) : Prop :=
  ∀ (s : Shared α κ) (t : St α κ) (p i : Nat), Mirrors s t → Inv k lt keyed t → Agrees id (del p i) s (M.delete p i) t

theorem pos_inv {ilog2 : Nat → Nat} (hlog : ∀ n, 1 ≤ n → n < 2 ^ (ilog2 n + 1)) (h : Inv k lt keyed t) {i : Int} {c : Nat × Nat} {t' : St α κ} (e : Core.pos ilog2 i t = (.ok c, t')) :
    Inv k lt keyed t' := by
  cases hn : Spec.position t.lists.flatten.length i with
  | none => rw [h.pos_none hn] at e; cases e
  | some n =>
    obtain ⟨p, x, v, s', e', _, _, h'⟩ := h.pos_some hlog hn
    rw [e'] at e; cases e; exact h'

theorem delInt (hlog : ∀ n, 1 ≤ n → n < 2 ^ (M.ilog2 n + 1)) (hD : Deletes k lt keyed del M) (index : Int) (hM : Mirrors s t) (h : Inv k lt keyed t) :
    Agrees id (Race.pos M.ilog2 index >>= fun r => del r.1 r.2) s (Core.delInt M index) t := by
  unfold Core.delInt
  exact (pos M.ilog2 index hM).bind fun c s' t' e _ _ hM' => hD s' t' c.1 c.2 hM' (pos_inv hlog h e)

/-- `val = _lists[pos][idx]; self._delete(pos, idx); return val` -/
def takeWith (del : Int → Int → Run α κ Unit) (pos idx : Int) : Run α κ α := do
  let a ← Race.sublist pos
  let x ← Race.entry a idx
  del pos idx
  Pure.pure x

def popFarWith (del : Int → Int → Run α κ Unit) (ilog2 : Nat → Nat) (index : Int) : Run α κ α := do
  let a ← Race.sublist (-1)
  let n ← Race.see fun s => (s.cell a).length
  if -(n : Int) < index ∧ index < 0 then
    let k ← Race.see fun s => s.lists.length
    takeWith del ((k : Int) - 1) (n + index)
  else
    let r ← Race.pos ilog2 index
    takeWith del r.1 r.2

def popWith (del : Int → Int → Run α κ Unit) (ilog2 : Nat → Nat) (index : Int) : Run α κ α := do
  let n ← Race.see Shared.len
  if n = 0 then Task.raise .indexError
  else if index = 0 then takeWith del 0 0
  else if index = -1 then
    let k ← Race.see fun s => s.lists.length
    let a ← Race.sublist ((k : Int) - 1)
    let m ← Race.see fun s => (s.cell a).length
    takeWith del ((k : Int) - 1) ((m : Int) - 1)
  else if 0 ≤ index then
    let a ← Race.sublist 0
    let m ← Race.see fun s => (s.cell a).length
    if index < m then takeWith del 0 index else popFarWith del ilog2 index
  else popFarWith del ilog2 index

theorem takeGot (hD : Deletes k lt keyed del M) {p i a : Nat} (ha : s.lists[p]? = some a) (hM : Mirrors s t) (h : Inv k lt keyed t) :
    Agrees id (takeWith del p i) s (do let val ← Py.lift (getItem (s.cell a) i); M.delete p i; Pure.pure val) t := by
  unfold takeWith
  exact again ha (entry rfl hM fun x _ => (hD s t p i hM h).bind fun _ _ _ _ _ hM' => pure hM' rfl)

theorem take (hD : Deletes k lt keyed del M) {p i : Nat} (hM : Mirrors s t) (h : Inv k lt keyed t) :
    Agrees id (takeWith del p i) s (do let l ← Py.lift (getItem t.lists p); let val ← Py.lift (getItem l i); M.delete p i; Pure.pure val) t := by
  unfold takeWith
  exact sublist hM fun a ha => entry rfl hM fun x _ => (hD s t p i hM h).bind fun _ _ _ _ _ hM' => pure hM' rfl

theorem pop (hlog : ∀ n, 1 ≤ n → n < 2 ^ (M.ilog2 n + 1)) (hD : Deletes k lt keyed del M) (index : Int) (hM : Mirrors s t) (h : Inv k lt keyed t) :
    Agrees id (popWith del M.ilog2 index) s (Core.pop M index) t := by
  unfold popWith Core.pop
  refine see (get ?_)
  rw [hM.len]
  refine ite (by omega) (fun _ => raise hM) fun h0 => ?_
  have hne := h.lists_ne_nil (by omega)
  have hpos := List.length_pos_iff.2 hne
  refine ite Iff.rfl (fun _ => take (p := 0) (i := 0) hD hM h) fun h1 => ite Iff.rfl (fun _ => see ?_) fun h2 => ?_
  · rw [← hM.lists_length, show (t.lists.length : Int) - 1 = ((t.lists.length - 1 : Nat) : Int) by omega]
    refine sublist hM fun a ha => see ?_
    have : 0 < (s.cell a).length := by
      refine List.length_pos_iff.2 (h.ne_nil _ ?_)
      rw [hM.lists]
      exact List.mem_map_of_mem (List.mem_of_getElem? ha)
    rw [show ((s.cell a).length : Int) - 1 = (((s.cell a).length - 1 : Nat) : Int) by omega]
    exact takeGot hD ha hM h
  obtain ⟨b, hb⟩ : ∃ b, s.lists[0]? = some b := by
    have := hM.lists_length
    exact ⟨_, List.getElem?_eq_getElem (by omega)⟩
  have hb' : getItem t.lists 0 = .ok (s.cell b) := by rw [hM.getItem_lists, show getItem s.lists 0 = .ok b from getItem_ok_iff.2 hb]; rfl
  refine right_ok hb' ?_
  have far : Agrees id (popFarWith del M.ilog2 index) s (do
      let last ← Py.lift (lastItem t.lists)
      if -(last.length : Int) < index ∧ index < 0 then
        let pos := t.lists.length - 1
        let loc := ((last.length : Int) + index).toNat
        let l ← Py.lift (getItem t.lists pos)
        let val ← Py.lift (getItem l loc)
        M.delete pos loc
        Pure.pure val
      else
        let (p, i) ← Core.pos M.ilog2 index
        let l ← Py.lift (getItem t.lists p)
        let val ← Py.lift (getItem l i)
        M.delete p i
        Pure.pure val) t := by
    unfold popFarWith
    refine sublist_last hM fun a ha => see ?_
    refine ite Iff.rfl (fun hc => see ?_) fun _ => ?_
    · rw [← hM.lists_length, show (t.lists.length : Int) - 1 = ((t.lists.length - 1 : Nat) : Int) by omega,
        show ((s.cell a).length : Int) + index = ((((s.cell a).length : Int) + index).toNat : Int) by omega, Int.toNat_natCast]
      exact take hD hM h
    · refine (pos M.ilog2 index hM).bind fun c s' t' e _ hr hM' => ?_
      rw [← hr.lists]
      exact take hD hM' (pos_inv hlog h e)
  by_cases h3 : 0 ≤ index
  · rw [if_pos h3]
    refine again (i := 0) hb (see ?_)
    by_cases h4 : index < (s.cell b).length
    · rw [if_pos h4, if_pos ⟨h3, h4⟩]
      obtain ⟨n, rfl⟩ := Int.eq_ofNat_of_zero_le h3
      exact takeGot hD (p := 0) hb hM h
    · rw [if_neg h4, if_neg (by omega)]
      exact far
  · rw [if_neg h3, if_neg (by omega)]
    exact far

end Delete

/-! ## Loops of bulk calls -/

theorem forEach {ε : Type} {f : ε → Run α κ Unit} {g : ε → Py (St α κ) Unit} {I : St α κ → Prop} {xs : List ε}
    (hf : ∀ x ∈ xs, ∀ s t, Mirrors s t → I t → Agrees id (f x) s (g x) t ∧ I (g x t).2) (hM : Mirrors s t) (h : I t) :
    Agrees id (Task.forEach f xs) s (Py.forEach g xs) t := by
  induction xs generalizing s t with
  | nil => exact pure hM rfl
  | cons x xs ih =>
    obtain ⟨h1, h2⟩ := hf x (by simp) s t hM h
    exact h1.bind fun _ s' t' e _ hM' => ih (fun y hy => hf y (by simp [hy])) hM' (by rw [e] at h2; exact h2)

theorem addLists (cs : List (List α)) : ∀ (s : Shared α κ) (t : St α κ), Mirrors s t →
    ∃ s', (Race.addLists cs).alone s = some (.ok (), s') ∧ Mirrors s' { t with lists := t.lists ++ cs } := by
  induction cs with
  | nil => intro s t hM; exact ⟨s, rfl, by simpa using hM⟩
  | cons c cs ih =>
    intro s t hM
    have hM1 := (hM.alloc c).insertList s.lists.length (a := s.cells.length) (fun h' => Nat.lt_irrefl _ (hM.valid _ h')) (by simp)
    have hc : ({ s with cells := s.cells ++ [c] } : Shared α κ).cell s.cells.length = c := by simp [Shared.cell, List.getD_eq_getElem?_getD]
    rw [hc] at hM1
    have e1 : ∀ {ε : Type} (l : List ε) (x : ε), insertAt l l.length x = l ++ [x] := by intro ε l x; simp [insertAt]
    rw [← hM.lists_length, e1, hM.lists_length, e1] at hM1
    obtain ⟨s', h1, h2⟩ := ih _ _ hM1
    refine ⟨s', h1, ?_⟩
    have : t.lists ++ [c] ++ cs = t.lists ++ c :: cs := by simp
    rw [← this]; exact h2

theorem chunks_length {load : Nat} {vs : List α} {cs : List (List α)} (h : 1 ≤ load) (e : Core.chunks load vs = .ok cs) : cs.length ≤ vs.length ∧ ∀ c ∈ cs, c ≠ [] := by
  obtain ⟨cs', e', h1, h2, _⟩ := chunks_ok h vs
  rw [e'] at e; cases e
  exact ⟨h1 ▸ length_le_flatten _ h2, h2⟩

end Agrees
end Race
end Verif
