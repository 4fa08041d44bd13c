import Verif.Proofs.SerialAdd
import Verif.Proofs.LockedDicts
import Verif.Proofs.RacePactSets
import Verif.Proofs.WildSet
import Verif.Proofs.WildDict
/-!
# Values of sorted sets and dicts under a lock, when nothing is known about comparisons (C93)
-/

namespace Verif
variable {α κ ν σ β τ : Type}

theorem Pact.Safe.alone {P : Pact σ} {Q : β → Prop} {m : Task σ β} {s : σ} (hs : P.inv s) (h : P.Safe Q m) :
    ∀ x t, m.alone s = some (x, t) → P.inv t ∧ (∀ b, x = .ok b → Q b) ∧ ∀ e, x = .error e → P.err e := by
  induction m generalizing s with
  | ret x =>
    intro y t e
    cases e
    refine ⟨hs, fun b e => ?_, fun e he => ?_⟩
    · subst e; exact h
    · subst he; exact h
  | act f k ih => exact ih s (h s hs).1 (h s hs).2
  | spin => exact fun x t e => by cases e

/-- The list without a `remove` that does anything. -/
private def ListAPI.stiff (L : ListAPI σ α) : ListAPI σ α := { L with remove := fun _ s => (.error .keyError, s) }

private theorem ListAPI.Robust.stiff {L : ListAPI σ α} {e : α → α → Bool} {it : σ → List α} {W : σ → Prop} (h : L.Robust e it W) (eqv : α → α → Bool) : L.stiff.Robust eqv it W where
  iter := h.iter
  reversed := h.reversed
  new := h.new
  add := h.add
  remove _ _ := .inl ⟨_, rfl⟩
  update := h.update
  clear := h.clear
  getInt := h.getInt
  getSlice := h.getSlice
  delInt := h.delInt
  pop := h.pop
  islice := h.islice
  delSlice := h.delSlice
  reset := h.reset
  bisectLeft := h.bisectLeft
  bisectRight := h.bisectRight
  index := h.index
  irange := h.irange
  keyCall := h.keyCall

theorem ListClass.Sane.robust {c : ListClass α} (hc : c.Sane) : c.api.Robust (fun _ _ => true) c.values c.W := by
  cases c with
  | plain E => exact SL.api_robust hc fun _ _ _ => rfl
  | keyed K => exact SKL.api_robust hc fun _ _ _ => rfl

theorem SS.makes_sane {S : SetOps τ α} {c : ListClass α} {eqv : α → α → Bool} (hc : c.Sane) (hS : S.Lawful eqv) {err : PyErr → Prop} (he : ∀ e, err e) : SS.Makes S c.api err where
  fromset {t s} h v hv := by
    obtain ⟨h1, rfl⟩ := SS.wild_fromset hc.robust h
    rw [SS.iter, hc.robust.iter] at hv
    exact h1.perm.mem_iff.2 hv
  fromset_err _ := he _
  new {xs s} h v hv := by
    obtain ⟨-, h2⟩ := SS.wild_new hS (hc.robust.stiff eqv) (xs := some xs) h
    rw [SS.iter, hc.robust.iter] at hv
    rcases of_mem_foldl_addNew (h2.mem_iff.1 hv) with h | h
    · cases h
    · exact h
  new_err _ := he _

theorem mapE_mem {f : α → Except PyErr β} : ∀ {xs : List α} {ys : List β}, mapE f xs = .ok ys → ∀ y ∈ ys, ∃ x ∈ xs, f x = .ok y
  | [], ys, h, y, hy => by cases h; cases hy
  | x :: xs, ys, h, y, hy => by
    simp only [mapE] at h
    cases e : f x with
    | error _ => rw [e] at h; cases h
    | ok z =>
      rw [e] at h
      cases e2 : mapE f xs with
      | error _ => rw [e2] at h; cases h
      | ok zs =>
        rw [e2] at h
        cases h
        rcases List.mem_cons.1 hy with rfl | hy
        · exact ⟨x, by simp, e⟩
        · obtain ⟨x', h1, h2⟩ := mapE_mem e2 y hy
          exact ⟨x', List.mem_cons_of_mem _ h1, h2⟩

theorem SD.makes_sane {c : ListClass κ} {eqv : κ → κ → Bool} (hc : c.Sane) (hE : IsEquiv eqv) {err : PyErr → Prop} (he : ∀ e, err e) : SD.Makes (ν := ν) eqv c.api err where
  items {l l'} h p hp := by
    cases e : SD.new eqv c.api (.pairs l none) with
    | error _ => rw [e] at h; cases h
    | ok s =>
      rw [e] at h
      obtain ⟨-, h1, h2⟩ := SD.wild_new (hc.robust.stiff eqv) (arg := .pairs l none) e
      have hall : ∀ p ∈ s.dict, FromItems eqv (· ∈ l) p := by
        rw [h2]; exact FromItems.update hE (fun p hp => by cases hp) fun p hp => FromItems.of hE hp
      obtain ⟨k, hk, hkp⟩ := mapE_mem (show mapE _ (SD.iter c.api s) = .ok l' from h) p hp
      cases e2 : PyDict.getitem eqv s.dict k with
      | error _ => rw [e2] at hkp; cases hkp
      | ok v =>
        rw [e2] at hkp
        cases hkp
        rw [SD.iter, hc.robust.iter] at hk
        obtain ⟨q, hq, rfl⟩ := List.mem_map.1 (h1.perm.mem_iff.2 hk)
        exact ⟨(hall q hq).1, FromItems.lookup hE hall (Race.SD.getitem_lookup e2)⟩
  items_err _ := he _

/-! ## `sd[key] = value` that raises -/

theorem Task.Whole.bind_ok {γ : Type} {late : PyErr → Prop} {m : Task σ β} {f : β → Task σ γ} (h : m.Whole late) (hf : ∀ b s e s', (f b).alone s ≠ some (.error e, s')) : (m >>= f).Whole late := by
  intro s e s' he
  rw [Task.alone_bind'] at he
  cases hm : m.alone s with
  | none => rw [hm] at he; cases he
  | some y =>
    obtain ⟨y, t⟩ := y
    rw [hm] at he
    cases y with
    | ok b => exact absurd he (hf b _ _ _)
    | error e' => cases he; exact h _ _ _ hm

theorem Race.whole_add (c : ListClass α) (fuel : Nat) (v : α) : ((c.race fuel).add v).Whole fun e => e = .indexError ∨ e = .valueError := by
  cases c with
  | plain E => exact SL.whole_add E fuel v
  | keyed K => exact SKL.whole_add K fuel v

theorem Race.SD.whole_onList {late : PyErr → Prop} {m : Task σ β} (h : m.Whole late) : (onList m : Task (Verif.SD κ ν σ) β).Whole late := by
  intro s e s' he
  rw [alone_onList] at he
  cases hm : m.alone s.list with
  | none => rw [hm] at he; cases he
  | some y =>
    obtain ⟨y, t⟩ := y
    rw [hm] at he
    cases he
    exact (h _ _ _ hm).imp id fun e => by rw [e]

theorem Race.SD.whole_setitem (eqv : κ → κ → Bool) (c : ListClass κ) (fuel : Nat) (k : κ) (v : ν) : (setitem eqv (c.race fuel) k v : Task (Verif.SD κ ν c.Memory) Unit).Whole fun e => e = .indexError ∨ e = .valueError := by
  unfold setitem
  refine .bind (.see _) fun there => ?_
  have quiet : ∀ (f : List (κ × ν) → List (κ × ν)) (s : Verif.SD κ ν c.Memory) e s', (onDict f : Task (Verif.SD κ ν c.Memory) Unit).alone s ≠ some (.error e, s') := fun f s e s' h => by cases h
  split
  · exact fun s e s' h => by cases h
  · exact .bind_ok (whole_onList (whole_add c fuel k)) fun _ => quiet _

end Verif
