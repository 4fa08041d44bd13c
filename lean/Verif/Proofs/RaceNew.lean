import Verif.Proofs.RaceLists
import Verif.Proofs.Basic
/-!
# New lists and comparisons in the logic of `Proofs/Race.lean`
-/

namespace Verif.Race.Bounds
variable {α κ β γ : Type}

/-- The values that an object holds stay in `val`, and only exceptions in `err` are raised. -/
private def Fine (B : Bounds α κ) (m : Py (St α κ) β) : Prop :=
  ∀ t, (∀ l ∈ t.lists, ∀ v ∈ l, B.val v) → (∀ l ∈ (m t).2.lists, ∀ v ∈ l, B.val v) ∧ ∀ e, (m t).1 = .error e → B.err e

section
variable {B : Bounds α κ}

private theorem Fine.bind {m : Py (St α κ) β} {k : β → Py (St α κ) γ} (h : B.Fine m) (hk : ∀ b, B.Fine (k b)) : B.Fine (m >>= k) := by
  intro t ht
  obtain ⟨h1, h2⟩ := h t ht
  rcases hm : m t with ⟨e | b, t'⟩ <;> rw [hm] at h1 h2
  · rw [Py.bind_error hm]
    exact ⟨h1, fun e' h => by cases h; exact h2 _ rfl⟩
  · rw [Py.bind_ok hm]
    exact hk b t' h1

private theorem Fine.get {k : St α κ → Py (St α κ) γ} (hk : ∀ b, B.Fine (k b)) : B.Fine (Py.get >>= k) := fun t ht => hk t t ht

private theorem Fine.lift {x : Except PyErr β} {k : β → Py (St α κ) γ} (he : ∀ e, x = .error e → B.err e) (hk : ∀ b, x = .ok b → B.Fine (k b)) : B.Fine (Py.lift x >>= k) := by
  cases x with
  | error e => exact fun t ht => ⟨ht, fun e' h => by cases h; exact he _ rfl⟩
  | ok b => exact hk b rfl

private theorem Fine.modify {f : St α κ → St α κ} (h : ∀ t, (∀ l ∈ t.lists, ∀ v ∈ l, B.val v) → ∀ l ∈ (f t).lists, ∀ v ∈ l, B.val v) : B.Fine (Py.modify f) :=
  fun t ht => ⟨h t ht, fun e h => by cases h⟩

private theorem Fine.forEach {f : β → Py (St α κ) Unit} (h : ∀ b, B.Fine (f b)) (xs : List β) : B.Fine (Py.forEach f xs) := by
  induction xs with
  | nil => exact fun t ht => ⟨ht, fun e h => by cases h⟩
  | cons x xs ih => exact Fine.bind (h x) fun _ => ih

private theorem mapE_err {f : β → Except PyErr γ} (h : ∀ b e, f b = .error e → B.err e) : ∀ {xs : List β} {e : PyErr}, mapE f xs = .error e → B.err e
  | [], e, h' => by cases h'
  | x :: xs, e, h' => by
    unfold mapE at h'
    split at h'
    · rename_i e1; cases h'; exact h _ _ e1
    · split at h'
      · rename_i e1; cases h'; exact mapE_err h e1
      · cases h'

private theorem lastItem_err {l : List β} {e : PyErr} (h : lastItem l = .error e) : B.err e := by
  unfold lastItem at h
  split at h <;> cases h
  exact B.index

end

/-- A new SortedList holds the values that it is given. -/
theorem SL_new {B : Bounds α α} {E : Env α} (hE : B.Suits E) {xs : List α} (hx : ∀ v ∈ xs, B.val v) :
    (∀ e, Core.iter <$> Verif.SL.new E (some xs) = .error e → B.err e) ∧ ∀ l, Core.iter <$> Verif.SL.new E (some xs) = .ok l → ∀ v ∈ l, B.val v := by
  have hf : B.Fine (Py.lift (E.sorted xs) >>= fun values => Verif.SL.fill values) := by
    refine Fine.lift (hE.sortErr xs) fun ys hy => Fine.get fun s => Fine.lift (fun e h => chunks_err h ▸ B.value) fun cs hc => ?_
    refine Fine.bind (Fine.modify fun t ht l hl v hv => ?_) fun _ => Fine.get fun s => Fine.lift (fun e h => mapE_err (fun _ _ h => lastItem_err h) h) fun ms _ => ?_
    · rcases List.mem_append.1 hl with h | h
      · exact ht l h v hv
      · exact hE.sortMem xs ys hy hx v (chunks_mem hc l h v hv)
    · exact Fine.bind (Fine.modify fun t ht => ht) fun _ => Fine.bind (Fine.modify fun t ht => ht) fun _ => Fine.modify fun t ht => ht
  obtain ⟨h1, h2⟩ := hf St.empty fun l hl => by cases hl
  have e : Verif.SL.update E xs St.empty = (Py.lift (E.sorted xs) >>= fun values => Verif.SL.fill values) St.empty := by
    unfold Verif.SL.update
    cases E.sorted xs <;> rfl
  unfold Verif.SL.new
  rw [← e] at h1 h2
  dsimp only
  rcases hu : Verif.SL.update E xs St.empty with ⟨e | _, t⟩ <;> rw [hu] at h1 h2
  · exact ⟨fun e h => by cases h; exact h2 _ rfl, fun l h => by cases h⟩
  · refine ⟨fun e h => (by cases h), fun l h v hv => ?_⟩
    cases h
    obtain ⟨l, hl, hv⟩ := List.mem_flatten.1 hv
    exact h1 l hl v hv

/-- The same for a SortedKeyList. -/
theorem SKL_new {B : Bounds α κ} {K : KEnv α κ} (hE : B.KSuits K) {xs : List α} (hx : ∀ v ∈ xs, B.val v) :
    (∀ e, Core.iter <$> Verif.SKL.new K (some xs) = .error e → B.err e) ∧ ∀ l, Core.iter <$> Verif.SKL.new K (some xs) = .ok l → ∀ v ∈ l, B.val v := by
  have hf : B.Fine (Py.lift (K.sortedByKey xs) >>= fun values => Verif.SKL.fill K values) := by
    refine Fine.lift (hE.sortErr xs) fun ys hy => Fine.get fun s => Fine.lift (fun e h => chunks_err h ▸ B.value) fun cs hc => ?_
    refine Fine.bind (Fine.modify fun t ht l hl v hv => ?_) fun _ => Fine.get fun s => Fine.bind (Fine.forEach (fun l => ?_) _) fun _ => Fine.get fun s =>
      Fine.lift (fun e h => mapE_err (fun _ _ h => lastItem_err h) h) fun ms _ => ?_
    · rcases List.mem_append.1 hl with h | h
      · exact ht l h v hv
      · exact hE.sortMem xs ys hy hx v (chunks_mem hc l h v hv)
    · exact Fine.lift (fun e h => mapE_err hE.key h) fun _ _ => Fine.modify fun t ht => ht
    · exact Fine.bind (Fine.modify fun t ht => ht) fun _ => Fine.bind (Fine.modify fun t ht => ht) fun _ => Fine.modify fun t ht => ht
  obtain ⟨h1, h2⟩ := hf St.empty fun l hl => by cases hl
  have e : Verif.SKL.update K xs St.empty = (Py.lift (K.sortedByKey xs) >>= fun values => Verif.SKL.fill K values) St.empty := by
    unfold Verif.SKL.update
    cases K.sortedByKey xs <;> rfl
  unfold Verif.SKL.new
  rw [← e] at h1 h2
  dsimp only
  rcases hu : Verif.SKL.update K xs St.empty with ⟨e | _, t⟩ <;> rw [hu] at h1 h2
  · exact ⟨fun e h => by cases h; exact h2 _ rfl, fun l h => by cases h⟩
  · refine ⟨fun e h => (by cases h), fun l h v hv => ?_⟩
    cases h
    obtain ⟨l, hl, hv⟩ := List.mem_flatten.1 hv
    exact h1 l hl v hv

section
variable {B : Bounds α κ} {s : Shared α κ}

theorem Safe.contents : B.Safe (fun _ l => ∀ v ∈ l, B.val v) s (Race.see Shared.contents : Run α κ (List α)) := Safe.toList

theorem mem_repeatList {l : List β} {n : Int} {v : β} (h : v ∈ repeatList l n) : v ∈ l := by
  unfold repeatList at h
  obtain ⟨l', hl, hv⟩ := List.mem_flatten.1 h
  rw [List.eq_of_mem_replicate hl] at hv
  exact hv

theorem Safe.compareLoop {cmp : CmpOp → α → α → Except PyErr Bool} (hcmp : ∀ op x y e, cmp op x y = .error e → B.err e) (op : CmpOp) (n : Int) (m : Nat) :
    ∀ (ys : List α) (c : Cursor) {s : Shared α κ}, B.Holds s → B.Safe (fun _ _ => True) s (compareLoop cmp op n m ys c : Run α κ Bool)
  | [], c, s, hs => Safe.bind hs (Safe.see _).any fun _ _ _ _ _ => Safe.pure trivial
  | y :: ys, c, s, hs => by
    refine Safe.bind hs (Safe.see _).any fun t got _ ht _ => ?_
    match got with
    | none => exact Safe.pure trivial
    | some (x, c') =>
      refine Safe.bind ht (Safe.lift (Q := fun _ _ => True) (hcmp .ne x y) fun _ _ => trivial) fun u ne _ hu _ => ?_
      split
      · exact Safe.lift (hcmp op x y) fun _ _ => trivial
      · exact Safe.compareLoop hcmp op n m ys c' hu

theorem Safe.compare {cmp : CmpOp → α → α → Except PyErr Bool} (hcmp : ∀ op x y e, cmp op x y = .error e → B.err e) (op : CmpOp) (other : List α) (hs : B.Holds s) :
    B.Safe (fun _ _ => True) s (compare cmp op other : Run α κ Bool) := by
  refine Safe.bind hs (Safe.see _).any fun t n _ ht _ => ?_
  split
  · exact Safe.pure trivial
  · split
    · exact Safe.pure trivial
    · exact Safe.compareLoop hcmp op n _ other _ ht

end

section
variable {B : Bounds α α} {E : Env α} {s : Shared α α}

theorem Safe.SL_copy (hE : B.Suits E) (hs : B.Holds s) : B.Safe (fun _ l => ∀ v ∈ l, B.val v) s (SL.copy E) :=
  Safe.bind hs Safe.toList fun _ _ _ _ hl => Safe.lift (SL_new hE hl).1 (SL_new hE hl).2

theorem Safe.SL_concat (hE : B.Suits E) {other : List α} (ho : ∀ v ∈ other, B.val v) (hs : B.Holds s) : B.Safe (fun _ l => ∀ v ∈ l, B.val v) s (SL.concat E other) :=
  Safe.bind hs Safe.contents fun _ l _ _ hl =>
    have h : ∀ v ∈ l ++ other, B.val v := fun v hv => (List.mem_append.1 hv).elim (hl v) (ho v)
    Safe.lift (SL_new hE h).1 (SL_new hE h).2

theorem Safe.SL_mul (hE : B.Suits E) (n : Int) (hs : B.Holds s) : B.Safe (fun _ l => ∀ v ∈ l, B.val v) s (SL.mul E n) :=
  Safe.bind hs Safe.contents fun _ l _ _ hl =>
    have h : ∀ v ∈ repeatList l n, B.val v := fun v hv => hl v (mem_repeatList hv)
    Safe.lift (SL_new hE h).1 (SL_new hE h).2

theorem Safe.SL_imul (hE : B.Suits E) (hg : ¬ B.grow) (fuel : Nat) (n : Int) (hs : B.Holds s) : B.Safe (fun _ _ => True) s (SL.imul E fuel n) :=
  Safe.bind hs Safe.contents fun _ _ _ ht hl => Safe.bind ht (Safe.SL_clear hg ht) fun _ _ _ hu _ => Safe.SL_update hE hg fuel (fun v hv => hl v (mem_repeatList hv)) hu

theorem Safe.SL_reset (hE : B.Suits E) (hg : ¬ B.grow) (fuel : Nat) {load : Nat} (hl : B.load load) (hs : B.Holds s) : B.Safe (fun _ _ => True) s (SL.reset E fuel load) :=
  Safe.bind hs Safe.contents fun _ _ _ ht hv => Safe.bind ht (Safe.SL_clear hg ht) fun _ _ _ hu _ =>
    Safe.bind hu (Safe.assign fun _ h => ⟨⟨h.1, hl⟩, fun _ => id⟩) fun _ _ _ hw _ => Safe.SL_update hE hg fuel hv hw

end

section
variable {B : Bounds α κ} {K : KEnv α κ} {s : Shared α κ}

theorem Safe.SKL_copy (hE : B.KSuits K) (hs : B.Holds s) : B.Safe (fun _ l => ∀ v ∈ l, B.val v) s (SKL.copy K) :=
  Safe.bind hs Safe.toList fun _ _ _ _ hl => Safe.lift (SKL_new hE hl).1 (SKL_new hE hl).2

theorem Safe.SKL_concat (hE : B.KSuits K) {other : List α} (ho : ∀ v ∈ other, B.val v) (hs : B.Holds s) : B.Safe (fun _ l => ∀ v ∈ l, B.val v) s (SKL.concat K other) :=
  Safe.bind hs Safe.contents fun _ l _ _ hl =>
    have h : ∀ v ∈ l ++ other, B.val v := fun v hv => (List.mem_append.1 hv).elim (hl v) (ho v)
    Safe.lift (SKL_new hE h).1 (SKL_new hE h).2

theorem Safe.SKL_mul (hE : B.KSuits K) (n : Int) (hs : B.Holds s) : B.Safe (fun _ l => ∀ v ∈ l, B.val v) s (SKL.mul K n) :=
  Safe.bind hs Safe.contents fun _ l _ _ hl =>
    have h : ∀ v ∈ repeatList l n, B.val v := fun v hv => hl v (mem_repeatList hv)
    Safe.lift (SKL_new hE h).1 (SKL_new hE h).2

theorem Safe.SKL_imul (hE : B.KSuits K) (hg : ¬ B.grow) (fuel : Nat) (n : Int) (hs : B.Holds s) : B.Safe (fun _ _ => True) s (SKL.imul K fuel n) :=
  Safe.bind hs Safe.contents fun _ _ _ ht hl => Safe.bind ht (Safe.SKL_clear hg ht) fun _ _ _ hu _ => Safe.SKL_update hE hg fuel (fun v hv => hl v (mem_repeatList hv)) hu

theorem Safe.SKL_reset (hE : B.KSuits K) (hg : ¬ B.grow) (fuel : Nat) {load : Nat} (hl : B.load load) (hs : B.Holds s) : B.Safe (fun _ _ => True) s (SKL.reset K fuel load) :=
  Safe.bind hs Safe.contents fun _ _ _ ht hv => Safe.bind ht (Safe.SKL_clear hg ht) fun _ _ _ hu _ =>
    Safe.bind hu (Safe.assign fun _ h => ⟨⟨h.1, hl⟩, fun _ => id⟩) fun _ _ _ hw _ => Safe.SKL_update hE hg fuel hv hw

end
end Verif.Race.Bounds
