import Verif.Proofs.Load
import Verif.Proofs.Check
import Verif.Proofs.SortedDict
/-!
# Sorted sets and sorted dicts keep the load factor of their sorted list
-/

namespace Verif
variable {σ α β γ : Type}

/-- The call keeps `P`, whether it raises or not. -/
def Preserves (P : σ → Prop) (m : Py σ β) : Prop := ∀ s, P s → P (m s).2

namespace Preserves
variable {P : σ → Prop}

theorem pure (b : β) : Preserves P (Pure.pure b : Py σ β) := fun _ h => h
theorem raise (e : PyErr) : Preserves P (Py.raise e : Py σ β) := fun _ h => h
theorem lift (x : Except PyErr β) : Preserves P (Py.lift x : Py σ β) := fun _ h => h
theorem get : Preserves P (Py.get : Py σ σ) := fun _ h => h

theorem bind {m : Py σ β} {f : β → Py σ γ} (h1 : Preserves P m) (h2 : ∀ b, Preserves P (f b)) : Preserves P (m >>= f) := by
  intro s hs
  have := h1 s hs
  rw [Py.bind_apply]
  rcases hm : m s with ⟨_ | b, s'⟩
  · rw [hm] at this; exact this
  · rw [hm] at this; exact h2 b s' this

theorem ite {c : Prop} [Decidable c] {m m' : Py σ β} (h1 : Preserves P m) (h2 : Preserves P m') :
    Preserves P (if c then m else m') := by split <;> assumption

theorem forEach {f : β → Py σ Unit} (h : ∀ b, Preserves P (f b)) (xs : List β) : Preserves P (Py.forEach f xs) := by
  induction xs with
  | nil => exact pure ()
  | cons x xs ih => exact bind (h x) fun _ => ih

theorem mapEach {f : β → Py σ γ} (h : ∀ b, Preserves P (f b)) (xs : List β) : Preserves P (Py.mapEach f xs) := by
  induction xs with
  | nil => exact pure []
  | cons x xs ih => exact bind (h x) fun _ => bind ih fun _ => pure _

end Preserves

/-- Every call, except `_reset` with a load factor below `lo`, keeps `P`; new lists have it. -/
structure ListAPI.Preserves (L : ListAPI σ α) (lo : Nat) (P : σ → Prop) : Prop where
  step : ∀ op, (∀ l, op = .reset l → lo ≤ l) → Verif.Preserves P (L.step op)
  new : ∀ xs s, L.new xs = .ok s → P s

namespace ListAPI.Preserves
variable {L : ListAPI σ α} {lo : Nat} {P : σ → Prop} (h : L.Preserves lo P)
include h

theorem of_step {f : β → Out α} {m : Py σ β} {op : Op α} (e : L.step op = Spec.out f m)
    (hop : ∀ l, op = .reset l → lo ≤ l) : Verif.Preserves P m := fun s hs => by
  have := h.step op hop s hs
  rwa [e, Spec.out_snd] at this

theorem add (v : α) : Verif.Preserves P (L.add v) := h.of_step (op := .add v) rfl (by simp)
theorem update (xs : List α) : Verif.Preserves P (L.update xs) := h.of_step (op := .update xs) rfl (by simp)
theorem clear : Verif.Preserves P L.clear := h.of_step (op := .clear) rfl (by simp)
theorem remove (v : α) : Verif.Preserves P (L.remove v) := h.of_step (op := .remove v) rfl (by simp)
theorem getInt (i : Int) : Verif.Preserves P (L.getInt i) := h.of_step (op := .getInt i) rfl (by simp)
theorem getSlice (sl : PySlice) : Verif.Preserves P (L.getSlice sl) := h.of_step (op := .getSlice sl) rfl (by simp)
theorem delInt (i : Int) : Verif.Preserves P (L.delInt i) := h.of_step (op := .delInt i) rfl (by simp)
theorem delSlice (sl : PySlice) : Verif.Preserves P (L.delSlice sl) := h.of_step (op := .delSlice sl) rfl (by simp)
theorem pop (i : Int) : Verif.Preserves P (L.pop i) := h.of_step (op := .pop i) rfl (by simp)
theorem bisectLeft (v : α) : Verif.Preserves P (L.bisectLeft v) := h.of_step (op := .bisectLeft v) rfl (by simp)
theorem bisectRight (v : α) : Verif.Preserves P (L.bisectRight v) := h.of_step (op := .bisectRight v) rfl (by simp)
theorem index (v : α) (a b : Option Int) : Verif.Preserves P (L.index v a b) := h.of_step (op := .index v a b) rfl (by simp)
theorem irange (lo hi : Option α) (a b r : Bool) : Verif.Preserves P (L.irange lo hi a b r) :=
  h.of_step (op := .irange lo hi a b r) rfl (by simp)
theorem islice (a b : Option Int) (r : Bool) : Verif.Preserves P (L.islice a b r) := h.of_step (op := .islice a b r) rfl (by simp)
theorem reset {load : Nat} (hl : lo ≤ load) : Verif.Preserves P (L.reset load) :=
  h.of_step (op := .reset load) rfl (by rintro l ⟨⟩; exact hl)

end ListAPI.Preserves

/-- The attribute `_load` of the list. -/
def ListClass.load : (c : ListClass α) → c.State → Nat
  | .plain _ => St.load
  | .keyed _ => St.load

theorem ListClass.keeps_load (c : ListClass α) {lo : Nat} (hlo : lo ≤ 1000) : c.api.Preserves lo fun s => lo ≤ c.load s := by
  cases c with
  | plain E =>
    refine ⟨fun op hop s hs => ?_, fun xs s e => ?_⟩
    · exact Nat.le_trans (histLoad_one op hop hs) (Nat.le_of_eq (SL.step_load E op s).symm)
    · show lo ≤ s.load
      rw [SL.new_load e]; exact hlo
  | keyed K =>
    refine ⟨fun op hop s hs => ?_, fun xs s e => ?_⟩
    · exact Nat.le_trans (histLoad_one op hop hs) (Nat.le_of_eq (SKL.step_load K op s).symm)
    · show lo ≤ s.load
      rw [SKL.new_load e]; exact hlo

/-! ## SortedSet -/

namespace SS
variable {τ : Type} {S : SetOps τ α} {L : ListAPI σ α} {P : σ → Prop}

theorem onList_keeps {m : Py σ β} (h : Verif.Preserves P m) : Verif.Preserves (fun s : SS τ σ => P s.list) (onList m) :=
  fun s hs => h s.list hs

theorem onSet_keeps (f : τ → τ) : Verif.Preserves (fun s : SS τ σ => P s.list) (onSet f) := fun _ hs => hs

theorem setRemove_keeps (v : α) : Verif.Preserves (fun s : SS τ σ => P s.list) (setRemove S v) := fun s hs => by
  unfold setRemove; split <;> exact hs

variable {lo : Nat} (h : L.Preserves lo P)
include h

theorem add_keeps (v : α) : Verif.Preserves (fun s : SS τ σ => P s.list) (add S L v) :=
  Preserves.bind Preserves.get fun _ => Preserves.ite (Preserves.pure _) (Preserves.bind (onSet_keeps _) fun _ => onList_keeps (h.add v))

theorem discard_keeps (v : α) : Verif.Preserves (fun s : SS τ σ => P s.list) (discard S L v) :=
  Preserves.bind Preserves.get fun _ => Preserves.ite (Preserves.bind (setRemove_keeps v) fun _ => onList_keeps (h.remove v)) (Preserves.pure _)

theorem rebuild_keeps : Verif.Preserves (fun s : SS τ σ => P s.list) (rebuild S L) :=
  Preserves.bind (onList_keeps h.clear) fun _ => Preserves.bind Preserves.get fun _ => onList_keeps (h.update _)

theorem update_keeps (xss : List (List α)) : Verif.Preserves (fun s : SS τ σ => P s.list) (update S L xss) :=
  Preserves.bind Preserves.get fun _ => Preserves.ite (Preserves.bind (onSet_keeps _) fun _ => rebuild_keeps h) (Preserves.forEach (add_keeps h) _)

theorem step_keeps (op : SSOp α) (hop : ∀ l, op = .reset l → lo ≤ l) :
    Verif.Preserves (fun s : SS τ σ => P s.list) (step S L op) := by
  have o : ∀ {β : Type} (f : β → Out α) {m : Py (SS τ σ) β}, Verif.Preserves (fun s : SS τ σ => P s.list) m →
      Verif.Preserves (fun s : SS τ σ => P s.list) (Spec.out f m) := by
    intro β f m hm s hs
    show P (Spec.out f m s).2.list
    rw [Spec.out_snd]; exact hm s hs
  have vo : ∀ f : SS τ σ → Except PyErr (SS τ σ), Verif.Preserves (fun s : SS τ σ => P s.list) (valuesOf L f) := by
    intro f s hs; unfold valuesOf; split <;> exact hs
  cases op with
  | add v => exact o _ (add_keeps h v)
  | discard v => exact o _ (discard_keeps h v)
  | remove v => exact o _ (Preserves.bind (setRemove_keeps v) fun _ => onList_keeps (h.remove v))
  | pop i =>
    exact o _ (Preserves.bind (onList_keeps (h.pop i)) fun _ => Preserves.bind (setRemove_keeps _) fun _ => Preserves.pure _)
  | delInt i =>
    exact o _ (Preserves.bind (onList_keeps (h.getInt i)) fun _ => Preserves.bind (setRemove_keeps _) fun _ =>
      onList_keeps (h.delInt i))
  | delSlice sl =>
    exact o _ (Preserves.bind (onList_keeps (h.getSlice sl)) fun _ => Preserves.bind (onSet_keeps _) fun _ =>
      onList_keeps (h.delSlice sl))
  | clear => exact o _ (Preserves.bind (onSet_keeps _) fun _ => onList_keeps h.clear)
  | update xss => exact o _ (update_keeps h xss)
  | differenceUpdate xss =>
    exact o _ (Preserves.bind Preserves.get fun _ => Preserves.ite (Preserves.bind (onSet_keeps _) fun _ => rebuild_keeps h)
      (Preserves.forEach (discard_keeps h) _))
  | intersectionUpdate xss => exact o _ (Preserves.bind (onSet_keeps _) fun _ => rebuild_keeps h)
  | symmetricDifferenceUpdate xs => exact o _ (Preserves.bind (onSet_keeps _) fun _ => rebuild_keeps h)
  | getInt i => exact o _ (onList_keeps (h.getInt i))
  | getSlice sl => exact o _ (onList_keeps (h.getSlice sl))
  | bisectLeft v => exact o _ (onList_keeps (h.bisectLeft v))
  | bisectRight v => exact o _ (onList_keeps (h.bisectRight v))
  | index v a b => exact o _ (onList_keeps (h.index v a b))
  | irange lo hi a b r => exact o _ (onList_keeps (h.irange lo hi a b r))
  | islice a b r => exact o _ (onList_keeps (h.islice a b r))
  | reset load => exact o _ (onList_keeps (h.reset (hop load rfl)))
  | copy => exact o _ (vo _)
  | union xss => exact o _ (vo _)
  | intersection xss => exact o _ (vo _)
  | difference xss => exact o _ (vo _)
  | symmetricDifference xs => exact o _ (vo _)
  | _ => exact fun _ hs => hs

theorem new_keeps {xs : Option (List α)} {s : SS τ σ} (e : new S L xs = .ok s) : P s.list := by
  unfold new at e
  split at e
  · cases e
  · rename_i l hl
    have h0 : P l := h.new _ _ hl
    split at e
    · cases e; exact h0
    · rename_i xs
      dsimp only at e
      split at e
      · rename_i hu; cases e
        have := update_keeps h (S := S) [xs] { set := S.empty, list := l } h0
        rwa [hu] at this
      · cases e

theorem hist_keeps (ops : List (SSOp α)) (hops : ∀ op ∈ ops, ∀ l, op = .reset l → lo ≤ l) {s : SS τ σ} (hs : P s.list) :
    P (runHist (step S L) ops s).2.list := by
  induction ops generalizing s with
  | nil => exact hs
  | cons op ops ih => exact ih (fun o ho => hops o (by simp [ho])) (step_keeps h op (hops op (by simp)) s hs)

end SS

/-! ## SortedDict -/

namespace SD
variable {κ ν : Type} {eqv : κ → κ → Bool} {L : ListAPI σ κ} {P : σ → Prop}

theorem onList_keeps {m : Py σ β} (h : Verif.Preserves P m) : Verif.Preserves (fun s : SD κ ν σ => P s.list) (onList m) :=
  fun s hs => h s.list hs

theorem onDict_keeps (f : List (κ × ν) → List (κ × ν)) : Verif.Preserves (fun s : SD κ ν σ => P s.list) (onDict f) :=
  fun _ hs => hs

theorem getitem_keeps (k : κ) : Verif.Preserves (fun s : SD κ ν σ => P s.list) (getitem eqv k) := fun _ hs => hs

theorem dictDelitem_keeps (k : κ) : Verif.Preserves (fun s : SD κ ν σ => P s.list) (dictDelitem eqv k) :=
  Preserves.bind Preserves.get fun _ => Preserves.ite (onDict_keeps _) (Preserves.raise _)

theorem dictPop_keeps (k : κ) : Verif.Preserves (fun s : SD κ ν σ => P s.list) (dictPop eqv k) :=
  Preserves.bind Preserves.get fun _ => Preserves.bind (Preserves.lift _) fun _ => Preserves.bind (onDict_keeps _) fun _ => Preserves.pure _

theorem dictUpdate_keeps (arg : DictArg κ ν) : Verif.Preserves (fun s : SD κ ν σ => P s.list) (dictUpdate eqv arg) :=
  Preserves.bind (onDict_keeps _) fun _ => by
    split
    · exact Preserves.pure _
    · exact Preserves.raise _

variable {lo : Nat} (h : L.Preserves lo P)
include h

theorem setitem_keeps (k : κ) (v : ν) : Verif.Preserves (fun s : SD κ ν σ => P s.list) (setitem eqv L k v) :=
  Preserves.bind Preserves.get fun _ => by
    dsimp only
    refine Preserves.ite (onDict_keeps _) (Preserves.bind (onList_keeps (h.add k)) fun _ => onDict_keeps _)

theorem update_keeps (arg : DictArg κ ν) : Verif.Preserves (fun s : SD κ ν σ => P s.list) (update eqv L arg) :=
  Preserves.bind Preserves.get fun _ => Preserves.ite
    (Preserves.bind (dictUpdate_keeps _) fun _ => Preserves.bind Preserves.get fun _ => onList_keeps (h.update _))
    (Preserves.bind (Preserves.lift _) fun _ => Preserves.ite
      (Preserves.bind (dictUpdate_keeps _) fun _ => Preserves.bind (onList_keeps h.clear) fun _ =>
        Preserves.bind Preserves.get fun _ => onList_keeps (h.update _))
      (Preserves.forEach (fun p : κ × ν => setitem_keeps h p.1 p.2) _))

theorem step_keeps (op : SDOp κ ν) (hop : ∀ l, op = .reset l → lo ≤ l) :
    Verif.Preserves (fun s : SD κ ν σ => P s.list) (step eqv L op) := by
  have o : ∀ {β : Type} (f : β → DOut κ ν) {m : Py (SD κ ν σ) β}, Verif.Preserves (fun s : SD κ ν σ => P s.list) m →
      Verif.Preserves (fun s : SD κ ν σ => P s.list) (out f m) := fun f _ hm => Preserves.bind hm fun _ => Preserves.pure _
  have vo : ∀ f : SD κ ν σ → Except PyErr (SD κ ν σ), Verif.Preserves (fun s : SD κ ν σ => P s.list) (itemsOf eqv L f) := by
    intro f s hs; unfold itemsOf; split <;> exact hs
  have rd : ∀ {β : Type} (f : SD κ ν σ → Except PyErr β), Verif.Preserves (fun s : SD κ ν σ => P s.list) (read f) :=
    fun _ _ hs => hs
  cases op with
  | setitem k v => exact o _ (setitem_keeps h k v)
  | delitem k => exact o _ (Preserves.bind (dictDelitem_keeps k) fun _ => onList_keeps (h.remove k))
  | clear => exact o _ (Preserves.bind (onDict_keeps _) fun _ => onList_keeps h.clear)
  | pop k d =>
    refine o _ (Preserves.bind Preserves.get fun _ => Preserves.ite
      (Preserves.bind (onList_keeps (h.remove k)) fun _ => dictPop_keeps k) ?_)
    split
    · exact Preserves.raise _
    · exact Preserves.pure _
  | popitem i =>
    exact o _ (Preserves.bind Preserves.get fun _ => Preserves.ite (Preserves.raise _) (Preserves.bind (onList_keeps (h.pop i)) fun _ =>
      Preserves.bind (dictPop_keeps _) fun _ => Preserves.pure _))
  | peekitem i =>
    exact o _ (Preserves.bind (onList_keeps (h.getInt i)) fun _ => Preserves.bind (getitem_keeps _) fun _ => Preserves.pure _)
  | setdefault k v =>
    exact o _ (Preserves.bind Preserves.get fun _ => Preserves.ite (getitem_keeps k)
      (Preserves.bind (onDict_keeps _) fun _ => Preserves.bind (onList_keeps (h.add k)) fun _ => Preserves.pure _))
  | update arg => exact o _ (update_keeps h arg)
  | getitem k => exact o _ (getitem_keeps k)
  | get k => exact o _ (rd _)
  | contains k => exact o _ (rd _)
  | len => exact o _ (rd _)
  | iter => exact o _ (rd _)
  | reversed => exact o _ (rd _)
  | items => exact o _ (rd _)
  | values => exact o _ (rd _)
  | keysAt i => exact o _ (onList_keeps (h.getInt i))
  | keysSlice sl => exact o _ (onList_keeps (h.getSlice sl))
  | itemsAt i =>
    exact o _ (Preserves.bind (onList_keeps (h.getInt i)) fun _ => Preserves.bind (getitem_keeps _) fun _ => Preserves.pure _)
  | itemsSlice sl =>
    exact o _ (Preserves.bind (onList_keeps (h.getSlice sl)) fun _ => Preserves.mapEach (fun _ =>
      Preserves.bind (getitem_keeps _) fun _ => Preserves.pure _) _)
  | valuesAt i => exact o _ (Preserves.bind (onList_keeps (h.getInt i)) fun _ => getitem_keeps _)
  | valuesSlice sl => exact o _ (Preserves.bind (onList_keeps (h.getSlice sl)) fun _ => Preserves.mapEach getitem_keeps _)
  | viewDelInt i => exact o _ (Preserves.bind (onList_keeps (h.pop i)) fun _ => dictDelitem_keeps _)
  | viewDelSlice sl =>
    exact o _ (Preserves.bind (onList_keeps (h.getSlice sl)) fun _ => Preserves.bind (onList_keeps (h.delSlice sl)) fun _ =>
      Preserves.forEach dictDelitem_keeps _)
  | bisectLeft v => exact o _ (onList_keeps (h.bisectLeft v))
  | bisectRight v => exact o _ (onList_keeps (h.bisectRight v))
  | index v a b => exact o _ (onList_keeps (h.index v a b))
  | irange lo hi a b r => exact o _ (onList_keeps (h.irange lo hi a b r))
  | islice a b r => exact o _ (onList_keeps (h.islice a b r))
  | reset load => exact o _ (onList_keeps (h.reset (hop load rfl)))
  | copy => exact o _ (vo _)
  | or other => exact o _ (vo _)
  | ror other => exact o _ (vo _)

theorem new_keeps {arg : DictArg κ ν} {s : SD κ ν σ} (e : new eqv L arg = .ok s) : P s.list := by
  unfold new at e
  split at e
  · cases e
  · rename_i l hl
    have h0 : P l := h.new _ _ hl
    split at e
    · rename_i hu; cases e
      have := update_keeps h (eqv := eqv) arg { dict := [], list := l } h0
      rwa [hu] at this
    · cases e

theorem hist_keeps (ops : List (SDOp κ ν)) (hops : ∀ op ∈ ops, ∀ l, op = .reset l → lo ≤ l) {s : SD κ ν σ} (hs : P s.list) :
    P (runHist (step eqv L) ops s).2.list := by
  induction ops generalizing s with
  | nil => exact hs
  | cons op ops ih => exact ih (fun o ho => hops o (by simp [ho])) (step_keeps h op (hops op (by simp)) s hs)

end SD
end Verif
