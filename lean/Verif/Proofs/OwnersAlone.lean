import Verif.Proofs.OwnersList
import Verif.Proofs.OwnersDict
import Verif.Proofs.RobustAPI
/-!
# The calls that change a sorted set or dict, alone; and what all of them keep
-/

namespace Verif

/-- If the call returns, the program does the same when it runs alone. -/
def Prog.Works {σ β : Type} (p : Prog σ β) (m : Py σ β) (s : σ) : Prop := (∃ c, (m s).1 = .ok c) → p.alone s = m s

namespace Prog.Works
variable {σ β γ : Type} {s : σ}

theorem bind {p : Prog σ β} {m : Py σ β} {fp : β → Prog σ γ} {f : β → Py σ γ} (h1 : p.Works m s) (h2 : ∀ c s1, m s = (.ok c, s1) → (fp c).Works (f c) s1) :
    (p >>= fp).Works (m >>= f) s := by
  intro h
  rw [Prog.alone_bind]
  rcases e : m s with ⟨er | c, s1⟩
  · rw [Py.bind_error e] at h
    obtain ⟨_, h⟩ := h; cases h
  · rw [Py.bind_ok e] at h ⊢
    have e' : p.alone s = (.ok c, s1) := by rw [h1 ⟨c, by rw [e]⟩, e]
    rw [Py.bind_ok e']
    exact h2 c s1 e h

theorem of_eq {p : Prog σ β} {m : Py σ β} (h : p.alone s = m s) : p.Works m s := fun _ => h

theorem pure (x : β) : (Pure.pure x : Prog σ β).Works (Pure.pure x) s := of_eq rfl

theorem get_bind {fp : σ → Prog σ γ} {f : σ → Py σ γ} (h : (fp s).Works (f s) s) : (Prog.get >>= fp).Works (Py.get >>= f) s := h

theorem write_bind {w : σ → σ} {fp : Unit → Prog σ γ} {f : Unit → Py σ γ} (h : (fp ()).Works (f ()) (w s)) : (Prog.modify w >>= fp).Works (Py.modify w >>= f) s := h

theorem ite {c : Prop} [Decidable c] {p p' : Prog σ β} {m m' : Py σ β} (h1 : c → p.Works m s) (h2 : ¬ c → p'.Works m' s) :
    (if c then p else p').Works (if c then m else m') s := by
  by_cases hc : c
  · rw [if_pos hc, if_pos hc]; exact h1 hc
  · rw [if_neg hc, if_neg hc]; exact h2 hc

end Prog.Works

variable {α : Type}

theorem ListClass.writers_works (c : ListClass α) (v : α) (s : c.State) : (c.writers.add v).Works (c.api.add v) s ∧ (c.writers.remove v).Works (c.api.remove v) s := by
  cases c with
  | plain E => exact ⟨fun h => Threads.SL.add_does v s (.inl h), fun h => Threads.SL.remove_does v s (.inl h)⟩
  | keyed K => exact ⟨fun h => Threads.SKL.add_does v s (.inl h), fun h => Threads.SKL.remove_does v s (.inl h)⟩

theorem ListClass.writers_mild {c : ListClass α} {lt eqv : α → α → Bool} (hc : c.Orders lt eqv) (v : α) :
    (c.writers.add v).Mild listErr c.load ∧ (c.writers.remove v).Mild listErr c.load := by
  cases hc with
  | plain hE he => exact ⟨Threads.SL.add_mild (fun a b => ⟨_, hE.cmp _ a b⟩) v, Threads.SL.remove_mild (fun a b => ⟨_, hE.cmp _ a b⟩) (fun a b => ⟨_, hE.cmp _ a b⟩) v⟩
  | keyed hK heq =>
    exact ⟨Threads.SKL.add_mild (fun a => ⟨_, hK.key_ok a⟩) (fun a b => ⟨_, hK.kcmp_ok _ a b⟩) v,
      Threads.SKL.remove_mild (fun a => ⟨_, hK.key_ok a⟩) (fun a b => ⟨_, hK.kcmp_ok _ a b⟩) (fun a b => ⟨_, hK.kcmp_ok _ a b⟩) (fun a b => ⟨_, hK.veq_ok a b⟩) v⟩

namespace Threads.SS
variable {τ σ : Type} {S : SetOps τ α} {s : SS τ σ}

theorem onList_works {β : Type} {p : Prog σ β} {m : Py σ β} (h : p.Works m s.list) : (onList p).Works (Verif.SS.onList m) s := fun ⟨b, hb⟩ => by
  refine (Prog.zoom_alone (part := fun s : Verif.SS τ σ => s.list) (put := fun l s => { s with list := l }) (fun _ _ => rfl) (fun _ => rfl) (fun _ _ _ => rfl) p s).trans ?_
  rw [h ⟨b, hb⟩]
  rfl

theorem setRemove_alone (v : α) : (setRemove S v).alone s = Verif.SS.setRemove S v s := by
  unfold Verif.SS.setRemove
  show (Prog.bind (.ret (S.remove v s.set)) _).alone s = _
  rcases e : S.remove v s.set with _ | t
  · rfl
  · show (Except.ok (), _) = _
    simp only [e]

variable {W : WListAPI σ α} {L : ListAPI σ α} (hW : ∀ v s, (W.add v).Works (L.add v) s ∧ (W.remove v).Works (L.remove v) s)
include hW

theorem add_works (v : α) (s : SS τ σ) : (add S W v).Works (Verif.SS.add S L v) s :=
  .get_bind <| .ite (fun _ => .pure _) fun _ => .write_bind <| onList_works (hW v _).1

theorem remove_works (v : α) (s : SS τ σ) : (remove S W v).Works (Verif.SS.remove S L v) s :=
  .bind (.of_eq (setRemove_alone v)) fun _ _ _ => onList_works (hW v _).2

theorem discard_works (v : α) (s : SS τ σ) : (discard S W v).Works (Verif.SS.discard S L v) s :=
  .get_bind <| .ite (fun _ => remove_works hW v s) fun _ => .pure _

end Threads.SS

namespace Threads.SD
variable {κ ν σ : Type} {eqv : κ → κ → Bool} {s : SD κ ν σ}

theorem onList_works {β : Type} {p : Prog σ β} {m : Py σ β} (h : p.Works m s.list) : (onList p).Works (Verif.SD.onList m) s := fun ⟨b, hb⟩ => by
  refine (Prog.zoom_alone (part := fun s : Verif.SD κ ν σ => s.list) (put := fun l s => { s with list := l }) (fun _ _ => rfl) (fun _ => rfl) (fun _ _ _ => rfl) p s).trans ?_
  rw [h ⟨b, hb⟩]
  rfl

theorem dictPop_alone (k : κ) : (dictPop eqv k).alone s = Verif.SD.dictPop eqv k s := by
  unfold dictPop Verif.SD.dictPop
  rw [Py.get_bind]
  show (Prog.bind (.ret (PyDict.getitem eqv s.dict k)) _).alone s = _
  rcases e : PyDict.getitem eqv s.dict k with _ | t <;> rfl

theorem dictPop_delitem (k : κ) : (dictPop eqv k).alone s = ((PyDict.getitem eqv s.dict k), (Verif.SD.dictDelitem eqv k s).2) ∧
    (Verif.SD.dictDelitem eqv k s).1 = (PyDict.getitem eqv s.dict k).map fun _ => () := by
  rw [dictPop_alone]
  unfold Verif.SD.dictPop Verif.SD.dictDelitem
  rw [Py.get_bind, Py.get_bind, PyDict.has_eq_lookup]
  unfold PyDict.getitem
  rcases PyDict.lookup eqv s.dict k with _ | v <;> exact ⟨rfl, rfl⟩

variable {W : WListAPI σ κ} {L : ListAPI σ κ} (hW : ∀ v s, (W.add v).Works (L.add v) s ∧ (W.remove v).Works (L.remove v) s)
include hW

theorem setitem_works (k : κ) (v : ν) (s : SD κ ν σ) : (setitem eqv W k v).Works (Verif.SD.setitem eqv L k v) s := by
  refine .get_bind ?_
  show (ite _ _ _ : Prog _ _).Works (ite _ _ _) s
  exact .ite (fun _ => .of_eq rfl) fun _ => .bind (onList_works (hW k _).1) fun _ _ _ => .of_eq rfl

theorem delitem_works (k : κ) (s : SD κ ν σ) : (delitem eqv W k).Works (Verif.SD.delitem eqv L k) s := by
  intro h
  obtain ⟨e1, e2⟩ := dictPop_delitem (eqv := eqv) (s := s) k
  unfold delitem Verif.SD.delitem at *
  rw [Prog.alone_bind]
  rcases e : PyDict.getitem eqv s.dict k with er | v
  · rw [e] at e1 e2
    rw [Py.bind_error (show Verif.SD.dictDelitem eqv k s = (.error er, _) from Prod.ext e2 rfl)] at h
    obtain ⟨_, h⟩ := h; cases h
  · rw [e] at e1 e2
    rw [Py.bind_ok e1]
    rw [Py.bind_ok (show Verif.SD.dictDelitem eqv k s = (.ok (), _) from Prod.ext e2 rfl)] at h ⊢
    exact onList_works (hW k _).2 h

theorem pop_works (k : κ) (default : Option ν) (s : SD κ ν σ) : (pop eqv W k default).Works (Verif.SD.pop eqv L k default) s :=
  .get_bind <| .ite (fun _ => .bind (onList_works (hW k _).2) fun _ _ _ => .of_eq (dictPop_alone k)) fun _ => by
    rcases default with _ | v <;> exact .of_eq rfl

theorem setdefault_works (k : κ) (v : ν) (s : SD κ ν σ) : (setdefault eqv W k v).Works (Verif.SD.setdefault eqv L k v) s :=
  .get_bind <| .ite (fun _ => .of_eq rfl) fun _ => .write_bind <| .bind (onList_works (hW k _).1) fun _ _ _ => .pure _

end Threads.SD

/-! ## What all calls keep -/

theorem ListClass.Orders.loaded {c : ListClass α} {lt eqv : α → α → Bool} (hc : c.Orders lt eqv) :
    ∃ O I, c.api.Lawful O I ∧ O.lt = lt ∧ (∀ a b, O.same a b = eqv a b) ∧ ∀ s, I s → 1 ≤ c.load s := by
  cases hc with
  | plain hE he => exact ⟨_, _, SL.api_lawful hE, rfl, fun a b => (he a b).symm, fun s hs => hs.load_pos⟩
  | keyed hK heq =>
    exact ⟨_, _, SKL.api_lawful hK, rfl, fun a b => by
      show (equiv _ _ _ && _) = _
      rcases Bool.eq_false_or_eq_true (eqv a b) with h | h
      · rw [h, heq a b h]; rfl
      · rw [h]; simp, fun s hs => hs.load_pos⟩

theorem ListClass.Reindexed.load {c : ListClass α} {s s' : c.State} (h : c.Reindexed s s') : c.load s' = c.load s := by
  cases c with
  | plain E => obtain ⟨i, o, rfl⟩ := h; rfl
  | keyed K => obtain ⟨i, o, rfl⟩ := h; rfl

theorem Pool.run_keeps {σ β : Type} {J : σ → Prop} (p : Pool σ β) (h : ∀ m ∈ p.threads, m.Writes fun s s' => J s → J s') (hs : J p.shared) (schedule : List Nat) :
    J (p.run schedule).shared := by
  induction schedule generalizing p with
  | nil => exact hs
  | cons j schedule ih =>
    obtain ⟨h1, h2⟩ := Pool.turn_writes (R := fun s s' => J s → J s') (fun _ h => h) h p.shared j
    exact ih (p.turn j) h2 (h1 hs)

namespace Prog

theorem Writes.mono {σ β : Type} {R R' : σ → σ → Prop} {m : Prog σ β} (h : m.Writes R) (hr : ∀ s s', R s s' → R' s s') : m.Writes R' := by
  induction m with
  | ret x => trivial
  | read k ih => exact fun s => ih s (h s)
  | write f k ih => exact ⟨fun s => hr _ _ (h.1 s), ih h.2⟩

theorem Leaves.writes {σ β γ : Type} {f : σ → γ} {m : Prog σ β} (h : m.Leaves f) : m.Writes fun s s' => f s' = f s := by
  induction m with
  | ret x => trivial
  | read k ih => exact fun s => ih s (h s)
  | write g k ih => exact ⟨h.1, ih h.2⟩

theorem Writes.map {σ β γ : Type} {R : σ → σ → Prop} {m : Prog σ β} {f : β → γ} (h : m.Writes R) : (f <$> m).Writes R := by
  show (Prog.bind m fun b => .ret (.ok (f b))).Writes R
  exact Writes.bind (m := m) (f := fun b => .ret (.ok (f b))) h fun _ => trivial

end Prog

namespace Threads.SS
variable {τ : Type} {S : SetOps τ α} {c : ListClass α} {W : WListAPI c.State α}

theorem change_load (hW : ∀ v, (W.add v).Leaves c.load ∧ (W.remove v).Leaves c.load) (op : SSOp α) (hop : op.isQuery = true ∨ op.changed ≠ none) :
    (change S W c.threaded c.api op).Writes fun s s' => 1 ≤ c.load s.list → 1 ≤ c.load s'.list := by
  have list : ∀ {m : Prog c.State Unit}, m.Leaves c.load → (onList (τ := τ) m).Writes fun s s' => 1 ≤ c.load s.list → 1 ≤ c.load s'.list := fun hm =>
    Prog.zoom_writes (R := fun s s' => c.load s' = c.load s) (fun r l h => by intro h'; show 1 ≤ c.load l; rw [h]; exact h') hm.writes
  have rem : ∀ v, (setRemove (σ := c.State) S v).Writes fun s s' => 1 ≤ c.load s.list → 1 ≤ c.load s'.list := by
    intro v s
    show Prog.Writes _ (Prog.bind (.ret (S.remove v s.set)) _)
    rcases S.remove v s.set with e | t
    · trivial
    · refine ⟨fun s h => ?_, trivial⟩
      dsimp only
      split <;> exact h
  have rest : op.isQuery = true → change S W c.threaded c.api op = query S c.threaded c.api op →
      (change S W c.threaded c.api op).Writes fun s s' => 1 ≤ c.load s.list → 1 ≤ c.load s'.list := fun hq e => by
    rw [e]
    exact (query_asks (S := S) c.threaded_sound hq).writes.mono fun s s' h h' => by rw [h.2.load]; exact h'
  cases op with
  | add v =>
    refine Prog.Writes.map fun s => ?_
    show Prog.Writes _ (ite _ _ _)
    split
    · trivial
    · exact ⟨fun _ h => h, list (hW v).1⟩
  | discard v =>
    refine Prog.Writes.map fun s => ?_
    show Prog.Writes _ (ite _ _ _)
    split
    · exact Prog.Writes.bind (rem v) fun _ => list (hW v).2
    · trivial
  | remove v => exact Prog.Writes.map (Prog.Writes.bind (rem v) fun _ => list (hW v).2)
  | _ => first | exact rest rfl rfl | (rcases hop with h | h <;> first | (cases h; done) | exact absurd rfl h)

end Threads.SS

namespace Threads.SD
open PyDict
variable {κ ν : Type} {eqv : κ → κ → Bool} {c : ListClass κ} {W : WListAPI c.State κ}

/-- What all calls keep. -/
def Kept (eqv : κ → κ → Bool) (c : ListClass κ) (s : SD κ ν c.State) : Prop := 1 ≤ c.load s.list ∧ Keyed eqv s.dict

theorem change_kept (hW : ∀ v, (W.add v).Leaves c.load ∧ (W.remove v).Leaves c.load) (op : SDOp κ ν) (hop : op.isQuery = true ∨ op.changed ≠ none) :
    (change eqv W c.threaded c.api op).Writes fun s s' => Kept eqv c s → Kept eqv c s' := by
  have list : ∀ {m : Prog c.State Unit}, m.Leaves c.load → (onList (κ := κ) (ν := ν) m).Writes fun s s' => Kept eqv c s → Kept eqv c s' := fun hm =>
    Prog.zoom_writes (R := fun s s' => c.load s' = c.load s) (fun r l h => fun h' => ⟨by show 1 ≤ c.load l; rw [h]; exact h'.1, h'.2⟩) hm.writes
  have set : ∀ k v, (dictSetitem (σ := c.State) eqv k v).Writes fun s s' : SD κ ν c.State => Kept eqv c s → Kept eqv c s' := fun k v => ⟨fun s h => ⟨h.1, h.2.set ..⟩, trivial⟩
  have rem : ∀ k, (dictPop (σ := c.State) eqv k).Writes fun s s' : SD κ ν c.State => Kept eqv c s → Kept eqv c s' := by
    intro k s
    show Prog.Writes _ (Prog.bind (.ret (PyDict.getitem eqv s.dict k)) _)
    rcases PyDict.getitem eqv s.dict k with e | t
    · trivial
    · exact ⟨fun s h => ⟨h.1, h.2.erase ..⟩, trivial⟩
  have rest : op.isQuery = true → change eqv W c.threaded c.api op = query eqv c.threaded c.api op →
      (change eqv W c.threaded c.api op).Writes fun s s' => Kept eqv c s → Kept eqv c s' := fun hq e => by
    rw [e]
    exact (query_asks (eqv := eqv) c.threaded_sound hq).writes.mono fun s s' h h' => ⟨by rw [h.2.load]; exact h'.1, by rw [h.1]; exact h'.2⟩
  cases op with
  | setitem k v =>
    refine Prog.Writes.map fun s => ?_
    show Prog.Writes _ (ite _ _ _)
    split
    · exact set k v
    · exact Prog.Writes.bind (list (hW k).1) fun _ => set k v
  | delitem k => exact Prog.Writes.map (Prog.Writes.bind (rem k) fun _ => list (hW k).2)
  | pop k default =>
    refine Prog.Writes.map fun s => ?_
    show Prog.Writes _ (ite _ _ _)
    split
    · exact Prog.Writes.bind (list (hW k).2) fun _ => rem k
    · rcases default with _ | v <;> trivial
  | setdefault k v =>
    refine Prog.Writes.map fun s => ?_
    show Prog.Writes _ (ite _ _ _)
    split
    · exact fun s => trivial
    · exact Prog.Writes.bind (set k v) fun _ => Prog.Writes.bind (list (hW k).1) fun _ => trivial
  | _ => first | exact rest rfl rfl | (rcases hop with h | h <;> first | (cases h; done) | exact absurd rfl h)

end Threads.SD
end Verif
