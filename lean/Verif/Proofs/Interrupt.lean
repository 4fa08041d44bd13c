import Verif.Model.Interrupt
import Verif.Proofs.RobustAPI
/-!
# Interrupted calls: how the programs of `Model/Interrupt.lean` relate to the others, and what they pass through
-/

namespace Verif
variable {α κ β γ δ : Type}

namespace IPy
variable {σ : Type}

theorem get_bind (f : σ → IPy σ β) (s : σ) (h : List σ) : (IPy.get >>= f) (s, h) = f s (s, h) := rfl
theorem lift_ok_bind (a : γ) (f : γ → IPy σ β) (s : σ) (h : List σ) : (IPy.lift (.ok a) >>= f) (s, h) = f a (s, h) := rfl
theorem lift_error_bind (e : PyErr) (f : γ → IPy σ β) (s : σ) (h : List σ) :
    (IPy.lift (.error e) >>= f) (s, h) = (.error e, s, h) := rfl
theorem write_bind (g : σ → σ) (f : Unit → IPy σ β) (s : σ) (h : List σ) :
    (IPy.write g >>= f) (s, h) = f () (g s, h ++ [g s]) := rfl

end IPy

/-- From an object with `P` on, the program `mt` passes only through objects with `P`, and it does what `m` does: the same answer or
exception, and the same object afterwards; after an exception the objects may differ in the positional index. -/
def Tr (P : St α κ → Prop) (mt : IPy (St α κ) β) (m : Py (St α κ) β) (s : St α κ) : Prop :=
  P s → ∀ h, ∃ d, (mt (s, h)).2.2 = h ++ d ∧ (∀ x ∈ d, P x) ∧ P (mt (s, h)).2.1 ∧ (mt (s, h)).1 = (m s).1 ∧
    Reindexed (m s).2 (mt (s, h)).2.1 ∧ ∀ b, (m s).1 = .ok b → (mt (s, h)).2.1 = (m s).2

/-- `P` does not depend on the positional index. -/
def NoIndex (P : St α κ → Prop) : Prop := ∀ s i o, P s → P { s with index := i, offset := o }

theorem NoIndex.reindexed {P : St α κ → Prop} (hP : NoIndex P) {s s' : St α κ} (h : Reindexed s s') (hs : P s) : P s' := by
  obtain ⟨i, o, rfl⟩ := h; exact hP s i o hs

theorem noIndex_reindexed (s : St α κ) : NoIndex (Reindexed s) := by
  rintro _ i o ⟨i', o', rfl⟩; exact ⟨i, o, rfl⟩

namespace Tr
variable {P : St α κ → Prop} {s : St α κ}

/-- A program that writes nothing. -/
theorem of_still {m : Py (St α κ) β} (h : (m s).2 = s) : Tr P (IPy.still m) m s := fun hs hh =>
  ⟨[], by simp [IPy.still], by simp, by rw [IPy.still, h]; exact hs, rfl, Reindexed.refl _, fun _ _ => rfl⟩

theorem pure (b : β) : Tr P (Pure.pure b : IPy (St α κ) β) (Pure.pure b : Py (St α κ) β) s := fun hs hh =>
  ⟨[], (List.append_nil _).symm, by simp, hs, rfl, Reindexed.refl _, fun _ _ => rfl⟩

theorem raise (e : PyErr) : Tr P (IPy.raise e : IPy (St α κ) β) (Py.raise e) s := of_still rfl

theorem lift (x : Except PyErr β) : Tr P (IPy.lift x) (Py.lift x) s := of_still rfl

theorem bind {mt : IPy (St α κ) β} {m : Py (St α κ) β} {ft : β → IPy (St α κ) γ} {f : β → Py (St α κ) γ} (h1 : Tr P mt m s)
    (h2 : ∀ b s1, m s = (.ok b, s1) → P s1 → Tr P (ft b) (f b) s1) : Tr P (mt >>= ft) (m >>= f) s := by
  intro hs hh
  obtain ⟨d, e1, e2, e3, e4, e5, e6⟩ := h1 hs hh
  have eq1 : (mt >>= ft) (s, hh) = Py.bind (σ := St α κ × List (St α κ)) mt ft (s, hh) := rfl
  have eq2 : (m >>= f) s = Py.bind m f s := rfl
  rw [eq1, eq2]
  unfold Py.bind
  rcases hmt : mt (s, hh) with ⟨r, s1, l1⟩
  rcases hm : m s with ⟨r', s1'⟩
  rw [hmt, hm] at e4 e5 e6
  rw [hmt] at e1 e3
  cases r' with
  | error e =>
    cases e4
    exact ⟨d, e1, e2, e3, rfl, e5, fun _ hb => nomatch hb⟩
  | ok b =>
    cases e4
    have : s1 = s1' := e6 b rfl
    subst this
    obtain ⟨d', g1, g2, g3, g4, g5, g6⟩ := h2 b s1 hm e3 e3 l1
    have e1 : l1 = hh ++ d := e1
    subst e1
    refine ⟨d ++ d', by rw [← List.append_assoc]; exact g1, ?_, g3, g4, g5, g6⟩
    intro x hx
    rcases List.mem_append.1 hx with h | h
    · exact e2 x h
    · exact g2 x h

theorem bind' {mt : IPy (St α κ) β} {m : Py (St α κ) β} {ft : β → IPy (St α κ) γ} {f : β → Py (St α κ) γ} (h1 : Tr P mt m s)
    (h2 : ∀ b s1, Tr P (ft b) (f b) s1) : Tr P (mt >>= ft) (m >>= f) s := bind h1 fun b s1 _ _ => h2 b s1

theorem get_bind {ft : St α κ → IPy (St α κ) γ} {f : St α κ → Py (St α κ) γ} (h : Tr P (ft s) (f s) s) :
    Tr P (IPy.get >>= ft) (Py.get >>= f) s := h

theorem lift_bind {x : Except PyErr β} {ft : β → IPy (St α κ) γ} {f : β → Py (St α κ) γ}
    (h : ∀ b, x = .ok b → Tr P (ft b) (f b) s) : Tr P (IPy.lift x >>= ft) (Py.lift x >>= f) s :=
  bind (lift x) fun b s1 e _ => by
    obtain ⟨rfl, rfl⟩ := Prod.mk.inj e
    exact h b rfl

theorem write {g : St α κ → St α κ} (hP : P s → P (g s)) : Tr P (IPy.write g) (Py.modify g) s := fun hs _ =>
  ⟨[g s], rfl, fun x hx => by rw [List.mem_singleton.1 hx]; exact hP hs, hP hs, rfl, Reindexed.refl _, fun _ _ => rfl⟩

theorem write_bind {g : St α κ → St α κ} {ft : Unit → IPy (St α κ) γ} {f : Unit → Py (St α κ) γ} (hP : P s → P (g s))
    (h : Tr P (ft ()) (f ()) (g s)) : Tr P (IPy.write g >>= ft) (Py.modify g >>= f) s :=
  bind (write hP) fun _ s1 e _ => by obtain ⟨-, rfl⟩ := Prod.mk.inj e; exact h

theorem ite {c : Prop} [Decidable c] {mt mt' : IPy (St α κ) β} {m m' : Py (St α κ) β} (h1 : c → Tr P mt m s)
    (h2 : ¬ c → Tr P mt' m' s) : Tr P (if c then mt else mt') (if c then m else m') s := by
  by_cases hc : c
  · rw [if_pos hc, if_pos hc]; exact h1 hc
  · rw [if_neg hc, if_neg hc]; exact h2 hc

/-- A loop all of whose rounds keep `I`. -/
theorem forEach {ft : β → IPy (St α κ) Unit} {f : β → Py (St α κ) Unit} {I : St α κ → Prop}
    (h : ∀ b s, I s → Tr P (ft b) (f b) s) (hI : ∀ b s, I s → ∀ s1, f b s = (.ok (), s1) → I s1) (xs : List β) (hs : I s) :
    Tr P (IPy.forEach ft xs) (Py.forEach f xs) s := by
  induction xs generalizing s with
  | nil => exact pure ()
  | cons x xs ih => exact bind (h x s hs) fun _ s1 e _ => ih (hI x s hs s1 e)

theorem mapEach {ft : β → IPy (St α κ) γ} {f : β → Py (St α κ) γ} (h : ∀ b s, Tr P (ft b) (f b) s) (xs : List β) :
    Tr P (IPy.mapEach ft xs) (Py.mapEach f xs) s := by
  induction xs generalizing s with
  | nil => exact pure []
  | cons x xs ih => exact bind' (h x s) fun _ s1 => bind' ih fun _ _ => pure _

theorem out {mt : IPy (St α κ) β} {m : Py (St α κ) β} (h : Tr P mt m s) (f : β → Out δ) : Tr P (Spec.out f mt) (Spec.out f m) s :=
  bind h fun b _ _ _ => pure (f b)

theorem weaken {mt : IPy (St α κ) β} {m : Py (St α κ) β} (h : Tr P mt m s) {Q : St α κ → Prop} (hs : P s) (hQ : ∀ x, P x → Q x) :
    Tr Q mt m s := fun _ hh => by
  obtain ⟨d, e1, e2, e3, e4, e5, e6⟩ := h hs hh
  exact ⟨d, e1, fun x hx => hQ x (e2 x hx), hQ _ e3, e4, e5, e6⟩

theorem points {mt : IPy (St α κ) β} {m : Py (St α κ) β} (h : Tr P mt m s) (hs : P s) : ∀ x ∈ mt.points s, P x := by
  obtain ⟨d, e1, e2, -⟩ := h hs []
  intro x hx
  rcases List.mem_cons.1 hx with rfl | hx
  · exact hs
  · rw [e1] at hx; exact e2 x (by simpa using hx)

end Tr

namespace Interrupt
variable {P : St α κ → Prop} {s : St α κ} {ilog2 : Nat → Nat}

/-! ## The positional index -/

/-- Two writes where the other model has one. -/
theorem write2 {g1 g2 g : St α κ → St α κ} (h1 : P s → P (g1 s)) (h2 : P s → P (g s)) (e : g2 (g1 s) = g s) :
    Tr P (do IPy.write g1; IPy.write g2) (Py.modify g) s := fun hs hh =>
  ⟨[g1 s, g s], by
    show (hh ++ [g1 s]) ++ [g2 (g1 s)] = _
    rw [e]; simp, fun x hx => by
    rcases List.mem_cons.1 hx with rfl | hx
    · exact h1 hs
    · rw [List.mem_singleton.1 hx]; exact h2 hs, by
    show P (g2 (g1 s))
    rw [e]; exact h2 hs, rfl, by
    show Reindexed (g s) (g2 (g1 s))
    rw [e]; exact Reindexed.refl _, fun _ _ => e⟩

theorem buildIndex_tr (hP : NoIndex P) : Tr P (buildIndex ilog2) (Core.buildIndex ilog2) s := by
  refine Tr.get_bind (Tr.ite (fun _ => ?_) fun _ => Tr.ite (fun _ => ?_) fun _ => ?_)
  · exact write2 (fun h => hP s _ s.offset h) (fun h => hP s _ _ h) rfl
  · exact write2 (fun h => hP s _ s.offset h) (fun h => hP s _ _ h) rfl
  · exact write2 (fun h => hP s _ s.offset h) (fun h => hP s _ _ h) rfl

theorem ensureIndex_tr (hP : NoIndex P) : Tr P (ensureIndex ilog2) (Core.ensureIndex ilog2) s :=
  Tr.get_bind (Tr.ite (fun _ => buildIndex_tr hP) fun _ => Tr.pure ())

theorem bumpPath_tr (hP : NoIndex P) (f : Nat → Except PyErr Nat) (child : Nat) :
    ∀ s : St α κ, Tr P (bumpPath f child) (do
      let ix ← Py.lift (Core.bumpPath f s.index child)
      Py.modify fun s => { s with index := ix }) s := by
  induction child using Nat.strongRecOn with
  | ind child ih =>
    intro s hs hh
    rw [bumpPath, Core.bumpPath, IPy.get_bind]
    cases e1 : getItem s.index child with
    | error e => exact ⟨[], (List.append_nil _).symm, by simp, hs, rfl, Reindexed.refl _, fun _ hb => nomatch hb⟩
    | ok x =>
      rw [IPy.lift_ok_bind]
      cases e2 : f x with
      | error e =>
        simp only [e2]
        exact ⟨[], (List.append_nil _).symm, by simp, hs, rfl, Reindexed.refl _, fun _ hb => nomatch hb⟩
      | ok y =>
        simp only [e2, IPy.lift_ok_bind, IPy.write_bind]
        by_cases hc : child = 0
        · subst hc
          refine ⟨[{ s with index := s.index.set 0 y }], rfl, fun x hx => by rw [List.mem_singleton.1 hx]; exact hP s _ _ hs,
            hP s _ _ hs, rfl, Reindexed.refl _, fun _ _ => rfl⟩
        · simp only [dif_neg hc]
          obtain ⟨d, g1, g2, g3, g4, g5, g6⟩ := ih ((child - 1) / 2) (by omega) { s with index := s.index.set child y }
            (hP s _ _ hs) (hh ++ [{ s with index := s.index.set child y }])
          refine ⟨{ s with index := s.index.set child y } :: d, by rw [g1]; simp, ?_, g3, ?_⟩
          · intro x hx
            rcases List.mem_cons.1 hx with rfl | hx
            · exact hP s _ _ hs
            · exact g2 x hx
          · simp only at g4 g5 g6
            cases hb : Core.bumpPath f (s.index.set child y) ((child - 1) / 2) with
            | error e =>
              rw [hb] at g4 g5
              refine ⟨g4, ?_, fun _ hb => nomatch hb⟩
              obtain ⟨i, o, g5⟩ := g5
              exact ⟨i, o, g5⟩
            | ok ix =>
              rw [hb] at g4 g5 g6
              exact ⟨g4, g5, g6⟩

theorem touchIndex_tr (hP : NoIndex P) (f : Nat → Except PyErr Nat) (pos : Nat) :
    Tr P (touchIndex f pos) (Core.touchIndex f pos) s :=
  Tr.get_bind (Tr.ite (fun _ => Tr.pure ()) fun _ => bumpPath_tr hP f _ s)

/-! ## Queries -/

theorem loc_tr (hP : NoIndex P) (p i : Nat) : Tr P (loc ilog2 p i) (Core.loc ilog2 p i) s :=
  Tr.ite (fun _ => Tr.pure _) fun _ => Tr.bind' (ensureIndex_tr hP) fun _ _ => Tr.get_bind (Tr.lift_bind fun _ _ => Tr.pure _)

theorem posNonneg_tr (hP : NoIndex P) (i : Nat) : Tr P (posNonneg ilog2 i) (Core.posNonneg ilog2 i) s :=
  Tr.get_bind (Tr.lift_bind fun _ _ => Tr.ite (fun _ => Tr.pure _) fun _ =>
    Tr.bind' (ensureIndex_tr hP) fun _ _ => Tr.get_bind (Tr.ite (fun _ => Tr.raise _) fun _ => Tr.pure _))

theorem pos_tr (hP : NoIndex P) (i : Int) : Tr P (pos ilog2 i) (Core.pos ilog2 i) s :=
  Tr.get_bind (Tr.ite
    (fun _ => Tr.lift_bind fun _ _ => Tr.ite (fun _ => Tr.pure _) fun _ =>
      Tr.ite (fun _ => Tr.raise _) fun _ => posNonneg_tr hP _)
    fun _ => Tr.ite (fun _ => Tr.raise _) fun _ => posNonneg_tr hP _)

theorem getInt_tr (hP : NoIndex P) (i : Int) : Tr P (getInt ilog2 i) (Core.getInt ilog2 i) s :=
  Tr.get_bind (Tr.ite
    (fun _ => Tr.ite (fun _ => Tr.lift_bind fun _ _ => Tr.lift _) fun _ =>
      Tr.ite (fun _ => Tr.lift_bind fun _ _ => Tr.lift _) fun _ =>
      Tr.lift_bind fun _ _ => Tr.ite (fun _ => Tr.lift _) fun _ =>
      Tr.lift_bind fun _ _ => Tr.ite (fun _ => Tr.lift _) fun _ =>
      Tr.bind' (pos_tr hP i) fun ⟨_, _⟩ _ => Tr.lift_bind fun _ _ => Tr.lift _)
    fun _ => Tr.raise _)

theorem getSliceFwd_tr (hP : NoIndex P) (i j : Int) : Tr P (getSliceFwd ilog2 i j) (Core.getSliceFwd ilog2 i j) s :=
  Tr.get_bind (Tr.ite (fun _ => Tr.pure _) fun _ =>
    Tr.bind' (pos_tr hP i) fun ⟨_, _⟩ _ => Tr.lift_bind fun _ _ => Tr.ite (fun _ => Tr.pure _) fun _ =>
      Tr.ite (fun _ => Tr.lift_bind fun _ _ => Tr.bind' (Tr.pure _) fun ⟨_, _⟩ _ => Tr.lift_bind fun _ _ => Tr.pure _) fun _ =>
        Tr.bind' (pos_tr hP j) fun ⟨_, _⟩ _ => Tr.lift_bind fun _ _ => Tr.pure _)

theorem getSliceStep1_tr (hP : NoIndex P) (i j : Option Int) :
    Tr P (getSliceStep1 ilog2 i j) (Core.getSliceStep1 ilog2 i j) s :=
  Tr.get_bind (Tr.lift_bind fun ⟨_, _, _⟩ _ => Tr.ite (fun _ => getSliceFwd_tr hP _ _) fun _ =>
    Tr.mapEach (fun i _ => getInt_tr hP i) _)

theorem getSlice_tr (hP : NoIndex P) (sl : PySlice) : Tr P (getSlice ilog2 sl) (Core.getSlice ilog2 sl) s :=
  Tr.get_bind (Tr.lift_bind fun ⟨_, _, _⟩ _ => Tr.ite (fun _ => getSliceFwd_tr hP _ _) fun _ =>
    Tr.ite (fun _ => Tr.bind' (getSliceStep1_tr hP _ _) fun _ _ => Tr.pure _) fun _ =>
    Tr.mapEach (fun i _ => getInt_tr hP i) _)

theorem islice_tr (hP : NoIndex P) (i j : Option Int) (r : Bool) : Tr P (islice ilog2 i j r) (Core.islice ilog2 i j r) s :=
  Tr.get_bind (Tr.ite (fun _ => Tr.pure _) fun _ => Tr.lift_bind fun ⟨_, _, _⟩ _ => Tr.ite (fun _ => Tr.pure _) fun _ =>
    Tr.bind' (pos_tr hP _) fun ⟨_, _⟩ _ =>
      Tr.ite (fun _ => Tr.lift_bind fun _ _ => Tr.bind' (Tr.pure _) fun ⟨_, _⟩ _ => Tr.lift _) fun _ =>
        Tr.bind' (pos_tr hP _) fun ⟨_, _⟩ _ => Tr.lift _)

namespace SL
variable {P : St α α → Prop} {s : St α α} {E : Env α}

theorem bisect_left_tr (hP : NoIndex P) (v : α) : Tr P (bisect_left E v) (Verif.SL.bisect_left E v) s :=
  Tr.get_bind (Tr.ite (fun _ => Tr.pure _) fun _ => Tr.lift_bind fun _ _ => Tr.ite (fun _ => Tr.pure _) fun _ =>
    Tr.lift_bind fun _ _ => Tr.lift_bind fun _ _ => loc_tr hP _ _)

theorem bisect_right_tr (hP : NoIndex P) (v : α) : Tr P (bisect_right E v) (Verif.SL.bisect_right E v) s :=
  Tr.get_bind (Tr.ite (fun _ => Tr.pure _) fun _ => Tr.lift_bind fun _ _ => Tr.ite (fun _ => Tr.pure _) fun _ =>
    Tr.lift_bind fun _ _ => Tr.lift_bind fun _ _ => loc_tr hP _ _)

theorem count_tr (hP : NoIndex P) (v : α) : Tr P (count E v) (Verif.SL.count E v) s :=
  Tr.get_bind (Tr.ite (fun _ => Tr.pure _) fun _ => Tr.lift_bind fun _ _ => Tr.ite (fun _ => Tr.pure _) fun _ =>
    Tr.lift_bind fun _ _ => Tr.lift_bind fun _ _ => Tr.lift_bind fun _ _ =>
    Tr.ite (fun _ => Tr.bind' (loc_tr hP _ _) fun _ _ => Tr.pure _) fun _ =>
    Tr.lift_bind fun _ _ => Tr.lift_bind fun _ _ => Tr.ite (fun _ => Tr.pure _) fun _ =>
    Tr.bind' (loc_tr hP _ _) fun _ _ => Tr.bind' (loc_tr hP _ _) fun _ _ => Tr.pure _)

theorem index_tr (hP : NoIndex P) (v : α) (i j : Option Int) : Tr P (index E v i j) (Verif.SL.index E v i j) s :=
  Tr.get_bind (Tr.ite (fun _ => Tr.raise _) fun _ => Tr.ite (fun _ => Tr.raise _) fun _ =>
    Tr.lift_bind fun _ _ => Tr.ite (fun _ => Tr.raise _) fun _ =>
    Tr.lift_bind fun _ _ => Tr.lift_bind fun _ _ => Tr.lift_bind fun _ _ => Tr.lift_bind fun _ _ =>
    Tr.ite (fun _ => Tr.raise _) fun _ =>
    Tr.bind' (loc_tr hP _ _) fun _ _ => Tr.ite (fun _ => Tr.ite (fun _ => Tr.pure _) fun _ => Tr.raise _) fun _ =>
    Tr.bind' (bisect_right_tr hP v) fun _ _ => Tr.ite (fun _ => Tr.pure _) fun _ => Tr.raise _)

end SL

namespace SKL
variable {K : KEnv α κ}

theorem bisect_key_left_tr (hP : NoIndex P) (k : κ) : Tr P (bisect_key_left K k) (Verif.SKL.bisect_key_left K k) s :=
  Tr.get_bind (Tr.ite (fun _ => Tr.pure _) fun _ => Tr.lift_bind fun _ _ => Tr.ite (fun _ => Tr.pure _) fun _ =>
    Tr.lift_bind fun _ _ => Tr.lift_bind fun _ _ => loc_tr hP _ _)

theorem bisect_key_right_tr (hP : NoIndex P) (k : κ) : Tr P (bisect_key_right K k) (Verif.SKL.bisect_key_right K k) s :=
  Tr.get_bind (Tr.ite (fun _ => Tr.pure _) fun _ => Tr.lift_bind fun _ _ => Tr.ite (fun _ => Tr.pure _) fun _ =>
    Tr.lift_bind fun _ _ => Tr.lift_bind fun _ _ => loc_tr hP _ _)

theorem bisect_left_tr (hP : NoIndex P) (v : α) : Tr P (bisect_left K v) (Verif.SKL.bisect_left K v) s :=
  Tr.lift_bind fun _ _ => bisect_key_left_tr hP _

theorem bisect_right_tr (hP : NoIndex P) (v : α) : Tr P (bisect_right K v) (Verif.SKL.bisect_right K v) s :=
  Tr.lift_bind fun _ _ => bisect_key_right_tr hP _

theorem indexLoop_tr (hP : NoIndex P) (lists : List (List α)) (keys : List (List κ)) (v : α) (k : κ) (i j : Int)
    (p x n : Nat) (s : St α κ) :
    Tr P (indexLoop K lists keys v k i j p x n) (Verif.SKL.indexLoop K lists keys v k i j p x n) s := by
  have tail : ∀ (p x n : Nat) (s : St α κ), (∀ (ks' : List κ) (s : St α κ),
      Tr P (indexLoop K lists keys v k i j (p + 1) 0 ks'.length) (Verif.SKL.indexLoop K lists keys v k i j (p + 1) 0 ks'.length) s) →
      (∀ s, Tr P (indexLoop K lists keys v k i j p (x + 1) n) (Verif.SKL.indexLoop K lists keys v k i j p (x + 1) n) s) →
      Tr P (if x + 1 = n then
          if p + 1 = keys.length then IPy.raise .valueError
          else
            match getItem keys (p + 1) with
            | .error e => IPy.raise e
            | .ok ks' => indexLoop K lists keys v k i j (p + 1) 0 ks'.length
        else indexLoop K lists keys v k i j p (x + 1) n)
        (if x + 1 = n then
          if p + 1 = keys.length then Py.raise .valueError
          else
            match getItem keys (p + 1) with
            | .error e => Py.raise e
            | .ok ks' => Verif.SKL.indexLoop K lists keys v k i j (p + 1) 0 ks'.length
        else Verif.SKL.indexLoop K lists keys v k i j p (x + 1) n) s := by
    intro p x n s ih1 ih2
    refine Tr.ite (fun _ => Tr.ite (fun _ => Tr.raise _) fun _ => ?_) fun _ => ih2 s
    cases getItem keys (p + 1) with
    | error e => exact Tr.raise _
    | ok ks' => exact ih1 ks' s
  fun_induction Verif.SKL.indexLoop K lists keys v k i j p x n generalizing s
  case case9 ih1 ih2 =>
    rw [indexLoop]
    split <;> rename_i e1
    · simp_all
    split <;> rename_i e2
    · simp_all
    simp_all
    exact Tr.bind' (Tr.pure _) fun b s1 => by
      cases b with
      | some b => exact Tr.pure _
      | none => exact tail _ _ _ _ ih1 ih2
  case case8 ih1 ih2 =>
    rw [indexLoop]
    split <;> rename_i e1
    · simp_all
    split <;> rename_i e2
    · simp_all
    simp_all
    refine Tr.bind' (loc_tr hP _ _) fun _ _ => Tr.ite (fun _ => Tr.bind' (Tr.pure _) ?_) fun _ =>
      Tr.ite (fun _ => Tr.bind' (Tr.raise _) ?_) fun _ => Tr.bind' (Tr.pure _) ?_
    all_goals
      rintro (_ | b) s1
      · exact tail _ _ _ _ ih1 ih2
      · exact Tr.pure _
  all_goals
    rw [indexLoop]
    split <;> rename_i e1
    · simp_all <;> exact Tr.raise _
    split <;> rename_i e2
    · simp_all <;> exact Tr.raise _
    simp_all <;> exact Tr.raise _

theorem index_tr (hP : NoIndex P) (v : α) (i j : Option Int) : Tr P (index K v i j) (Verif.SKL.index K v i j) s :=
  Tr.get_bind (Tr.ite (fun _ => Tr.raise _) fun _ => Tr.ite (fun _ => Tr.raise _) fun _ =>
    Tr.lift_bind fun _ _ => Tr.lift_bind fun _ _ => Tr.ite (fun _ => Tr.raise _) fun _ =>
    Tr.lift_bind fun _ _ => Tr.lift_bind fun _ _ => indexLoop_tr hP _ _ _ _ _ _ _ _ _ _)

end SKL
end Interrupt
end Verif
