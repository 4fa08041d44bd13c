import Verif.Proofs.ReentrantSetCalls
/-!
# Sorted sets whose comparisons and key function query them, and are right whatever they are told
-/

namespace Verif
namespace Reent
variable {τ σ W α κ β γ Q R : Type}

section
variable {T : Type} {P : T → Prop} {query : Q → RPy (Seen Q R) T R}

/-- Code that is right whatever it is told, if the queries keep `P`. -/
theorem calling_keeps (hq : ∀ q p, P p.1 → P (query q p).2.1) {code : Seen Q R → Client Q R β} {x : Except PyErr β}
    (hc : ∀ w, (code w).Always x) (p : T × Seen Q R) (hp : P p.1) : (calling query code p).1 = x ∧ P (calling query code p).2.1 := by
  have he : ∀ (c : Client Q R β), c.Always x → ∀ p, P p.1 → (exec query c p).1 = x ∧ P (exec query c p).2.1 := by
    intro c
    induction c with
    | done r => rintro ⟨⟩ p hp; exact ⟨rfl, hp⟩
    | ask q k ih =>
      intro hc p hp
      have h := hq q p hp
      rcases hp' : query q p with ⟨r, s, w⟩
      have he : exec query (.ask q k) p = exec query (k r) (s, { w with answers := (q, r) :: w.answers }) := by
        show (match query q p with
          | (r, s, w) => exec query (k r) (s, { w with answers := (q, r) :: w.answers })) = _
        rw [hp']
      rw [hp'] at h
      rw [he]
      exact ih r (hc r) (s, { w with answers := (q, r) :: w.answers }) h
  exact he (code p.2) (hc p.2) (p.1, { p.2 with calls := p.2.calls + 1 }) hp

/-- Such code that does not ask. -/
theorem calling_mute {code : Seen Q R → Client Q R β} {x : Except PyErr β} (hc : ∀ w, (code w).Always x)
    (hd : ∀ w, ∃ r, code w = .done r) (p : T × Seen Q R) (hp : P p.1) : (calling query code p).1 = x ∧ P (calling query code p).2.1 := by
  obtain ⟨r, hr⟩ := hd p.2
  have := hc p.2
  rw [hr] at this
  unfold calling
  rw [hr]
  exact ⟨this, hp⟩

end

section
variable {L : ListAPI σ α} {I : σ → Prop} {Re : σ → σ → Prop} {J : W → Prop} {m : RPy W σ β} {f : Py σ β} {g : Py (List α) β}

theorem Writes.refines (hs : L.Settled Re) (h : ∀ s0, I s0 → Writes Re I J s0 m f) (hf : Refines I L.iter f g) :
    Refines (fun p : σ × W => I p.1 ∧ J p.2) (fun p => L.iter p.1) m g := fun p hp => by
  obtain ⟨p', hp', e⟩ := h p.1 hp.1 p ⟨hs.refl _, hp.1, hp.2⟩
  obtain ⟨h1, h2, h3⟩ := hf p'.1 hp'.inv
  rw [hs.iter hp'.re] at h1 h2
  rw [e]
  exact ⟨h1, h2, h3, hp'.world⟩

theorem Reads.refines (hs : L.Settled Re) (h : ∀ s0, I s0 → Reads Re I J s0 m f) (hf : Refines I L.iter f g) (hg : ∀ l, (g l).2 = l) :
    Refines (fun p : σ × W => I p.1 ∧ J p.2) (fun p => L.iter p.1) m g := fun p hp => by
  obtain ⟨e, hk⟩ := h p.1 hp.1 p ⟨hs.refl _, hp.1, hp.2⟩
  refine ⟨e.trans (hf p.1 hp.1).1, ?_, hk.inv, hk.world⟩
  rw [hg]
  exact hs.iter hk.re

end

namespace SS

section
variable {S : SetOps τ α} {L : ListAPI σ α} {Re : σ → σ → Prop} {L' : RListAPI (τ × W) σ α} {t0 : τ} {s0 : σ}

/-- A query, whatever the state of the set, changes the positional index at most. -/
theorem query_idle (hs : L.Settled Re) (hL : L'.Idle Re (fun w => w.1 = t0 ∧ True) s0) (op : SSOp α) (hq : op.isQuery = true) (p : SS τ σ × W)
    (hp : Same Re (fun _ => True) t0 s0 p.1) : Same Re (fun _ => True) t0 s0 (step S L L' op p).2.1 := by
  let P : SS τ σ × W → Prop := fun p => Same Re (fun _ => True) t0 s0 p.1
  have out : ∀ {β : Type} (f : β → Out α) {m : RPy W (SS τ σ) β}, Preserves P m → Same Re (fun _ => True) t0 s0 (Spec.out f m p).2.1 := by
    intro β f m hm
    rw [Spec.out_snd]
    exact hm p hp
  have list : ∀ {β : Type} {m : RPy (τ × W) σ β}, Preserves (fun p : σ × (τ × W) => Re s0 p.1 ∧ p.2.1 = t0 ∧ True) m → Preserves P (onList m) := by
    intro β m hm p hp
    obtain ⟨h1, h2, -⟩ := hm (p.1.list, p.1.set, p.2) ⟨hp.re, hp.set, trivial⟩
    exact ⟨h2, h1, trivial⟩
  have quiet : ∀ {β : Type} (f' : β → Out α) {f : Py σ β}, (∀ s, Re s (f s).2) →
      Same Re (fun _ => True) t0 s0 (free (W := W) (Spec.out f' (Verif.SS.onList f)) p).2.1 := by
    intro β f' f hf
    show Same Re _ t0 s0 (Spec.out f' (Verif.SS.onList f) p.1).2
    rw [Spec.out_snd]
    exact ⟨hp.set, hs.trans hp.re (hf _), trivial⟩
  have get : Preserves P (free Py.get) := fun p hp => hp
  have fs : ∀ f, Preserves P (fromset S L' f) := fun f => Preserves.bind get fun _ => list (hL.newValues _)
  cases op with
  | bisectLeft v => exact out _ (list (hL.bisectLeft v))
  | bisectRight v => exact out _ (list (hL.bisectRight v))
  | index v a b => exact out _ (list (hL.index v a b))
  | irange lo hi a b r => exact out _ (list (hL.irange lo hi a b r))
  | getInt i => exact quiet _ (hs.getInt i)
  | getSlice sl => exact quiet _ (hs.getSlice sl)
  | islice a b r => exact quiet _ (hs.islice a b r)
  | copy => exact out _ (fs _)
  | intersection xss => exact out _ (fs _)
  | difference xss => exact out _ (fs _)
  | symmetricDifference xs => exact out _ (fs _)
  | union xss =>
    refine out _ (Preserves.bind get fun _ => Preserves.bind (list (hL.newValues _)) fun _ => ?_)
    exact Preserves.ite (list (hL.newValues _)) (Preserves.pure _)
  | _ => first | exact hp | (cases hq; done)

end

/-! ## Calls -/

section
variable {S : SetOps τ α} {L : ListAPI σ α} {O : Spec.Order α} {eqv : α → α → Bool} {I : σ → Prop} {Re : σ → σ → Prop}

/-- The same built-in set, and lists with the same values. -/
structure Twin (L : ListAPI σ α) (I : σ → Prop) (s s' : SS τ σ) : Prop where
  set : s.set = s'.set
  iter : L.iter s.list = L.iter s'.list
  inv : I s.list
  inv' : I s'.list

/-- `m` does what `f` does, but for the inner structure of the list. -/
def Tracks (L : ListAPI σ α) (I : σ → Prop) (m : RPy W (SS τ σ) β) (f : Py (SS τ σ) β) : Prop :=
  ∀ p s, Twin L I p.1 s → (m p).1 = (f s).1 ∧ Twin L I (m p).2.1 (f s).2

namespace Tracks

theorem pure (b : β) : Tracks L I (Pure.pure b : RPy W (SS τ σ) β) (Pure.pure b) := fun _ _ h => ⟨rfl, h⟩

theorem bind {m : RPy W (SS τ σ) β} {f : Py (SS τ σ) β} {k : β → RPy W (SS τ σ) γ} {g : β → Py (SS τ σ) γ}
    (h : Tracks L I m f) (hk : ∀ b, Tracks L I (k b) (g b)) : Tracks L I (m >>= k) (f >>= g) := by
  intro p t hp
  obtain ⟨e, h1⟩ := h p t hp
  rw [Py.bind_apply, Py.bind_apply]
  rcases hm : m p with ⟨r, p'⟩
  rcases hf : f t with ⟨r', t'⟩
  rw [hm, hf] at e h1
  simp only at e h1
  subst e
  cases r with
  | error e => exact ⟨rfl, h1⟩
  | ok b => exact hk b p' t' h1

theorem get_bind {k : SS τ σ → RPy W (SS τ σ) β} {g : SS τ σ → Py (SS τ σ) β}
    (h : ∀ r s, Twin L I r s → Tracks L I (k r) (g s)) : Tracks L I (free Py.get >>= k) (Py.get >>= g) :=
  fun p s hp => h p.1 s hp p s hp

theorem out {m : RPy W (SS τ σ) β} {f : Py (SS τ σ) β} (g : β → Out α) (h : Tracks L I m f) : Tracks L I (Spec.out g m) (Spec.out g f) := by
  intro p s hp
  obtain ⟨e, h1⟩ := h p s hp
  unfold Spec.out
  rcases hm : m p with ⟨r, p'⟩
  rcases hf : f s with ⟨r', t'⟩
  rw [hm, hf] at e h1
  simp only at e h1
  subst e
  cases r <;> exact ⟨rfl, h1⟩

theorem forEach {δ : Type} {m : δ → RPy W (SS τ σ) Unit} {f : δ → Py (SS τ σ) Unit} (h : ∀ x, Tracks L I (m x) (f x)) (xs : List δ) :
    Tracks L I (Py.forEach m xs) (Py.forEach f xs) := by
  induction xs with
  | nil => exact pure ()
  | cons x xs ih => exact bind (h x) fun _ => ih

theorem ite {c : Prop} [Decidable c] {m m' : RPy W (SS τ σ) β} {f f' : Py (SS τ σ) β} (h1 : Tracks L I m f) (h2 : Tracks L I m' f') :
    Tracks L I (if c then m else m') (if c then f else f') := by
  split
  · exact h1
  · exact h2

theorem onSet (f : τ → τ) : Tracks L I (free (W := W) (Verif.SS.onSet f)) (Verif.SS.onSet f) := fun p s hp =>
  ⟨rfl, congrArg f hp.set, hp.iter, hp.inv, hp.inv'⟩

theorem setRemove (v : α) : Tracks L I (free (W := W) (Verif.SS.setRemove S v)) (Verif.SS.setRemove S v) := fun p s hp => by
  simp only [free, Verif.SS.setRemove, hp.set]
  cases S.remove v s.set with
  | ok t => exact ⟨rfl, rfl, hp.iter, hp.inv, hp.inv'⟩
  | error e => exact ⟨rfl, hp.set, hp.iter, hp.inv, hp.inv'⟩

/-- A method of the list that calls no client's code. -/
theorem list {f : Py σ β} {g : Py (List α) β} (hf : Refines I L.iter f g) :
    Tracks L I (free (W := W) (Verif.SS.onList f)) (Verif.SS.onList (τ := τ) f) := fun p s hp => by
  obtain ⟨a1, a2, a3⟩ := hf p.1.list hp.inv
  obtain ⟨b1, b2, b3⟩ := hf s.list hp.inv'
  rw [hp.iter] at a1 a2
  exact ⟨a1.trans b1.symm, hp.set, a2.trans b2.symm, a3, b3⟩

/-- A method of the list that calls the client's code. -/
theorem called {m : RPy (τ × W) σ β} {f : Py σ β} {g : Py (List α) β}
    (hm : ∀ t : τ, Refines (fun p : σ × (τ × W) => I p.1 ∧ p.2.1 = t ∧ True) (fun p => L.iter p.1) m g) (hf : Refines I L.iter f g) :
    Tracks L I (Reent.SS.onList m) (Verif.SS.onList f) := fun p s hp => by
  obtain ⟨a1, a2, a3, a4, -⟩ := hm p.1.set (p.1.list, p.1.set, p.2) ⟨hp.inv, rfl, trivial⟩
  obtain ⟨b1, b2, b3⟩ := hf s.list hp.inv'
  simp only [hp.iter] at a1 a2
  exact ⟨a1.trans b1.symm, a4.trans hp.set, a2.trans b2.symm, a3, b3⟩

theorem read (f : SS τ σ → β) (hf : ∀ s s', Twin L I s s' → f s = f s') :
    Tracks L I (free (W := W) (Verif.SS.read f)) (Verif.SS.read f) := fun p s hp =>
  ⟨congrArg Except.ok (hf _ _ hp), hp⟩

theorem free_out {f : Py (SS τ σ) β} (g : β → Out α) (h : Tracks L I (free (W := W) f) f) : Tracks L I (free (W := W) (Spec.out g f)) (Spec.out g f) := by
  intro p s hp
  have := h.out g p s hp
  rw [show Spec.out g (free f) p = free (W := W) (Spec.out g f) p by
    rcases hf : f p.1 with ⟨r, s1⟩
    have e1 : free (W := W) f p = (r, s1, p.2) := by simp only [free, hf]
    cases r <;> simp only [free, Spec.out, hf]] at this
  exact this

theorem free_bind {f : Py (SS τ σ) β} {g : β → Py (SS τ σ) γ} (h : Tracks L I (free (W := W) f) f) (hg : ∀ b, Tracks L I (free (W := W) (g b)) (g b)) :
    Tracks L I (free (W := W) (f >>= g)) (f >>= g) := by
  intro p s hp
  have := h.bind hg p s hp
  rw [show (free f >>= fun b => free (g b)) p = free (W := W) (f >>= g) p by
    rw [Py.bind_apply]
    unfold free
    rw [Py.bind_apply]
    rcases f p.1 with ⟨_ | _, _⟩ <;> rfl] at this
  exact this

end Tracks

variable {L' : RListAPI (τ × W) σ α} (h : Verif.SS.Good S L O eqv I) (hs : L.Settled Re)
  (hF : ∀ t : τ, L'.Firm L Re O I (fun w : τ × W => w.1 = t ∧ True))
include h hs hF

theorem add_tracks (v : α) : Tracks L I (add S L' v) (Verif.SS.add S L v) := by
  refine .get_bind fun r s hp => ?_
  rw [hp.set]
  exact .ite (.pure _) (.bind (.onSet _) fun _ => .called (fun t => Writes.refines hs (fun s0 h0 => ((hF t).mimics s0 h0).add v) (h.list.add v)) (h.list.add v))

theorem list_remove_tracks (v : α) : Tracks L I (Reent.SS.onList (L'.remove v)) (Verif.SS.onList (L.remove v)) :=
  .called (fun t => Writes.refines hs (fun s0 h0 => ((hF t).mimics s0 h0).remove v) (h.list.remove v)) (h.list.remove v)

theorem discard_tracks (v : α) : Tracks L I (discard S L' v) (Verif.SS.discard S L v) := by
  refine .get_bind fun r s hp => ?_
  rw [hp.set]
  exact .ite (.bind (.setRemove v) fun _ => list_remove_tracks h hs hF v) (.pure _)

theorem remove_tracks (v : α) : Tracks L I (remove S L' v) (Verif.SS.remove S L v) :=
  .bind (.setRemove v) fun _ => list_remove_tracks h hs hF v

omit hs in
theorem rebuild_tracks : Tracks L I (rebuild S L L') (Verif.SS.rebuild S L) := by
  refine .bind (.list h.list.clear) fun _ => .get_bind fun r s hp => ?_
  rw [hp.set]
  exact .called (fun t => (hF t).update _) (h.list.update _)

omit h in
theorem newValues_tracks (xs : List α) : Tracks L I (Reent.SS.onList (L'.newValues xs)) (Py.lift (L.newValues xs) : Py (SS τ σ) (List α)) := by
  intro p s hp
  obtain ⟨e, hk⟩ := ((hF p.1.set).mimics p.1.list hp.inv).newValues xs (p.1.list, p.1.set, p.2) ⟨hs.refl _, hp.inv, rfl, trivial⟩
  exact ⟨e, hk.world.1.trans hp.set, (hs.iter hk.re).trans hp.iter, hk.inv, hp.inv'⟩

omit h in
theorem fromset_tracks (f : τ → τ) (g : SS τ σ → Except PyErr (SS τ σ)) (hg : ∀ s, g s = Verif.SS.fromset S L (f s.set)) :
    Tracks L I (fromset S L' f) (Verif.SS.valuesOf L g) := by
  have e : Verif.SS.valuesOf L g = (do
      let s ← Py.get
      Py.lift (L.newValues (S.toList (f s.set)))) := by
    funext s
    rw [Py.get_bind]
    simp only [Verif.SS.valuesOf, hg, Verif.SS.fromset, ListAPI.newValues]
    cases L.new (some (S.toList (f s.set))) <;> rfl
  rw [e]
  refine .get_bind fun r s hp => ?_
  rw [hp.set]
  exact newValues_tracks hs hF _

theorem union_tracks (xss : List (List α)) : Tracks L I (union S L L' xss) (Verif.SS.valuesOf L (Verif.SS.union S L xss)) := by
  have e : Verif.SS.valuesOf L (Verif.SS.union S L xss) = (do
      let s ← Py.get
      let none ← Py.lift (L.newValues (S.toList S.empty))
      if 4 * S.len (S.ofList (L.iter s.list ++ xss.flatten)) > S.len S.empty then
        Py.lift (L.newValues (S.toList (S.update (S.toList (S.ofList (L.iter s.list ++ xss.flatten))) S.empty)))
      else Pure.pure none) := by
    funext s
    rw [Py.get_bind]
    have e1 : Verif.SS.valuesOf L (Verif.SS.union S L xss) s =
        ((Verif.SS.new S L (some (L.iter s.list ++ xss.flatten))).map (Verif.SS.iter L), s) := by
      simp only [Verif.SS.valuesOf, Verif.SS.union, Verif.SS.iter]
      cases Verif.SS.new S L (some (L.iter s.list ++ xss.flatten)) <;> rfl
    obtain ⟨n, en, -, -⟩ := h.list.new (some (S.toList S.empty))
    rw [e1, new_values h]
    simp only [ListAPI.newValues, en]
    rw [show Except.map L.iter (Except.ok n : Except PyErr σ) = .ok (L.iter n) from rfl, Py.lift_ok_bind]
    split <;> rfl
  rw [e]
  refine .get_bind fun r s hp => .bind (newValues_tracks hs hF _) fun n => ?_
  simp only [Verif.SS.iter, hp.iter]
  exact .ite (newValues_tracks hs hF _) (.pure _)

theorem step_tracks (op : SSOp α) (hv : op.Valid) : Tracks L I (step S L L' op) (Verif.SS.step S L op) := by
  have reads : ∀ {β : Type} {m : RPy (τ × W) σ β} {f : Py σ β} {g : Py (List α) β},
      (∀ (t : τ) s0, I s0 → Reads Re I (fun w : τ × W => w.1 = t ∧ True) s0 m f) → Refines I L.iter f g → (∀ l, (g l).2 = l) →
      Tracks L I (Reent.SS.onList m) (Verif.SS.onList f) := fun hm hf hg => .called (fun t => Reads.refines hs (hm t) hf hg) hf
  have rd : ∀ {β : Type} (f : β → Out α) (g : SS τ σ → β), (∀ s s', Twin L I s s' → g s = g s') →
      Tracks L I (free (W := W) (Spec.out f (Verif.SS.read g))) (Spec.out f (Verif.SS.read g)) := fun f g hg => (Tracks.read g hg).free_out f
  cases op with
  | add v => exact (add_tracks h hs hF v).out _
  | discard v => exact (discard_tracks h hs hF v).out _
  | remove v => exact (remove_tracks h hs hF v).out _
  | pop i => exact ((Tracks.list (h.list.pop i)).free_bind fun v => (Tracks.setRemove v).free_bind fun _ => .pure _).free_out _
  | delInt i => exact ((Tracks.list (h.list.getInt i)).free_bind fun v => (Tracks.setRemove v).free_bind fun _ => .list (h.list.delInt i)).free_out _
  | delSlice sl =>
    exact (Tracks.bind (.list (h.list.getSlice sl)) fun vs => .bind (.onSet _) fun _ => .called (fun t => (hF t).delSlice sl) (h.list.delSlice sl)).out _
  | clear => exact ((Tracks.onSet _).free_bind fun _ => .list h.list.clear).free_out _
  | update xss =>
    refine (Tracks.get_bind fun r s hp => ?_).out _
    dsimp only
    rw [hp.set]
    exact .ite (.bind (.onSet _) fun _ => rebuild_tracks h hF) (.forEach (add_tracks h hs hF) _)
  | differenceUpdate xss =>
    refine (Tracks.get_bind fun r s hp => ?_).out _
    dsimp only
    rw [hp.set]
    exact .ite (.bind (.onSet _) fun _ => rebuild_tracks h hF) (.forEach (discard_tracks h hs hF) _)
  | intersectionUpdate xss => exact (Tracks.bind (.onSet _) fun _ => rebuild_tracks h hF).out _
  | symmetricDifferenceUpdate xs => exact (Tracks.bind (.onSet _) fun _ => rebuild_tracks h hF).out _
  | getInt i => exact (Tracks.list (h.list.getInt i)).free_out _
  | getSlice sl => exact (Tracks.list (h.list.getSlice sl)).free_out _
  | islice a b r => exact (Tracks.list (h.list.islice a b r)).free_out _
  | bisectLeft v => exact (reads (fun t s0 h0 => ((hF t).mimics s0 h0).bisectLeft v) (h.list.bisectLeft v) fun _ => rfl).out _
  | bisectRight v => exact (reads (fun t s0 h0 => ((hF t).mimics s0 h0).bisectRight v) (h.list.bisectRight v) fun _ => rfl).out _
  | index v a b => exact (reads (fun t s0 h0 => ((hF t).mimics s0 h0).index v a b) (h.list.index v a b) fun _ => by simp only [Spec.index]; split <;> rfl).out _
  | irange lo hi a b r => exact (reads (fun t s0 h0 => ((hF t).mimics s0 h0).irange lo hi a b r) (h.list.irange lo hi a b r) fun _ => rfl).out _
  | reset load => exact (Tracks.called (fun t => (hF t).reset load hv) (h.list.reset load hv)).out _
  | contains v => exact rd _ _ fun s s' hp => by simp only [Verif.SS.contains, hp.set]
  | len => exact rd _ _ fun s s' hp => by simp only [Verif.SS.length, hp.set]
  | iter => exact rd _ _ fun s s' hp => hp.iter
  | reversed =>
    refine rd _ _ fun s s' hp => ?_
    have e1 := (h.list.reversed s.list hp.inv).1
    have e2 := (h.list.reversed s'.list hp.inv').1
    rw [hp.iter] at e1
    exact Except.ok.inj (e1.trans e2.symm)
  | count v => exact rd _ _ fun s s' hp => by simp only [Verif.SS.count, hp.set]
  | isdisjoint xs => exact rd _ _ fun s s' hp => by simp only [Verif.SS.isdisjoint, hp.set]
  | issubset xs => exact rd _ _ fun s s' hp => by simp only [Verif.SS.issubset, hp.set]
  | issuperset xs => exact rd _ _ fun s s' hp => by simp only [Verif.SS.issuperset, hp.set]
  | compare op xs => exact rd _ _ fun s s' hp => by simp only [Verif.SS.compare, hp.set]
  | copy => exact (fromset_tracks hs hF S.copy _ fun _ => rfl).out _
  | intersection xss => exact (fromset_tracks hs hF (S.intersection xss) _ fun _ => rfl).out _
  | difference xss => exact (fromset_tracks hs hF (S.difference xss) _ fun _ => rfl).out _
  | symmetricDifference xs => exact (fromset_tracks hs hF (S.symmetricDifference xs) _ fun _ => rfl).out _
  | union xss => exact (union_tracks h hs hF xss).out _

end

/-! ## The list of a set -/

section
variable {S : SetOps τ α} {c : ListClass α} {C : c.Code (SSQuery α) (Out α)} {O : Spec.Order α} {eqv : α → α → Bool} {I : c.State → Prop} {D : Nat}

/-- A list whose client's code is right whatever it is told. -/
def Withstands (c : ListClass α) (O : Spec.Order α) (I : c.State → Prop) : Prop :=
  ∀ {Q R W : Type} (C : c.Code Q R) (D : Nat) (J : W → Prop) (d : Nat)
    (run : {β : Type} → (Seen Q R → Client Q R β) → RPy W c.State β), c.Steadfast C → c.Quiet C D →
    (∀ {β : Type} (code : Seen Q R → Client Q R β) (x : Except PyErr β), (∀ w, (code w).Always x) →
      (d = D → ∀ w, ∃ r, code w = .done r) →
      (∀ s0, Yields c.Reindexed (fun _ => True) J s0 (run code) x) ∧ ∀ s0, I s0 → Yields c.Reindexed I J s0 (run code) x) →
    (c.calling C d run).Firm c.api c.Reindexed O I J

theorem list_firm (h : Verif.SS.Good S c.api O eqv I) (hs : c.api.Settled c.Reindexed) (hw : Withstands c O I) (hC : c.Steadfast C) (hD : c.Quiet C D)
    (t : τ) : ∀ n d, n + d = D → (list S c C n d).Firm c.api c.Reindexed O I (fun w => w.1 = t ∧ True) := by
  intro n
  induction n with
  | zero =>
    intro d hd
    refine hw C D _ d _ hC hD fun code x hx hdone => ⟨fun s0 => inner_yields (J := fun _ => True) fun p hp _ => ?_, fun s0 h0 => inner_yields (J := fun _ => True) fun p hp _ => ?_⟩
    · have := calling_mute (P := Same c.Reindexed (fun _ => True) t s0) (query := fun _ => Py.raise .modelGap) hx (hdone (by omega)) p hp
      exact ⟨this.1, this.2, trivial⟩
    · have := calling_mute (P := Same c.Reindexed I t s0) (query := fun _ => Py.raise .modelGap) hx (hdone (by omega)) p hp
      exact ⟨this.1, this.2, trivial⟩
  | succ n ih =>
    intro d hd
    have hn := ih (d + 1) (by omega)
    refine hw C D _ d _ hC hD fun code x hx hdone => ⟨fun s0 => inner_yields (J := fun _ => True) fun p hp _ => ?_, fun s0 h0 => inner_yields (J := fun _ => True) fun p hp _ => ?_⟩
    · have := calling_keeps (P := Same c.Reindexed (fun _ => True) t s0) (fun q p hp => query_idle (S := S) hs (hn.idle s0) q.1 q.2 p hp) hx p hp
      exact ⟨this.1, this.2, trivial⟩
    · have := calling_keeps (P := Same c.Reindexed I t s0) (fun q p hp =>
        (query_same (J := fun _ => True) h hs (hn.mimics s0 h0) h0 q.1 q.2 hp trivial).2.1) hx p hp
      exact ⟨this.1, this.2, trivial⟩

variable [DecidableEq α]

/-- One call. -/
theorem firm_refines (h : Verif.SS.Good S c.api O eqv I) (ht : Verif.SS.Total O eqv) (hs : c.api.Settled c.Reindexed) (hw : Withstands c O I)
    (hC : c.Steadfast C) (hD : c.Quiet C D) (op : SSOp α) (hv : op.Valid) :
    Refines (fun p : SS τ c.State × Seen (SSQuery α) (Out α) => Verif.SS.Inv S c.api I p.1) (fun p => Verif.SS.iter c.api p.1)
      (step S c.api (list S c C D 0) op) (SetSpec.step O op) := by
  intro p hp
  obtain ⟨e, ht'⟩ := step_tracks h hs (fun t => list_firm h hs hw hC hD t D 0 rfl) op hv p p.1 ⟨rfl, rfl, hp.list, hp.list⟩
  obtain ⟨r1, r2, r3⟩ := Verif.SS.step_refines h ht op hv p.1 hp
  refine ⟨e.trans r1, ht'.iter.trans r2, ht'.inv, ?_⟩
  rw [ht'.set, ht'.iter]
  exact r3.perm

end

end SS
end Reent
end Verif
