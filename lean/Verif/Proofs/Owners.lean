import Verif.Owners
import Verif.Linear
import Verif.Model.WritersSets
import Verif.Proofs.ThreadsSets
import Verif.Proofs.Writers
/-!
# Threads that change one object: proofs
-/

namespace Verif

namespace Mishaps
variable {τ ω β : Type} {step : ω → Py τ β} {sure before before' after after' : ω → Prop} {errs : PyErr → Prop}

/-- If all calls have their whole effect, the plain container is changed as without other threads. -/
theorem plain {s t : τ} {cs : List ω} {xs : List (Except PyErr β)} (h : Mishaps step sure before after errs s cs xs t) (hb : ∀ c, ¬ before c) : t = (runHist step cs s).2 := by
  induction h with
  | nil => rfl
  | call _ _ ih => exact ih
  | before h => exact absurd h (hb _)
  | after _ _ _ ih => exact ih

theorem mono {s t : τ} {cs : List ω} {xs : List (Except PyErr β)} (h : Mishaps step sure before after errs s cs xs t) (hb : ∀ c, before c → before' c) (ha : ∀ c, after c → after' c) :
    Mishaps step sure before' after' errs s cs xs t := by
  induction h with
  | nil => exact .nil
  | call h _ ih => exact .call h ih
  | before h he _ ih => exact .before (hb _ h) he ih
  | after h he _ ih => exact .after (ha _ h) he ih

end Mishaps

namespace Prog
variable {σ β γ G : Type} {view : σ → G → Prop} {mine : (σ → σ) → Prop}

/-- The program, as seen by a thread that knows the part `g` of the object, which only the thread itself changes.  `view s g`: the part of the object `s` is `g`.  `mine f`: what the thread
may write.  By a look the thread may learn more.  When the program ends, the part and the result are as `P` says. -/
def Own (view : σ → G → Prop) (mine : (σ → σ) → Prop) : Prog σ β → (G → Except PyErr β → Prop) → G → Prop
  | ret x, P, g => P g x
  | read k, P, g => ∀ s, view s g → ∃ g', view s g' ∧ Own view mine (k s) P g'
  | write f k, P, g => ∃ g', (∀ s, view s g → view (f s) g') ∧ mine f ∧ Own view mine k P g'

theorem Own.read {P : G → Except PyErr β → Prop} {k : σ → Prog σ β} {g : G} (h : ∀ s, view s g → (k s).Own view mine P g) : (Prog.read k).Own view mine P g :=
  fun s hs => ⟨g, hs, h s hs⟩

theorem Own.mono {P Q : G → Except PyErr β → Prop} {m : Prog σ β} {g : G} (h : m.Own view mine P g) (hpq : ∀ g x, P g x → Q g x) : m.Own view mine Q g := by
  induction m generalizing g with
  | ret x => exact hpq _ _ h
  | read k ih =>
    intro s hs
    obtain ⟨g', h1, h2⟩ := h s hs
    exact ⟨g', h1, ih s h2⟩
  | write f k ih =>
    obtain ⟨g', h1, h2, h3⟩ := h
    exact ⟨g', h1, h2, ih h3⟩

theorem Own.bind {P : G → Except PyErr β → Prop} {Q : G → Except PyErr γ → Prop} {m : Prog σ β} {f : β → Prog σ γ} {g : G} (h : m.Own view mine P g)
    (hok : ∀ g b, P g (.ok b) → (f b).Own view mine Q g) (herr : ∀ g e, P g (.error e) → Q g (.error e)) : (m.bind f).Own view mine Q g := by
  induction m generalizing g with
  | ret x =>
    rcases x with e | b
    · exact herr _ _ h
    · exact hok _ _ h
  | read k ih =>
    intro s hs
    obtain ⟨g', h1, h2⟩ := h s hs
    exact ⟨g', h1, ih s h2⟩
  | write f k ih =>
    obtain ⟨g', h1, h2, h3⟩ := h
    exact ⟨g', h1, h2, ih h3⟩

theorem Own.attempt {P : G → Except PyErr β → Prop} {m : Prog σ β} {g : G} (h : m.Own view mine P g) :
    m.attempt.Own view mine (fun g x => ∃ y, x = .ok y ∧ P g y) g := by
  induction m generalizing g with
  | ret x => exact ⟨x, rfl, h⟩
  | read k ih =>
    intro s hs
    obtain ⟨g', h1, h2⟩ := h s hs
    exact ⟨g', h1, ih s h2⟩
  | write f k ih =>
    obtain ⟨g', h1, h2, h3⟩ := h
    exact ⟨g', h1, h2, ih h3⟩

/-- `f <$> m` -/
theorem Own.map {P : G → Except PyErr β → Prop} {m : Prog σ β} {f : β → γ} {g : G} (h : m.Own view mine P g) :
    (f <$> m).Own view mine (fun g x => ∃ y, P g y ∧ x = y.map f) g :=
  Own.bind h (fun _ b hb => ⟨.ok b, hb, rfl⟩) fun _ e he => ⟨.error e, he, rfl⟩

/-- A program that leaves the part alone. -/
theorem Own.of_writes {R : σ → σ → Prop} {m : Prog σ β} {g : G} (h : m.Writes R) (hv : ∀ f, (∀ s, R s (f s)) → mine f ∧ ∀ s, view s g → view (f s) g) :
    m.Own view mine (fun g' _ => g' = g) g := by
  induction m with
  | ret x => rfl
  | read k ih => exact fun s hs => ⟨g, hs, ih s (h s)⟩
  | write f k ih => exact ⟨g, (hv f h.1).2, (hv f h.1).1, ih h.2⟩

/-- A program that begins with a look, and leaves alone all that the thread knows. -/
theorem Own.of_writes_read {R : σ → σ → Prop} {k : σ → Prog σ β} {g g' : G} (h : (Prog.read k).Writes R) (hg : ∀ s, view s g → view s g')
    (hv : ∀ f, (∀ s, R s (f s)) → mine f ∧ ∀ s, view s g' → view (f s) g') : (Prog.read k).Own view mine (fun g'' _ => g'' = g') g :=
  fun s hs => ⟨g', hg s hs, Own.of_writes (h s) hv⟩

/-- The calls of a thread. -/
theorem Own.calls {step : γ → Py G β} {sure before after : γ → Prop} {errs : PyErr → Prop} {prog : γ → Prog σ β} {cs : List γ}
    (h : ∀ c ∈ cs, ∀ g, (prog c).Own view mine (fun g' x => ((sure c → x = (step c g).1) ∧ g' = (step c g).2) ∨ (∃ e, before c ∧ errs e ∧ x = .error e ∧ g' = g) ∨
      ∃ e, after c ∧ errs e ∧ x = .error e ∧ g' = (step c g).2) g) (g : G) :
    (Prog.calls prog cs).Own view mine (fun g' x => ∃ xs, x = .ok xs ∧ Mishaps step sure before after errs g cs xs g') g := by
  induction cs generalizing g with
  | nil => exact ⟨[], rfl, .nil⟩
  | cons c cs ih =>
    refine Own.bind (h c (by simp) g).attempt (fun g' y hy => ?_) fun g' e he => ?_
    · obtain ⟨y, ey, hy⟩ := hy
      cases ey
      refine Own.bind (ih (fun c hc => h c (by simp [hc])) g') (fun g'' xs hxs => ?_) fun g'' e he => ?_
      · obtain ⟨xs, exs, hxs⟩ := hxs
        cases exs
        refine ⟨y :: xs, rfl, ?_⟩
        rcases hy with ⟨h1, rfl⟩ | ⟨e, h1, h2, rfl, rfl⟩ | ⟨e, h1, h2, rfl, rfl⟩
        · exact .call h1 hxs
        · exact .before h1 h2 hxs
        · exact .after h1 h2 hxs
      · obtain ⟨_, e', _⟩ := he; cases e'
    · obtain ⟨_, e', _⟩ := he; cases e'

end Prog

/-- Threads that each know their own part of the object.  `J`: what all threads keep. -/
theorem Pool.own {σ β G : Type} {view : Nat → σ → G → Prop} {mine : Nat → (σ → σ) → Prop} {J : σ → Prop} {P : Nat → G → Except PyErr β → Prop}
    (hJ : ∀ i f s, mine i f → J s → J (f s)) (hother : ∀ i j f s g, i ≠ j → mine j f → view i s g → view i (f s) g)
    (p : Pool σ β) (hs : J p.shared) (start : Nat → G) (h : ∀ i m, p.threads[i]? = some m → view i p.shared (start i) ∧ m.Own (view i) (mine i) (P i) (start i)) (schedule : List Nat) :
    J (p.run schedule).shared ∧ ∀ (i : Nat) x, (p.run schedule).result i = some x → ∃ g, view i (p.run schedule).shared g ∧ P i g x := by
  induction schedule generalizing p start with
  | nil =>
    refine ⟨hs, fun i x hx => ?_⟩
    have : p.threads[i]? = some (.ret x) := by
      have hx : p.result i = some x := hx
      unfold Pool.result at hx
      split at hx
      · rename_i e
        cases hx; exact e
      · cases hx
    exact ⟨start i, h i _ this⟩
  | cons i0 schedule ih =>
    have key : ∃ start' : Nat → G, J (p.turn i0).shared ∧ ∀ i m, (p.turn i0).threads[i]? = some m → view i (p.turn i0).shared (start' i) ∧ m.Own (view i) (mine i) (P i) (start' i) := by
      unfold Pool.turn
      split
      · rename_i k e
        obtain ⟨g', h1, h2⟩ := (h i0 _ e).2 _ (h i0 _ e).1
        refine ⟨fun i => if i = i0 then g' else start i, hs, fun i m hm => ?_⟩
        have hm : (p.threads.set i0 (k p.shared))[i]? = some m := hm
        by_cases hi : i = i0
        · subst hi
          rw [List.getElem?_set_self (List.getElem?_eq_some_iff.1 e).1] at hm
          cases hm
          simp only [if_true]
          exact ⟨h1, h2⟩
        · rw [List.getElem?_set_ne (fun e => hi e.symm)] at hm
          simp only [if_neg hi]
          exact h i m hm
      · rename_i f k e
        obtain ⟨h1, g', h2, h3, h4⟩ := h i0 _ e
        refine ⟨fun i => if i = i0 then g' else start i, hJ i0 f _ h3 hs, fun i m hm => ?_⟩
        have hm : (p.threads.set i0 k)[i]? = some m := hm
        by_cases hi : i = i0
        · subst hi
          rw [List.getElem?_set_self (List.getElem?_eq_some_iff.1 e).1] at hm
          cases hm
          simp only [if_true]
          exact ⟨h2 _ h1, h4⟩
        · rw [List.getElem?_set_ne (fun e => hi e.symm)] at hm
          simp only [if_neg hi]
          exact ⟨hother i i0 f _ _ hi h3 (h i m hm).1, (h i m hm).2⟩
      · exact ⟨start, hs, h⟩
    obtain ⟨start', k1, k2⟩ := key
    exact ih (p.turn i0) k1 start' k2


/-! ## Sets -/

section Sets
variable {α τ σ : Type} {eqv : α → α → Bool} {S : SetOps τ α}

theorem SetOps.Lawful.mem_add [DecidableEq α] (hS : S.Lawful eqv) (heq : ∀ a b, eqv a b = decide (a = b)) (v w : α) (t : τ) :
    S.mem w (S.add v t) = (decide (w = v) || S.mem w t) := by
  have h1 : (S.toList (S.add v t)).any (eqv · w) = (addNew eqv (S.toList t) v).any (eqv · w) := any_perm (hS.add v t)
  rw [hS.mem, hS.mem, h1]
  unfold addNew
  split
  · rename_i h
    by_cases hw : w = v
    · subst hw; simp [h]
    · simp [hw]
  · rw [List.any_append, Bool.or_comm]
    congr 1
    simp [heq, eq_comm]

theorem SetOps.Lawful.mem_remove [DecidableEq α] (hS : S.Lawful eqv) (heq : ∀ a b, eqv a b = decide (a = b)) {v : α} {t t' : τ} (h : S.remove v t = .ok t') (w : α) :
    S.mem w t' = (!decide (w = v) && S.mem w t) := by
  have hm : (S.toList t).any (eqv · v) = true := by
    rcases e : (S.toList t).any (eqv · v) with _ | _
    · rw [hS.remove_absent v t e] at h; cases h
    · rfl
  obtain ⟨t2, e, hp⟩ := hS.remove v t hm
  rw [e] at h
  cases h
  rw [hS.mem, hS.mem, any_perm hp, Bool.eq_iff_iff]
  simp only [List.any_eq_true, List.mem_filter, heq, Bool.not_eq_true', decide_eq_false_iff_not, decide_eq_true_eq, Bool.and_eq_true]
  constructor
  · rintro ⟨x, ⟨h1, h2⟩, rfl⟩; exact ⟨h2, x, h1, rfl⟩
  · rintro ⟨h2, x, h1, rfl⟩; exact ⟨x, ⟨h1, h2⟩, rfl⟩

theorem SetOps.Lawful.remove_cases (hS : S.Lawful eqv) (v : α) (t : τ) : (S.mem v t = true ∧ ∃ t', S.remove v t = .ok t') ∨ (S.mem v t = false ∧ S.remove v t = .error .keyError) := by
  rw [hS.mem]
  rcases e : (S.toList t).any (eqv · v) with _ | _
  · exact .inr ⟨rfl, hS.remove_absent v t e⟩
  · obtain ⟨t', h, _⟩ := hS.remove v t e
    exact .inl ⟨rfl, t', h⟩


namespace SetSpec
variable {O : Spec.Order α}

theorem mem_insertNew [DecidableEq α] (l : List α) (v w : α) : w ∈ insertNew O l v ↔ w = v ∨ w ∈ l := by
  unfold insertNew
  split
  · rename_i h
    exact ⟨.inr, fun h' => h'.elim (fun e => e ▸ h) id⟩
  · rw [(Spec.insert_perm l v).mem_iff, List.mem_append, List.mem_singleton, or_comm]

theorem nodup_insertNew [DecidableEq α] {l : List α} (h : l.Nodup) (v : α) : (insertNew O l v).Nodup := by
  unfold insertNew
  split
  · exact h
  · rename_i hv
    refine (Spec.insert_perm l v).symm.nodup ?_
    rw [List.nodup_append]
    refine ⟨h, by simp, fun a ha b hb => ?_⟩
    rw [List.mem_singleton.1 hb]
    rintro rfl; exact hv ha

theorem query_stays [DecidableEq α] (op : SSOp α) (hq : op.isQuery = true) (l : List α) : (SetSpec.step O op l).2 = l := by
  cases op with
  | getInt i => exact (Spec.out_snd ..).trans (by unfold Spec.getInt; split <;> rfl)
  | getSlice sl => exact (Spec.out_snd ..).trans (by unfold Spec.getSlice; split <;> rfl)
  | bisectLeft v => rfl
  | bisectRight v => rfl
  | index v a b => exact (Spec.out_snd ..).trans (by unfold Spec.index; dsimp only; split <;> rfl)
  | islice a b r => rfl
  | irange lo hi a b r => rfl
  | copy => rfl
  | union _ => rfl
  | intersection _ => rfl
  | difference _ => rfl
  | symmetricDifference _ => rfl
  | contains _ => rfl
  | len => rfl
  | iter => rfl
  | reversed => rfl
  | count _ => rfl
  | isdisjoint _ => rfl
  | issubset _ => rfl
  | issuperset _ => rfl
  | compare _ _ => rfl
  | _ => cases hq

end SetSpec

namespace Threads.SS
variable [DecidableEq α] {W : WListAPI σ α} {know mine : α → Prop} {errs : PyErr → Prop}

/-- What the thread knows of the set. -/
def View (S : SetOps τ α) (know : α → Prop) (s : SS τ σ) (l : List α) : Prop := l.Nodup ∧ ∀ v, know v → S.mem v s.set = decide (v ∈ l)

/-- What the thread may write. -/
def Mine (S : SetOps τ α) (mine : α → Prop) (f : SS τ σ → SS τ σ) : Prop := ∀ s v, ¬ mine v → S.mem v (f s).set = S.mem v s.set

theorem onList_own {m : Prog σ Unit} (h : m.MayRaise errs) (l : List α) :
    (onList (τ := τ) m).Own (View S know) (Mine S mine) (fun l' x => l' = l ∧ ∀ e, x = .error e → errs e) l := by
  induction m with
  | ret x => exact ⟨rfl, h⟩
  | read k ih => exact .read fun s _ => ih _ (h _)
  | write f k ih => exact ⟨l, fun s hs => hs, fun s v _ => rfl, ih h⟩

theorem setAdd_own (hS : S.Lawful eqv) (heq : ∀ a b, eqv a b = decide (a = b)) {O : Spec.Order α} {v : α} (hv : mine v) (l : List α) :
    (setAdd (σ := σ) S v).Own (View S know) (Mine S mine) (fun l' x => l' = SetSpec.insertNew O l v ∧ x = .ok ()) l := by
  refine ⟨_, fun s hs => ⟨SetSpec.nodup_insertNew hs.1 v, fun w hw => ?_⟩, fun s w hw => ?_, rfl, rfl⟩
  · show S.mem w (S.add v s.set) = _
    rw [hS.mem_add heq, hs.2 w hw, Bool.eq_iff_iff]
    simp [SetSpec.mem_insertNew]
  · show S.mem w (S.add v s.set) = _
    have hne : w ≠ v := by rintro rfl; exact hw hv
    rw [hS.mem_add heq, decide_eq_false hne]; rfl

theorem setRemove_own (hS : S.Lawful eqv) (heq : ∀ a b, eqv a b = decide (a = b)) {v : α} (hv : mine v) (hk : know v) (l : List α) :
    (setRemove (σ := σ) S v).Own (View S know) (Mine S mine) (fun l' x => (v ∈ l ∧ l' = l.erase v ∧ x = .ok ()) ∨ (v ∉ l ∧ l' = l ∧ x = .error .keyError)) l := by
  refine .read fun s hs => ?_
  have hm := hs.2 v hk
  rcases hS.remove_cases v s.set with ⟨h1, t, e⟩ | ⟨h1, e⟩
  · rw [h1] at hm
    have hm : v ∈ l := of_decide_eq_true hm.symm
    show Prog.Own _ _ (Prog.bind (.ret (S.remove v s.set)) _) _ _
    rw [e]
    refine ⟨l.erase v, fun s hs => ⟨hs.1.erase v, fun w hw => ?_⟩, fun s w hw => ?_, .inl ⟨hm, rfl, rfl⟩⟩
    · rcases hS.remove_cases v s.set with ⟨h1, t, e⟩ | ⟨h1, e⟩
      · simp only [e]
        rw [hS.mem_remove heq e, hs.2 w hw, Bool.eq_iff_iff]
        simp [hs.1.mem_erase_iff]
      · have := hs.2 v hk
        rw [h1] at this
        exact absurd hm (of_decide_eq_false this.symm)
    · rcases hS.remove_cases v s.set with ⟨h1, t, e⟩ | ⟨h1, e⟩
      · simp only [e]
        have hne : w ≠ v := by rintro rfl; exact hw hv
        rw [hS.mem_remove heq e, decide_eq_false hne]; rfl
      · simp only [e]
  · rw [h1] at hm
    have hm : v ∉ l := of_decide_eq_false hm.symm
    show Prog.Own _ _ (Prog.bind (.ret (S.remove v s.set)) _) _ _
    rw [e]
    exact .inr ⟨hm, rfl, rfl⟩

/-- The calls of a thread. -/
theorem change_own {Q : QListAPI σ α} {L : ListAPI σ α} {R : σ → σ → Prop} {I : σ → Prop} (hQ : Q.Sound L R I)
    (hS : S.Lawful eqv) (heq : ∀ a b, eqv a b = decide (a = b)) (hW : ∀ v, (W.add v).MayRaise errs ∧ (W.remove v).MayRaise errs) {O : Spec.Order α}
    (op : SSOp α) (hop : op.isQuery = true ∨ ∃ v, op.changed = some v ∧ mine v) (l : List α) :
    (change S W Q L op).Own (View S know) (Mine S mine) (fun l' x =>
      (((∃ v, op.about = some v ∧ know v) → x = (SetSpec.step O op l).1) ∧ l' = (SetSpec.step O op l).2) ∨
      (∃ e, False ∧ errs e ∧ x = .error e ∧ l' = l) ∨
      ∃ e, (∃ v, op.changed = some v) ∧ errs e ∧ x = .error e ∧ l' = (SetSpec.step O op l).2) l := by
  have list : ∀ (m : Prog σ Unit), m.MayRaise errs → ∀ (l : List α), (onList (τ := τ) m).Own (View S know) (Mine S mine) (fun l' x => l' = l ∧
      (x = .ok () ∨ ∃ e, errs e ∧ x = .error e)) l := fun m hm l => (onList_own hm l).mono fun g x ⟨h1, h2⟩ => ⟨h1, by
        rcases x with e | u
        · exact .inr ⟨e, h2 e rfl, rfl⟩
        · exact .inl rfl⟩
  have fin : ∀ {m : Prog (SS τ σ) Unit} {x0 : Except PyErr Unit} {l0 : List α}, (SetSpec.step O op l) = (x0.map fun _ => .none, l0) → (∃ v, op.changed = some v) →
      m.Own (View S know) (Mine S mine) (fun l' x => l' = l0 ∧ (x = x0 ∨ ∃ e, errs e ∧ x = .error e)) l →
      ((fun _ => Out.none) <$> m : Prog (SS τ σ) (Out α)).Own (View S know) (Mine S mine) (fun l' x =>
      (((∃ v, op.about = some v ∧ know v) → x = (SetSpec.step O op l).1) ∧ l' = (SetSpec.step O op l).2) ∨
      (∃ e, False ∧ errs e ∧ x = .error e ∧ l' = l) ∨
      ∃ e, (∃ v, op.changed = some v) ∧ errs e ∧ x = .error e ∧ l' = (SetSpec.step O op l).2) l := by
    intro m x0 l0 e hc hm
    refine hm.map.mono ?_
    rintro l' _ ⟨y, ⟨rfl, hy⟩, rfl⟩
    rw [e]
    rcases hy with rfl | ⟨e, he, rfl⟩
    · exact .inl ⟨fun _ => rfl, rfl⟩
    · exact .inr (.inr ⟨e, hc, he, rfl, rfl⟩)
  have rest : op.isQuery = true → op.about = none → change S W Q L op = query S Q L op → (change S W Q L op).Own (View S know) (Mine S mine) (fun l' x =>
      (((∃ v, op.about = some v ∧ know v) → x = (SetSpec.step O op l).1) ∧ l' = (SetSpec.step O op l).2) ∨
      (∃ e, False ∧ errs e ∧ x = .error e ∧ l' = l) ∨
      ∃ e, (∃ v, op.changed = some v) ∧ errs e ∧ x = .error e ∧ l' = (SetSpec.step O op l).2) l := by
    intro hq ha e
    rw [e]
    refine (Prog.Own.of_writes (query_asks (S := S) hQ hq).writes fun f hf => ⟨fun s v _ => by rw [(hf s).1], fun s hs => ⟨hs.1, fun v hv => by rw [(hf s).1]; exact hs.2 v hv⟩⟩).mono ?_
    rintro l' x rfl
    refine .inl ⟨fun ⟨v, hv, _⟩ => ?_, (SetSpec.query_stays op hq l').symm⟩
    rw [ha] at hv; cases hv
  have other : ∀ v, ¬ know v → op.about = some v → mine v → (∃ k, change S W Q L op = .read k) →
      (change S W Q L op).Writes (fun s s' => ∀ w, w ≠ v → S.mem w s'.set = S.mem w s.set) →
      (l.Nodup → (SetSpec.step O op l).2.Nodup) → (∀ w, w ≠ v → (w ∈ (SetSpec.step O op l).2 ↔ w ∈ l)) → (change S W Q L op).Own (View S know) (Mine S mine) (fun l' x =>
      (((∃ v, op.about = some v ∧ know v) → x = (SetSpec.step O op l).1) ∧ l' = (SetSpec.step O op l).2) ∨
      (∃ e, False ∧ errs e ∧ x = .error e ∧ l' = l) ∨
      ∃ e, (∃ v, op.changed = some v) ∧ errs e ∧ x = .error e ∧ l' = (SetSpec.step O op l).2) l := by
    rintro v hk ha hm ⟨k, e⟩ hw h1 h2
    rw [e] at hw ⊢
    have k1 : ∀ s, View (σ := σ) S know s l → View S know s (SetSpec.step O op l).2 := fun s hs => ⟨h1 hs.1, fun w hw => by
      rw [hs.2 w hw, Bool.eq_iff_iff, decide_eq_true_iff, decide_eq_true_iff, h2 w fun e => hk (e ▸ hw)]⟩
    have k2 : ∀ f : SS τ σ → SS τ σ, (∀ s w, w ≠ v → S.mem w (f s).set = S.mem w s.set) → Mine S mine f ∧ ∀ s, View S know s (SetSpec.step O op l).2 → View S know (f s) (SetSpec.step O op l).2 :=
      fun f hf => ⟨fun s w hw => hf s w fun e => hw (e ▸ hm), fun s hs => ⟨hs.1, fun w hw => by rw [hf s w fun e => hk (e ▸ hw)]; exact hs.2 w hw⟩⟩
    refine (Prog.Own.of_writes_read hw k1 k2).mono ?_
    rintro l' x rfl
    refine .inl ⟨fun ⟨w, e, hw⟩ => ?_, rfl⟩
    rw [ha] at e; cases e; exact absurd hw hk
  have listW : ∀ v (m : Prog σ Unit), (onList (τ := τ) m).Writes (fun s s' => ∀ w, w ≠ v → S.mem w s'.set = S.mem w s.set) := by
    intro v m
    induction m with
    | ret x => trivial
    | read k ih => exact fun s => ih _
    | write f k ih => exact ⟨fun s w _ => rfl, ih⟩
  have remW : ∀ v, (setRemove (σ := σ) S v).Writes (fun s s' => ∀ w, w ≠ v → S.mem w s'.set = S.mem w s.set) := by
    intro v s
    show Prog.Writes _ (Prog.bind (.ret (S.remove v s.set)) _)
    rcases S.remove v s.set with e | t
    · trivial
    · refine ⟨fun s w hw => ?_, trivial⟩
      dsimp only
      split
      · rename_i e
        rw [hS.mem_remove heq e, decide_eq_false hw]; rfl
      · rfl
  cases op with
  | add v =>
    have hv : mine v := by
      rcases hop with h | ⟨w, h, hw⟩
      · cases h
      · cases h; exact hw
    by_cases hk : know v
    case neg =>
      refine other v hk rfl hv ⟨_, rfl⟩ (Prog.Writes.bind (m := add S W v) (fun s => ?_) fun _ => trivial) (fun h => SetSpec.nodup_insertNew h v) fun w hw => ?_
      · show Prog.Writes _ (ite _ _ _)
        split
        · trivial
        · refine ⟨fun s w hw => ?_, listW v _⟩
          show S.mem w (S.add v s.set) = _
          rw [hS.mem_add heq, decide_eq_false hw]; rfl
      · show w ∈ SetSpec.insertNew O l v ↔ _
        rw [SetSpec.mem_insertNew]
        exact ⟨fun h => h.resolve_left hw, .inr⟩
    refine fin (x0 := .ok ()) (l0 := SetSpec.insertNew O l v) rfl ⟨v, rfl⟩ (.read fun s hs => ?_)
    have hm := hs.2 v hk
    show Prog.Own _ _ (ite _ _ _) _ _
    split
    · rename_i h
      rw [h] at hm
      refine ⟨?_, .inl rfl⟩
      unfold SetSpec.insertNew
      rw [if_pos (of_decide_eq_true hm.symm)]
    · refine Prog.Own.bind (setAdd_own hS heq (O := O) hv l) (fun l' _ h => ?_) fun l' e h => by cases h.2
      rw [h.1]
      exact list _ (hW v).1 _
  | discard v =>
    have hv : mine v := by
      rcases hop with h | ⟨w, h, hw⟩
      · cases h
      · cases h; exact hw
    by_cases hk : know v
    case neg =>
      refine other v hk rfl hv ⟨_, rfl⟩ (Prog.Writes.bind (m := discard S W v) (fun s => ?_) fun _ => trivial) (fun h => h.erase v) fun w hw => List.mem_erase_of_ne hw
      show Prog.Writes _ (ite _ _ _)
      split
      · exact Prog.Writes.bind (remW v) fun _ => listW v _
      · trivial
    refine fin (x0 := .ok ()) (l0 := l.erase v) rfl ⟨v, rfl⟩ (.read fun s hs => ?_)
    have hm := hs.2 v hk
    show Prog.Own _ _ (ite _ _ _) _ _
    split
    · rename_i h
      rw [h] at hm
      refine Prog.Own.bind (setRemove_own hS heq hv hk l) (fun l' _ h => ?_) fun l' e h => ?_
      · rcases h with ⟨_, rfl, _⟩ | ⟨_, _, h⟩
        · exact list _ (hW v).2 _
        · cases h
      · rcases h with ⟨_, _, h⟩ | ⟨h, _, _⟩
        · cases h
        · exact absurd (of_decide_eq_true hm.symm) h
    · rename_i h
      rw [Bool.eq_false_iff.2 h] at hm
      exact ⟨(List.erase_of_not_mem (of_decide_eq_false hm.symm)).symm, .inl rfl⟩
  | remove v =>
    have hv : mine v := by
      rcases hop with h | ⟨w, h, hw⟩
      · cases h
      · cases h; exact hw
    by_cases hk : know v
    case neg =>
      have e : (SetSpec.step O (.remove v) l).2 = l.erase v := by
        by_cases hl : v ∈ l
        · simp [SetSpec.step, Spec.out_snd, SetSpec.remove, hl]
        · simp [SetSpec.step, Spec.out_snd, SetSpec.remove, hl, List.erase_of_not_mem]
      refine other v hk rfl hv ⟨_, rfl⟩ (Prog.Writes.bind (m := remove S W v) (Prog.Writes.bind (remW v) fun _ => listW v _) fun _ => trivial) (fun h => ?_) fun w hw => ?_
      · rw [e]; exact h.erase v
      · rw [e]; exact List.mem_erase_of_ne hw
    by_cases hl : v ∈ l
    · refine fin (x0 := .ok ()) (l0 := l.erase v) (by simp [SetSpec.step, Spec.out, SetSpec.remove, hl]; rfl) ⟨v, rfl⟩ ?_
      refine Prog.Own.bind (setRemove_own hS heq hv hk l) (fun l' _ h => ?_) fun l' e h => ?_
      · rcases h with ⟨_, rfl, _⟩ | ⟨_, _, h⟩
        · exact list _ (hW v).2 _
        · cases h
      · rcases h with ⟨_, _, h⟩ | ⟨h, _, _⟩
        · cases h
        · exact absurd hl h
    · refine fin (x0 := .error .keyError) (l0 := l) (by simp [SetSpec.step, Spec.out, SetSpec.remove, hl]; rfl) ⟨v, rfl⟩ ?_
      refine Prog.Own.bind (setRemove_own hS heq hv hk l) (fun l' _ h => ?_) fun l' e h => ?_
      · rcases h with ⟨h, _, _⟩ | ⟨_, _, h⟩
        · exact absurd h hl
        · cases h
      · rcases h with ⟨_, _, h⟩ | ⟨_, rfl, h⟩
        · cases h
        · cases h; exact ⟨rfl, .inl rfl⟩
  | contains v =>
    refine .read fun s hs => .inl ⟨?_, rfl⟩
    rintro ⟨w, e, hw⟩
    cases e
    show Except.ok (Out.bool (S.mem v s.set)) = _
    rw [hs.2 v hw]; rfl
  | count v =>
    refine .read fun s hs => .inl ⟨?_, rfl⟩
    rintro ⟨w, e, hw⟩
    cases e
    show Except.ok (Out.int (if S.mem v s.set then 1 else 0 : Nat)) = .ok (.int (l.count v))
    rw [hs.2 v hw]
    by_cases h : v ∈ l
    · have : l.count v = 1 := Nat.le_antisymm (List.nodup_iff_count.1 hs.1 v) (List.count_pos_iff.2 h)
      rw [this]; simp [h]
    · rw [List.count_eq_zero_of_not_mem h]; simp [h]
  | _ => first | exact rest rfl rfl rfl | (rcases hop with h | ⟨_, h, _⟩ <;> cases h)

end Threads.SS

end Sets

end Verif
