import Verif.Proofs.Owners
/-!
# Threads that put values in one sorted set: proofs
-/

namespace Verif
namespace Threads.SS
variable {α τ σ : Type} [DecidableEq α] {eqv : α → α → Bool} {S : SetOps τ α} {W : WListAPI σ α} {errs : PyErr → Prop} {U : α → Prop}

/-- What a thread knows of a set in which values are only put: `g` are in it, and nothing but `U`. -/
def Grows (S : SetOps τ α) (U : α → Prop) (s : SS τ σ) (g : List α) : Prop := (∀ v ∈ g, S.mem v s.set = true) ∧ ∀ v, S.mem v s.set = true → U v

/-- What a thread that only puts values in may write. -/
def Growing (S : SetOps τ α) (U : α → Prop) (f : SS τ σ → SS τ σ) : Prop := ∀ s v, (S.mem v s.set = true → S.mem v (f s).set = true) ∧ (S.mem v (f s).set = true → S.mem v s.set = true ∨ U v)

/-- The answer to one call of a thread that knows that `g` are in the set. -/
def Told (errs : PyErr → Prop) (U : α → Prop) (g : List α) (op : SSOp α) (a : Except PyErr (Out α)) : Prop :=
  (∀ v, op = .add v → a = .ok .none ∨ ∃ e, errs e ∧ a = .error e) ∧
  ∀ v, op = .contains v → ∃ b, a = .ok (.bool b) ∧ (v ∈ g → b = true) ∧ (b = true → U v)

theorem onList_grows {m : Prog σ Unit} (h : m.MayRaise errs) (g : List α) :
    (onList (τ := τ) m).Own (Grows S U) (Growing S U) (fun g' x => g' = g ∧ ∀ e, x = .error e → errs e) g := by
  induction m with
  | ret x => exact ⟨rfl, h⟩
  | read k ih => exact .read fun s _ => ih _ (h _)
  | write f k ih => exact ⟨g, fun s hs => hs, fun s v => ⟨id, .inl⟩, ih h⟩

theorem change_grows {Q : QListAPI σ α} {L : ListAPI σ α} {R : σ → σ → Prop} {I : σ → Prop} (hQ : Q.Sound L R I)
    (hS : S.Lawful eqv) (heq : ∀ a b, eqv a b = decide (a = b)) (hW : ∀ v, (W.add v).MayRaise errs)
    (op : SSOp α) (hop : op.isQuery = true ∨ ∃ v, op = .add v ∧ U v) (g : List α) :
    (change S W Q L op).Own (Grows S U) (Growing S U) (fun g' x => Told errs U g op x ∧ (∀ v ∈ g, v ∈ g') ∧ ∀ v, op = .add v → v ∈ g') g := by
  have rest : op.isQuery = true → (∀ v, op ≠ .contains v) → change S W Q L op = query S Q L op →
      (change S W Q L op).Own (Grows S U) (Growing S U) (fun g' x => Told errs U g op x ∧ (∀ v ∈ g, v ∈ g') ∧ ∀ v, op = .add v → v ∈ g') g := by
    intro hq hn e
    rw [e]
    refine (Prog.Own.of_writes (query_asks (S := S) hQ hq).writes fun f hf => ⟨fun s v => by rw [(hf s).1]; exact ⟨id, .inl⟩, fun s hs => by
      unfold Grows; rw [(hf s).1]; exact hs⟩).mono ?_
    rintro l' x rfl
    exact ⟨⟨(fun v e => by rw [e] at hq; cases hq), fun v e => absurd e (hn v)⟩, fun _ h => h, (fun v e => by rw [e] at hq; cases hq)⟩
  cases op with
  | add v =>
    have hv : U v := by
      rcases hop with h | ⟨w, h, hw⟩
      · cases h
      · cases h; exact hw
    have told : ∀ (g' : List α) (y : Except PyErr Unit), (∀ v ∈ g, v ∈ g') → v ∈ g' → (∀ e, y = .error e → errs e) →
        Told errs U g (.add v) (y.map fun _ => Out.none) ∧ (∀ v ∈ g, v ∈ g') ∧ ∀ w, SSOp.add v = .add w → w ∈ g' := by
      intro g' y h1 h2 h3
      refine ⟨⟨fun w _ => ?_, fun w e => by cases e⟩, h1, fun w e => by cases e; exact h2⟩
      rcases y with e | u
      · exact .inr ⟨e, h3 e rfl, rfl⟩
      · exact .inl rfl
    have : (add S W v).Own (Grows S U) (Growing S U) (fun g' y => (∀ v ∈ g, v ∈ g') ∧ v ∈ g' ∧ ∀ e, y = .error e → errs e) g := by
      show ∀ s, Grows S U s g → ∃ g', Grows S U s g' ∧ Prog.Own _ _ (ite _ _ _) _ _
      intro s hs
      split
      · rename_i hm
        refine ⟨v :: g, ⟨fun w hw => ?_, hs.2⟩, fun _ h => List.mem_cons_of_mem _ h, List.mem_cons_self .., fun e h => by cases h⟩
        rcases List.mem_cons.1 hw with rfl | hw
        · exact hm
        · exact hs.1 w hw
      · refine ⟨g, hs, ?_⟩
        refine ⟨v :: g, fun s hs => ⟨fun w hw => ?_, fun w hw => ?_⟩, fun s w => ⟨fun hw => ?_, fun hw => ?_⟩, ?_⟩
        · show S.mem w (S.add v s.set) = true
          rw [hS.mem_add heq, Bool.or_eq_true]
          rcases List.mem_cons.1 hw with rfl | hw
          · exact .inl (by simp)
          · exact .inr (hs.1 w hw)
        · have hw : S.mem w (S.add v s.set) = true := hw
          rw [hS.mem_add heq, Bool.or_eq_true] at hw
          rcases hw with hw | hw
          · rw [of_decide_eq_true hw]; exact hv
          · exact hs.2 w hw
        · show S.mem w (S.add v s.set) = true
          rw [hS.mem_add heq, hw, Bool.or_true]
        · have hw : S.mem w (S.add v s.set) = true := hw
          rw [hS.mem_add heq, Bool.or_eq_true] at hw
          rcases hw with hw | hw
          · rw [of_decide_eq_true hw]; exact .inr hv
          · exact .inl hw
        · refine (onList_grows (hW v) (v :: g)).mono ?_
          rintro g' y ⟨rfl, h⟩
          exact ⟨fun _ h => List.mem_cons_of_mem _ h, List.mem_cons_self .., h⟩
    refine this.map.mono ?_
    rintro g' _ ⟨y, ⟨h1, h2, h3⟩, rfl⟩
    exact told g' y h1 h2 h3
  | contains v =>
    refine .read fun s hs => ⟨⟨(fun w e => by cases e), fun w e => ?_⟩, fun _ h => h, fun w e => by cases e⟩
    cases e
    exact ⟨S.mem v s.set, rfl, fun h => hs.1 v h, fun h => hs.2 v h⟩
  | _ => first | exact rest rfl (fun _ e => by cases e) rfl | (rcases hop with h | ⟨_, h, _⟩ <;> cases h)

/-- The calls of a thread that only puts values in. -/
theorem calls_grows {prog : SSOp α → Prog (SS τ σ) (Out α)} {cs : List (SSOp α)}
    (h : ∀ op ∈ cs, ∀ g, (prog op).Own (Grows S U) (Growing S U) (fun g' x => Told errs U g op x ∧ (∀ v ∈ g, v ∈ g') ∧ ∀ v, op = .add v → v ∈ g') g) (g : List α) :
    (Prog.calls prog cs).Own (Grows S U) (Growing S U) (fun g' x => ∃ xs, x = .ok xs ∧ xs.length = cs.length ∧
      (∀ (k : Nat) op a, cs[k]? = some op → xs[k]? = some a → ∃ gk, (∀ v, v ∈ g ∨ .add v ∈ cs.take k → v ∈ gk) ∧ Told errs U gk op a) ∧
      ∀ v, v ∈ g ∨ .add v ∈ cs → v ∈ g') g := by
  induction cs generalizing g with
  | nil => exact ⟨[], rfl, rfl, (fun k op a e _ => by simp at e), fun v h => h.elim id fun h => (by cases h)⟩
  | cons c cs ih =>
    refine Prog.Own.bind (h c (by simp) g).attempt (fun g1 y hy => ?_) fun g1 e he => ?_
    · obtain ⟨y, ey, hy1, hy2, hy3⟩ := hy
      cases ey
      refine Prog.Own.bind (ih (fun c hc => h c (by simp [hc])) g1) (fun g2 xs hxs => ?_) fun g2 e he => ?_
      · obtain ⟨xs, exs, hx1, hx2, hx3⟩ := hxs
        cases exs
        refine ⟨y :: xs, rfl, by simp [hx1], fun k op a ho ha => ?_, fun v hv => ?_⟩
        · rcases k with _ | k
          · cases ho; cases ha
            exact ⟨g, fun v hv => hv.elim id fun h => (by cases h), hy1⟩
          · obtain ⟨gk, m1, m2⟩ := hx2 k op a ho ha
            refine ⟨gk, fun v hv => m1 v ?_, m2⟩
            rcases hv with hv | hv
            · exact .inl (hy2 v hv)
            · rcases List.mem_cons.1 (List.take_succ_cons .. ▸ hv) with e | hv
              · exact .inl (hy3 v e.symm)
              · exact .inr hv
        · refine hx3 v ?_
          rcases hv with hv | hv
          · exact .inl (hy2 v hv)
          · rcases List.mem_cons.1 hv with e | hv
            · exact .inl (hy3 v e.symm)
            · exact .inr hv
      · obtain ⟨_, e', _⟩ := he; cases e'
    · obtain ⟨_, e', _⟩ := he; cases e'

end Threads.SS
end Verif
