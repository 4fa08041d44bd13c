import Verif.Proofs.RaceSets
import Verif.Proofs.RaceCrowd
import Verif.Proofs.OwnersAlone
/-!
# What threads keep to that change one object

`P.Safe Q m`: as long as the other threads keep `P.inv`, so does the program `m`; it raises only exceptions in `P.err` and returns only results in `Q`.  (`B.Safe` of Proofs/Race.lean without
the parts about termination, for any object.)
-/

namespace Verif
variable {α β γ σ τ : Type}

structure Pact (σ : Type) where
  inv : σ → Prop
  err : PyErr → Prop

namespace Pact

def Safe (P : Pact σ) (Q : β → Prop) : Task σ β → Prop
  | .ret (.ok b) => Q b
  | .ret (.error e) => P.err e
  | .act f k => ∀ s, P.inv s → P.inv (f s) ∧ Safe P Q (k s)
  | .spin => True

namespace Safe
variable {P : Pact σ} {Q : β → Prop} {Q' : γ → Prop}

theorem bind {m : Task σ β} {f : β → Task σ γ} (h : P.Safe Q m) (hf : ∀ b, Q b → P.Safe Q' (f b)) : P.Safe Q' (m >>= f) := by
  show P.Safe Q' (Task.bind m f)
  induction m with
  | ret x =>
    match x, h with
    | .ok b, h => exact hf b h
    | .error e, h => exact h
  | act g k ih => exact fun s hs => ⟨(h s hs).1, ih s (h s hs).2⟩
  | spin => trivial

theorem mono {m : Task σ β} {Q' : β → Prop} (h : P.Safe Q m) (hq : ∀ b, Q b → Q' b) : P.Safe Q' m := by
  induction m with
  | ret x =>
    match x, h with
    | .ok b, h => exact hq b h
    | .error e, h => exact h
  | act g k ih => exact fun s hs => ⟨(h s hs).1, ih s (h s hs).2⟩
  | spin => trivial

theorem pure {b : β} (h : Q b) : P.Safe Q (Pure.pure b : Task σ β) := h
theorem raise {e : PyErr} (h : P.err e) : P.Safe Q (Task.raise e : Task σ β) := h
theorem lift {x : Except PyErr β} (he : ∀ e, x = .error e → P.err e) (h : ∀ b, x = .ok b → Q b) : P.Safe Q (Task.lift x : Task σ β) := by
  match x with
  | .ok b => exact h b rfl
  | .error e => exact he e rfl

theorem see {f : σ → Except PyErr β} (he : ∀ s e, P.inv s → f s = .error e → P.err e) (h : ∀ s b, P.inv s → f s = .ok b → Q b) : P.Safe Q (Task.see f) := by
  intro s hs
  refine ⟨hs, ?_⟩
  show P.Safe Q (.ret (f s))
  cases hx : f s with
  | ok b => exact h s b hs hx
  | error e => exact he s e hs hx

theorem change {f : σ → Except PyErr σ} (he : ∀ s e, P.inv s → f s = .error e → P.err e) (h : ∀ s s', P.inv s → f s = .ok s' → P.inv s') : P.Safe (fun _ => True) (Task.change f) := by
  intro s hs
  simp only
  cases hx : f s with
  | ok s' => exact ⟨h s s' hs hx, trivial⟩
  | error e => exact ⟨hs, he s e hs hx⟩

theorem map {m : Task σ β} {f : β → γ} (h : P.Safe Q m) (hf : ∀ b, Q b → Q' (f b)) : P.Safe Q' (f <$> m) := bind h fun b hb => pure (hf b hb)

theorem forEach {f : β → Task σ Unit} : ∀ {xs : List β}, (∀ x ∈ xs, P.Safe (fun _ => True) (f x)) → P.Safe (fun _ => True) (Task.forEach f xs)
  | [], _ => trivial
  | x :: _, h => bind (h x (by simp)) fun _ _ => forEach fun y hy => h y (by simp [hy])

theorem attempt {m : Task σ β} (h : P.Safe Q m) : P.Safe (fun x => (∀ b, x = .ok b → Q b) ∧ ∀ e, x = .error e → P.err e) (Task.attempt m) := by
  induction m with
  | ret x =>
    match x, h with
    | .ok b, h => exact ⟨fun b' e => by cases e; exact h, fun e h => by cases h⟩
    | .error e, h => exact ⟨fun b' he => (by cases he), fun e' h' => by cases h'; exact h⟩
  | act g k ih => exact fun s hs => ⟨(h s hs).1, ih s (h s hs).2⟩
  | spin => trivial

/-- What is to be known of the answers to calls. -/
def Fit (P : Pact σ) (Q : γ → β → Prop) (cs : List γ) (answers : List (Except PyErr β)) : Prop :=
  answers.length = cs.length ∧ ∀ (j : Nat) (c : γ) (x : Except PyErr β), cs[j]? = some c → answers[j]? = some x → (∀ b, x = .ok b → Q c b) ∧ ∀ e, x = .error e → P.err e

theorem calls {step : γ → Task σ β} {Q : γ → β → Prop} : ∀ {cs : List γ}, (∀ c ∈ cs, P.Safe (Q c) (step c)) → P.Safe (Fit P Q cs) (Task.calls step cs)
  | [], _ => ⟨rfl, fun j c x h => by simp at h⟩
  | c :: cs, h => by
    unfold Task.calls
    refine bind (attempt (h c (by simp))) fun x hx => bind (calls fun c hc => h c (by simp [hc])) fun xs hxs => pure ⟨by simp [hxs.1], fun j c' x' h1 h2 => ?_⟩
    cases j with
    | zero => cases h1; cases h2; exact hx
    | succ j => exact hxs.2 j c' x' (by simpa using h1) (by simpa using h2)

theorem turn {Q : Nat → β → Prop} {p : Crowd σ β} (hp : P.inv p.shared) (h : ∀ j m, p.threads[j]? = some m → P.Safe (Q j) m) (i : Nat) :
    P.inv (p.turn i).shared ∧ ∀ j m, (p.turn i).threads[j]? = some m → P.Safe (Q j) m := by
  unfold Crowd.turn
  split
  · rename_i f k hi
    have hm := h i _ hi p.shared hp
    refine ⟨hm.1, fun j m hj => ?_⟩
    simp only [List.getElem?_set] at hj
    split at hj
    · rename_i e
      split at hj
      · cases hj; exact e ▸ hm.2
      · cases hj
    · exact h j m hj
  · exact ⟨hp, h⟩

theorem run {Q : Nat → β → Prop} (schedule : List Nat) {p : Crowd σ β} (hp : P.inv p.shared) (h : ∀ j m, p.threads[j]? = some m → P.Safe (Q j) m) :
    P.inv (p.run schedule).shared ∧ ∀ j m, (p.run schedule).threads[j]? = some m → P.Safe (Q j) m := by
  induction schedule generalizing p with
  | nil => exact ⟨hp, h⟩
  | cons i schedule ih =>
    obtain ⟨h1, h2⟩ := turn hp h i
    exact ih h1 h2

/-- All threads keep to `P` if all calls do. -/
theorem crowd {step : γ → Task σ β} {Q : γ → β → Prop} (threads : List (List γ)) (schedule : List Nat) {s : σ} (hs : P.inv s) (h : ∀ cs ∈ threads, ∀ c ∈ cs, P.Safe (Q c) (step c)) :
    let p := (Crowd.mk s (threads.map (Task.calls step))).run schedule
    P.inv p.shared ∧ ∀ i cs x, threads[i]? = some cs → p.result i = some x → ∃ answers, x = .ok answers ∧ Fit P Q cs answers := by
  intro p
  obtain ⟨h1, h2⟩ := run (P := P) (Q := fun i answers => ∀ cs, threads[i]? = some cs → Fit P Q cs answers) (p := Crowd.mk s (threads.map (Task.calls step))) schedule hs fun j m hj => by
    rw [List.getElem?_map] at hj
    cases hcs : threads[j]? with
    | none => rw [hcs] at hj; cases hj
    | some cs =>
      rw [hcs] at hj
      cases hj
      exact mono (calls (h cs (List.mem_of_getElem? hcs))) fun xs hxs cs' e => by cases e; exact hxs
  refine ⟨h1, fun i cs x hi hx => ?_⟩
  have hn : ∀ m ∈ p.threads, m.NoErr := Crowd.noErr schedule fun m hm => by
    obtain ⟨cs, -, rfl⟩ := List.mem_map.1 hm
    exact Task.NoErr.calls step cs
  obtain ⟨b, rfl⟩ := Crowd.result_ok hn hx
  refine ⟨b, rfl, ?_⟩
  unfold Crowd.result at hx
  split at hx
  · rename_i x' hx'
    cases hx
    exact h2 _ _ hx' cs hi
  · cases hx

end Safe
end Pact

namespace Race
variable {κ : Type}

/-- The pact of the threads of C88. -/
def Bounds.pact (B : Bounds α κ) : Pact (Shared α κ) := { inv := B.Holds, err := B.err }

theorem Bounds.Safe.pact {B : Bounds α κ} (hg : ¬ B.grow) {Q : β → Prop} {m : Run α κ β} (h : ∀ s, B.Holds s → B.Safe (fun _ => Q) s m) (s0 : Shared α κ) (h0 : B.Holds s0) : B.pact.Safe Q m := by
  have : ∀ (m : Run α κ β) s, B.Safe (fun _ => Q) s m → B.pact.Safe Q m := by
    intro m
    induction m with
    | ret x => intro s h; cases x <;> exact h
    | act f k ih =>
      intro s h t ht
      obtain ⟨h1, h2⟩ := h t ⟨ht, fun g => absurd g hg⟩
      exact ⟨h1.1, ih t _ h2⟩
    | spin => exact fun _ _ => trivial
  exact this m s0 (h s0 h0)

end Race

/-- The programs `W` keep to `P`, and the values they handle are in `val`, the load factors in `load`. -/
structure RaceAPI.Keeps (W : RaceAPI σ α) (P : Pact σ) (val : α → Prop) (load : Nat → Prop) : Prop where
  add : ∀ {v}, val v → P.Safe (fun _ => True) (W.add v)
  update : ∀ {xs}, (∀ v ∈ xs, val v) → P.Safe (fun _ => True) (W.update xs)
  remove : ∀ v, P.Safe (fun _ => True) (W.remove v)
  clear : P.Safe (fun _ => True) W.clear
  delInt : ∀ i, P.Safe (fun _ => True) (W.delInt i)
  pop : ∀ i, P.Safe val (W.pop i)
  getInt : ∀ i, P.Safe val (W.getInt i)
  bisectLeft : ∀ v, P.Safe (fun _ => True) (W.bisectLeft v)
  bisectRight : ∀ v, P.Safe (fun _ => True) (W.bisectRight v)
  toList : P.Safe (fun l => ∀ v ∈ l, val v) W.toList
  getSlice : ∀ sl, P.Safe (fun l => ∀ v ∈ l, val v) (W.getSlice sl)
  delSlice : ∀ sl, P.Safe (fun _ => True) (W.delSlice sl)
  index : ∀ v i j, P.Safe (fun _ => True) (W.index v i j)
  irange : ∀ lo hi a b r, P.Safe (fun l => ∀ v ∈ l, val v) (W.irange lo hi a b r)
  islice : ∀ i j r, P.Safe (fun l => ∀ v ∈ l, val v) (W.islice i j r)
  reset : ∀ {n}, load n → P.Safe (fun _ => True) (W.reset n)

namespace Race
variable {κ : Type}

theorem Bounds.keeps {B : Bounds α α} {E : Env α} (hS : B.Suits E) (hg : ¬ B.grow) {s0 : Shared α α} (h0 : B.Holds s0) (fuel : Nat) : ((ListClass.plain E).race fuel).Keeps B.pact B.val B.load := by
  refine ⟨?_, ?_, ?_, ?_, ?_, ?_, ?_, ?_, ?_, ?_, ?_, ?_, ?_, ?_, ?_, ?_⟩
  · exact fun {v} hv => show B.pact.Safe _ (SL.add E fuel v) from Bounds.Safe.pact hg (fun s hs => Bounds.Safe.SL_add hS fuel hv hs) _ h0
  · exact fun {xs} hv => show B.pact.Safe _ (SL.update E fuel xs) from Bounds.Safe.pact hg (fun s hs => Bounds.Safe.SL_update hS hg fuel hv hs) _ h0
  · exact fun v => Bounds.Safe.pact hg (fun s hs => Bounds.Safe.SL_remove hS hg fuel v hs) _ h0
  · exact Bounds.Safe.pact hg (fun s hs => Bounds.Safe.SL_clear hg hs) _ h0
  · exact fun i => Bounds.Safe.pact hg (fun s hs => Bounds.Safe.SL_delInt hg fuel i hs) _ h0
  · exact fun i => Bounds.Safe.pact hg (fun s hs => Bounds.Safe.SL_pop hg fuel i hs) _ h0
  · exact fun i => Bounds.Safe.pact hg (fun s hs => Bounds.Safe.getInt _ i hs) _ h0
  · exact fun v => Bounds.Safe.pact hg (fun s hs => Bounds.Safe.SL_bisect hS false v hs) _ h0
  · exact fun v => Bounds.Safe.pact hg (fun s hs => Bounds.Safe.SL_bisect hS true v hs) _ h0
  · exact Bounds.Safe.pact hg (fun s hs => Bounds.Safe.toList) _ h0
  · exact fun sl => Bounds.Safe.pact hg (fun s hs => Bounds.Safe.getSlice _ sl hs) _ h0
  · exact fun sl => Bounds.Safe.pact hg (fun s hs => Bounds.Safe.SL_delSlice hS hg fuel sl hs) _ h0
  · exact fun v i j => Bounds.Safe.pact hg (fun s hs => Bounds.Safe.SL_index hS v i j hs) _ h0
  · exact fun lo hi a b r => Bounds.Safe.pact hg (fun s hs => Bounds.Safe.SL_irange hS lo hi a b r hs) _ h0
  · exact fun i j r => Bounds.Safe.pact hg (fun s hs => Bounds.Safe.islice _ i j r hs) _ h0
  · exact fun {n} hl => show B.pact.Safe _ (SL.reset E fuel n) from Bounds.Safe.pact hg (fun s hs => Bounds.Safe.SL_reset hS hg fuel hl hs) _ h0

theorem Bounds.keeps_key {B : Bounds α κ} {K : KEnv α κ} (hS : B.KSuits K) (hg : ¬ B.grow) {s0 : Shared α κ} (h0 : B.Holds s0) (fuel : Nat) : ((ListClass.keyed K).race fuel).Keeps B.pact B.val B.load := by
  refine ⟨?_, ?_, ?_, ?_, ?_, ?_, ?_, ?_, ?_, ?_, ?_, ?_, ?_, ?_, ?_, ?_⟩
  · exact fun {v} hv => show B.pact.Safe _ (SKL.add K fuel v) from Bounds.Safe.pact hg (fun s hs => Bounds.Safe.SKL_add hS fuel hv hs) _ h0
  · exact fun {xs} hv => show B.pact.Safe _ (SKL.update K fuel xs) from Bounds.Safe.pact hg (fun s hs => Bounds.Safe.SKL_update hS hg fuel hv hs) _ h0
  · exact fun v => Bounds.Safe.pact hg (fun s hs => Bounds.Safe.SKL_remove hS hg fuel v hs) _ h0
  · exact Bounds.Safe.pact hg (fun s hs => Bounds.Safe.SKL_clear hg hs) _ h0
  · exact fun i => Bounds.Safe.pact hg (fun s hs => Bounds.Safe.SKL_delInt hg fuel i hs) _ h0
  · exact fun i => Bounds.Safe.pact hg (fun s hs => Bounds.Safe.SKL_pop hg fuel i hs) _ h0
  · exact fun i => Bounds.Safe.pact hg (fun s hs => Bounds.Safe.getInt _ i hs) _ h0
  · exact fun v => Bounds.Safe.pact hg (fun s hs => Bounds.Safe.SKL_bisect hS false v hs) _ h0
  · exact fun v => Bounds.Safe.pact hg (fun s hs => Bounds.Safe.SKL_bisect hS true v hs) _ h0
  · exact Bounds.Safe.pact hg (fun s hs => Bounds.Safe.toList) _ h0
  · exact fun sl => Bounds.Safe.pact hg (fun s hs => Bounds.Safe.getSlice _ sl hs) _ h0
  · exact fun sl => Bounds.Safe.pact hg (fun s hs => Bounds.Safe.SKL_delSlice hS hg fuel sl hs) _ h0
  · exact fun v i j => Bounds.Safe.pact hg (fun s hs => Bounds.Safe.SKL_index hS hg fuel v i j hs) _ h0
  · exact fun lo hi a b r => Bounds.Safe.pact hg (fun s hs => Bounds.Safe.SKL_irange hS lo hi a b r hs) _ h0
  · exact fun i j r => Bounds.Safe.pact hg (fun s hs => Bounds.Safe.islice _ i j r hs) _ h0
  · exact fun {n} hl => show B.pact.Safe _ (SKL.reset K fuel n) from Bounds.Safe.pact hg (fun s hs => Bounds.Safe.SKL_reset hS hg fuel hl hs) _ h0

theorem Bounds.Holds.contents {B : Bounds α κ} {s : Shared α κ} (hs : B.Holds s) : ∀ v ∈ s.contents, B.val v := by
  intro v hv
  obtain ⟨a, -, ha⟩ := List.mem_flatMap.1 hv
  exact Bounds.Holds.cell hs a v ha

/-- What the threads that use a list without a lock keep to: its values are in `val`, its load factor is in `load`. -/
theorem keeps {c : ListClass α} {lt eqv : α → α → Bool} (hc : c.Orders lt eqv) (val : α → Prop) (load : Nat → Prop) {n : Nat} (hn : load n) (fuel : Nat) :
    ∃ P : Pact c.Memory, (c.race fuel).Keeps P val load ∧ (∀ e, P.err e → e = .indexError ∨ e = .valueError) ∧
      (∀ t : c.State, (∀ v ∈ c.api.iter t, val v) → load (c.load t) → P.inv (c.memory t)) ∧ ∀ s, P.inv s → (∀ v ∈ c.contents s, val v) ∧ load (c.load (c.view s)) := by
  cases hc with
  | @plain E lt eqv hE he =>
    let B : Bounds α α := { val, load, grow := False, err := fun e => e = .indexError ∨ e = .valueError, index := .inl rfl, value := .inr rfl }
    have hS : B.Suits E := ⟨fun op x y e h => (by rw [hE.cmp] at h; cases h), fun xs e h => (by obtain ⟨ys, h1, -⟩ := hE.sorted xs; rw [h1] at h; cases h),
      fun xs ys h hx v hv => by obtain ⟨ys', h1, h2⟩ := hE.sorted xs; rw [h1] at h; cases h; exact hx v (h2.1.mem_iff.1 hv)⟩
    have h0 : B.Holds (Shared.of { (St.empty : St α α) with load := n }) := Bounds.Holds.of _ (fun l hl => by cases hl) hn
    exact ⟨B.pact, Bounds.keeps hS id h0 fuel, fun e h => h, fun t hv hl => Bounds.Holds.of _ (fun l hl v h => hv v (List.mem_flatten.2 ⟨l, hl, h⟩)) hl, fun s hs => ⟨Bounds.Holds.contents hs, hs.2⟩⟩
  | @keyed κ K key klt veq hK he =>
    let B : Bounds α κ := { val, load, grow := False, err := fun e => e = .indexError ∨ e = .valueError, index := .inl rfl, value := .inr rfl }
    have hS : B.KSuits K := ⟨fun x e h => (by rw [hK.key_ok] at h; cases h), fun op x y e h => (by rw [hK.kcmp_ok] at h; cases h), fun x y e h => (by rw [hK.veq_ok] at h; cases h),
      fun xs e h => (by obtain ⟨ys, h1, -⟩ := hK.sorted xs; rw [h1] at h; cases h),
      fun xs ys h hx v hv => by obtain ⟨ys', h1, h2⟩ := hK.sorted xs; rw [h1] at h; cases h; exact hx v (h2.1.mem_iff.1 hv)⟩
    have h0 : B.Holds (Shared.of { (St.empty : St α κ) with load := n }) := Bounds.Holds.of _ (fun l hl => by cases hl) hn
    exact ⟨B.pact, Bounds.keeps_key hS id h0 fuel, fun e h => h, fun t hv hl => Bounds.Holds.of _ (fun l hl v h => hv v (List.mem_flatten.2 ⟨l, hl, h⟩)) hl, fun s hs => ⟨Bounds.Holds.contents hs, hs.2⟩⟩

/-- The same if nothing is known about comparisons and the key function. -/
theorem keeps_sane {c : ListClass α} (hc : c.Sane) (val : α → Prop) (load : Nat → Prop) {n : Nat} (hn : load n) (fuel : Nat) :
    ∃ P : Pact c.Memory, (c.race fuel).Keeps P val load ∧ (∀ e, P.err e) ∧
      (∀ t : c.State, (∀ v ∈ c.api.iter t, val v) → load (c.load t) → P.inv (c.memory t)) ∧ ∀ s, P.inv s → (∀ v ∈ c.contents s, val v) ∧ load (c.load (c.view s)) := by
  cases c with
  | plain E =>
    let B : Bounds α α := { val, load, grow := False, err := fun _ => True, index := trivial, value := trivial }
    have hS : B.Suits E := ⟨fun _ _ _ _ _ => trivial, fun _ _ _ => trivial, fun xs ys h hx v hv => hx v ((hc.perm xs ys h).mem_iff.1 hv)⟩
    have h0 : B.Holds (Shared.of { (St.empty : St α α) with load := n }) := Bounds.Holds.of _ (fun l hl => by cases hl) hn
    exact ⟨B.pact, Bounds.keeps hS id h0 fuel, fun _ => trivial, fun t hv hl => Bounds.Holds.of _ (fun l hl v h => hv v (List.mem_flatten.2 ⟨l, hl, h⟩)) hl, fun s hs => ⟨Bounds.Holds.contents hs, hs.2⟩⟩
  | @keyed κ K =>
    let B : Bounds α κ := { val, load, grow := False, err := fun _ => True, index := trivial, value := trivial }
    have hS : B.KSuits K := ⟨fun _ _ _ => trivial, fun _ _ _ _ _ => trivial, fun _ _ _ _ => trivial, fun _ _ _ => trivial, fun xs ys h hx v hv => hx v ((hc.perm xs ys h).mem_iff.1 hv)⟩
    have h0 : B.Holds (Shared.of { (St.empty : St α κ) with load := n }) := Bounds.Holds.of _ (fun l hl => by cases hl) hn
    exact ⟨B.pact, Bounds.keeps_key hS id h0 fuel, fun _ => trivial, fun t hv hl => Bounds.Holds.of _ (fun l hl v h => hv v (List.mem_flatten.2 ⟨l, hl, h⟩)) hl, fun s hs => ⟨Bounds.Holds.contents hs, hs.2⟩⟩

end Race
end Verif
