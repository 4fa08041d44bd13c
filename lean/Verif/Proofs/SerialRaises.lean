import Verif.Proofs.SerialSets
import Verif.Serial
/-!
# What calls on sets and dicts raise if nothing is known about comparisons

`Py.Stops err m`: `m` raises only exceptions in `err`.
-/

namespace Verif
variable {α β γ κ ν σ τ : Type}

def Py.Stops (err : PyErr → Prop) (m : Py σ β) : Prop := ∀ s e, (m s).1 = .error e → err e

namespace Py.Stops
variable {err : PyErr → Prop}

theorem bind {m : Py σ β} {f : β → Py σ γ} (h : Py.Stops err m) (hf : ∀ b, Py.Stops err (f b)) : Py.Stops err (m >>= f) := by
  intro s e he
  rw [Py.bind_apply] at he
  cases hm : m s with
  | mk x s' =>
    rw [hm] at he
    cases x with
    | ok b => exact hf b s' e he
    | error e' => exact h s e (by rw [hm]; simpa using he)

theorem lift {x : Except PyErr β} (h : ∀ e, x = .error e → err e) : Py.Stops err (Py.lift x : Py σ β) := fun _ e he => h e he
theorem get : Py.Stops err (Py.get : Py σ σ) := fun _ _ he => by cases he
theorem modify {f : σ → σ} : Py.Stops err (Py.modify f) := fun _ _ he => by cases he
theorem pure {b : β} : Py.Stops err (Pure.pure b : Py σ β) := fun _ _ he => by cases he

theorem forEach {f : β → Py σ Unit} (h : ∀ b, Py.Stops err (f b)) : ∀ bs, Py.Stops err (Py.forEach f bs)
  | [] => pure
  | b :: bs => bind (h b) fun _ => forEach h bs

end Py.Stops

theorem mapE_stops {err : PyErr → Prop} {f : α → Except PyErr β} (h : ∀ a e, f a = .error e → err e) : ∀ {xs : List α} {e}, mapE f xs = .error e → err e
  | [], _, he => by cases he
  | a :: as, e, he => by
    simp only [mapE] at he
    cases ha : f a with
    | error e' => rw [ha] at he; cases he; exact h a _ ha
    | ok b =>
      rw [ha] at he
      cases hr : mapE f as with
      | error e' => rw [hr] at he; cases he; exact mapE_stops h hr
      | ok bs => rw [hr] at he; cases he

theorem chunks_stops {n : Nat} {xs : List α} {e : PyErr} (h : Core.chunks n xs = .error e) : e = .valueError := by
  unfold Core.chunks at h
  split at h <;> cases h
  rfl

theorem lastItem_stops {l : List α} {e : PyErr} (h : lastItem l = .error e) : e = .indexError := by
  unfold lastItem at h
  split at h <;> cases h
  rfl

namespace ListClass

theorem plain_update_stops (E : Env α) {xs : List α} {t : St α α} (ht : t.maxes = []) {e : PyErr} (he : (SL.update E xs t).1 = .error e) : (ListClass.plain E).MayRaise e := by
  have hfill : ∀ ys : List α, Py.Stops (ListClass.plain E).MayRaise (SL.fill ys) := fun ys =>
    .bind .get fun s => .bind (.lift fun e h => .inr (.inl (chunks_stops h))) fun subs => .bind .modify fun _ => .bind .get fun s =>
      .bind (.lift fun e h => mapE_stops (fun a e h => .inl (lastItem_stops h)) h) fun ms => .bind .modify fun _ => .bind .modify fun _ => .modify
  cases hs : E.sorted xs with
  | error e' =>
    rw [SL.update, Py.bind_apply, Py.lift_apply, hs] at he
    cases he
    exact .inr (.inr (.inr (.inr ⟨xs, hs⟩)))
  | ok ys =>
    have : SL.update E xs t = SL.fill ys t := by simp [SL.update, Py.bind_apply, hs, ht]
    rw [this] at he
    exact hfill ys t e he

theorem keyed_update_stops (K : KEnv α κ) {xs : List α} {t : St α κ} (ht : t.maxes = []) {e : PyErr} (he : (SKL.update K xs t).1 = .error e) : (ListClass.keyed K).MayRaise e := by
  have hfill : ∀ ys : List α, Py.Stops (ListClass.keyed K).MayRaise (SKL.fill K ys) := fun ys =>
    .bind .get fun s => .bind (.lift fun e h => .inr (.inl (chunks_stops h))) fun subs => .bind .modify fun _ => .bind .get fun s =>
      .bind (.forEach (fun l => .bind (.lift fun e h => mapE_stops (fun a e h => .inr (.inr (.inr (.inl ⟨a, h⟩)))) h) fun _ => .modify) _) fun _ => .bind .get fun s =>
      .bind (.lift fun e h => mapE_stops (fun a e h => .inl (lastItem_stops h)) h) fun ms => .bind .modify fun _ => .bind .modify fun _ => .modify
  cases hs : K.sortedByKey xs with
  | error e' =>
    rw [SKL.update, Py.bind_apply, Py.lift_apply, hs] at he
    cases he
    exact .inr (.inr (.inr (.inr (.inr (.inr ⟨xs, hs⟩)))))
  | ok ys =>
    have : SKL.update K xs t = SKL.fill K ys t := by simp [SKL.update, Py.bind_apply, hs, ht]
    rw [this] at he
    exact hfill ys t e he

theorem new_stops (c : ListClass α) {xs : Option (List α)} {e : PyErr} (he : c.api.new xs = .error e) : c.MayRaise e := by
  cases c with
  | plain E =>
    change SL.new E xs = .error e at he
    cases xs with
    | none => cases he
    | some xs =>
      simp only [SL.new] at he
      split at he <;> cases he
      next h => exact plain_update_stops E (xs := xs) (t := St.empty) rfl (by rw [h])
  | keyed K =>
    change SKL.new K xs = .error e at he
    cases xs with
    | none => cases he
    | some xs =>
      simp only [SKL.new] at he
      split at he <;> cases he
      next h => exact keyed_update_stops K (xs := xs) (t := St.empty) rfl (by rw [h])

theorem clear_update_stops (c : ListClass α) {xs : List α} {t : c.State} {e : PyErr} (he : (c.api.update xs (c.api.clear t).2).1 = .error e) : c.MayRaise e := by
  cases c with
  | plain E => exact plain_update_stops E (t := ((ListClass.plain E).api.clear t).2) rfl he
  | keyed K => exact keyed_update_stops K (t := ((ListClass.keyed K).api.clear t).2) rfl he

theorem mayRaise_key (c : ListClass α) : c.MayRaise .keyError := by
  cases c <;> exact .inr (.inr (.inl rfl))

theorem clear_ok (c : ListClass α) (t : c.State) : (c.api.clear t).1 = .ok () := by
  cases c <;> rfl

end ListClass

theorem SS.makes_raises {S : SetOps τ α} {c : ListClass α} {eqv : α → α → Bool} (hc : c.Sane) (hS : S.Lawful eqv) : SS.Makes S c.api c.MayRaise where
  fromset h := (SS.makes_sane hc hS (err := fun _ => True) fun _ => trivial).fromset h
  fromset_err {t e} h := by
    unfold SS.fromset at h
    split at h
    · cases h
    next h' => cases h; exact c.new_stops h'
  new h := (SS.makes_sane hc hS (err := fun _ => True) fun _ => trivial).new h
  new_err {xs e} h := by
    unfold SS.new at h
    split at h
    next h' => cases h; exact c.new_stops h'
    next l h' =>
    cases xs with
    | none => cases h
    | some xs =>
      simp only at h
      split at h <;> cases h
      next hu =>
      have hu := congrArg Prod.fst hu
      unfold SS.update at hu
      simp only [Py.get_bind] at hu
      split at hu
      · simp only [SS.onSet, Py.modify_bind, SS.rebuild, Py.bind_apply, SS.onList, c.clear_ok, Py.get_apply] at hu
        exact c.clear_update_stops hu
      next hn =>
        rw [hS.len S.empty, hS.empty] at hn
        have : S.toList (S.ofList [xs].flatten) = [] := by
          rw [hS.len] at hn
          exact List.eq_nil_of_length_eq_zero (by simp at hn; simpa using hn)
        rw [this] at hu
        cases hu

theorem SD.makes_raises {c : ListClass κ} {eqv : κ → κ → Bool} (hc : c.Sane) (hE : IsEquiv eqv) : SD.Makes (ν := ν) eqv c.api c.MayRaise where
  items h := (SD.makes_sane hc hE (err := fun _ => True) fun _ => trivial).items h
  items_err {l e} h := by
    cases hn : SD.new eqv c.api (.pairs l none) with
    | error e' =>
      rw [hn] at h
      cases h
      unfold SD.new at hn
      split at hn
      next h' => cases hn; exact c.new_stops h'
      next t h' =>
      split at hn <;> cases hn
      next hu =>
      have hu := congrArg Prod.fst hu
      unfold SD.update at hu
      simp only [List.length_nil, if_true, SD.dictUpdate, SD.onDict, DictArg.fail, Py.bind_apply, Py.modify_apply, Py.pure_apply, SD.onList, Py.get_apply] at hu
      cases c with
      | plain E => cases h'; exact ListClass.plain_update_stops E (t := St.empty) rfl hu
      | keyed K => cases h'; exact ListClass.keyed_update_stops K (t := St.empty) rfl hu
    | ok s =>
      rw [hn] at h
      exact mapE_stops (fun k e hk => by
        cases hg : PyDict.getitem eqv s.dict k with
        | ok v => rw [hg] at hk; cases hk
        | error e' =>
          rw [hg] at hk
          cases hk
          unfold PyDict.getitem at hg
          split at hg <;> cases hg
          cases c <;> exact .inr (.inr (.inl rfl))) (show mapE _ (SD.iter c.api s) = .error e from h)

namespace Race

/-- `keeps_sane` with the exceptions. -/
theorem keeps_raises {c : ListClass α} (hc : c.Sane) (val : α → Prop) (load : Nat → Prop) {n : Nat} (hn : load n) (fuel : Nat) :
    ∃ P : Pact c.Memory, (c.race fuel).Keeps P val load ∧ P.err = c.MayRaise ∧
      (∀ t : c.State, (∀ v ∈ c.api.iter t, val v) → load (c.load t) → P.inv (c.memory t)) ∧ ∀ s, P.inv s → (∀ v ∈ c.contents s, val v) ∧ load (c.load (c.view s)) := by
  cases c with
  | plain E =>
    let B : Bounds α α := { val, load, grow := False, err := (ListClass.plain E).MayRaise, index := .inl rfl, value := .inr (.inl rfl) }
    have hS : B.Suits E := ⟨fun op x y e h => .inr (.inr (.inr (.inl ⟨op, x, y, h⟩))), fun xs e h => .inr (.inr (.inr (.inr ⟨xs, h⟩))), fun xs ys h hx v hv => hx v ((hc.perm xs ys h).mem_iff.1 hv)⟩
    have h0 : B.Holds (Shared.of { (St.empty : St α α) with load := n }) := Bounds.Holds.of _ (fun l hl => by cases hl) hn
    exact ⟨B.pact, Bounds.keeps hS id h0 fuel, rfl, fun t hv hl => Bounds.Holds.of _ (fun l hl v h => hv v (List.mem_flatten.2 ⟨l, hl, h⟩)) hl, fun s hs => ⟨Bounds.Holds.contents hs, hs.2⟩⟩
  | @keyed κ K =>
    let B : Bounds α κ := { val, load, grow := False, err := (ListClass.keyed K).MayRaise, index := .inl rfl, value := .inr (.inl rfl) }
    have hS : B.KSuits K := ⟨fun x e h => .inr (.inr (.inr (.inl ⟨x, h⟩))), fun op x y e h => .inr (.inr (.inr (.inr (.inl ⟨op, x, y, h⟩)))), fun x y e h => .inr (.inr (.inr (.inr (.inr (.inl ⟨.eq, x, y, h⟩))))),
      fun xs e h => .inr (.inr (.inr (.inr (.inr (.inr ⟨xs, h⟩))))), fun xs ys h hx v hv => hx v ((hc.perm xs ys h).mem_iff.1 hv)⟩
    have h0 : B.Holds (Shared.of { (St.empty : St α κ) with load := n }) := Bounds.Holds.of _ (fun l hl => by cases hl) hn
    exact ⟨B.pact, Bounds.keeps_key hS id h0 fuel, rfl, fun t hv hl => Bounds.Holds.of _ (fun l hl v h => hv v (List.mem_flatten.2 ⟨l, hl, h⟩)) hl, fun s hs => ⟨Bounds.Holds.contents hs, hs.2⟩⟩

end Race
end Verif
