import Verif.Proofs.RacePactSets
import Verif.Proofs.RaceLasts
import Verif.Proofs.SerialRaises
import Verif.Props.InterruptSets
import Verif.Props.LockedSets
/-!
# C91: several threads change one sorted set or dict, and nothing protects it

As C88, for SortedSet and SortedDict: `SS.crowd`, `SD.crowd` (Model/RaceSets.lean).  Between any two accesses to the built-in set or dict, to the list or to one of its sublists any other
thread may have its turn.  The library promises nothing for this use, and the set and the list get out of step (below).  What remains true of every schedule:

* neither the set nor the list shows a value that was not in the object at the start or passed to it by one of the threads; a dict shows under a key only values that it had or was given under
  an equal key,
* calls raise IndexError, ValueError, KeyError, nothing else,
* once the threads have stopped, at whatever point, `ss.symmetric_difference_update([])` repairs the set without the loss of a member, `sd.update(other)` with a large `other` repairs the dict,
  and `clear()` makes either as good as new,
* threads that only add members or items and look at the object always end.
-/

namespace Verif
variable {α τ κ ν : Type}
open Race

private theorem load_pos {m n : Nat} (h : 1 ≤ n) : m = n ∨ 1 ≤ m → 1 ≤ m := by omega

section sets
variable {c : ListClass α} {lt eqv : α → α → Bool} {S : SetOps τ α}

private theorem set_keeps (hc : c.Orders lt eqv) (hS : S.Lawful eqv) (s : Verif.SS τ c.State) (threads : List (List (SSOp α))) (hok : ∀ cs ∈ threads, ∀ op ∈ cs, op.Valid) (fuel : Nat)
    (schedule : List Nat) :
    let stored := fun v => ∃ x, eqv x v = true ∧ (x ∈ S.toList s.set ∨ x ∈ Verif.SS.iter c.api s ∨ ∃ cs ∈ threads, ∃ op ∈ cs, x ∈ op.given)
    let crowd := (Race.SS.crowd S c fuel s threads).run schedule
    ((∀ v ∈ S.toList crowd.shared.set, stored v) ∧ ∀ v ∈ c.contents crowd.shared.list, stored v) ∧
    (∀ i cs x, threads[i]? = some cs → crowd.result i = some x → ∃ answers, x = .ok answers ∧ answers.length = cs.length ∧
      ∀ (j : Nat) op a, cs[j]? = some op → answers[j]? = some a →
        (∀ out, a = .ok out → ∀ v ∈ out.shown, stored v ∨ ∃ x ∈ op.operands, eqv x v = true) ∧
        ∀ e, a = .error e → e = .indexError ∨ e = .valueError ∨ e = .keyError) ∧
    (c.load (c.view crowd.shared.list) = c.load s.list ∨ 1 ≤ c.load (c.view crowd.shared.list)) := by
  intro stored crowd
  obtain ⟨P, hP, herr, hof, hinv⟩ := Race.keeps hc stored (fun n => n = c.load s.list ∨ 1 ≤ n) (.inl rfl) fuel
  obtain ⟨O, I, g1, rfl, g3, -⟩ := hc.loaded
  have h : Verif.SS.Good S c.api O eqv I := ⟨hS, g1, g3⟩
  obtain ⟨k1, k2⟩ := Pact.Safe.crowd (P := Race.SS.pact S stored P) (step := Race.SS.step S (c.race fuel) c.api)
    (Q := fun op out => ∀ v ∈ out.shown, stored v ∨ ∃ x ∈ op.operands, eqv x v = true) threads schedule (s := Race.SS.of c s)
    ⟨fun v hv => ⟨v, hS.refl v, .inl hv⟩, hof _ (fun v hv => ⟨v, hS.refl v, .inr (.inl hv)⟩) (.inl rfl)⟩
    fun cs hcs op hop => Race.SS.safe_call hS hP (fun a b hab ⟨x, h1, h2⟩ => ⟨x, hS.trans _ _ _ h1 hab, h2⟩) op (fun n e => .inr (by have := hok cs hcs op hop; rw [e] at this; exact this)) (h.makes _)
      fun v hv => ⟨v, hS.refl v, .inr (.inr ⟨cs, hcs, op, hop, hv⟩)⟩
  have k3 := hinv _ k1.2
  refine ⟨⟨k1.1, k3.1⟩, fun i cs x hi hx => ?_, k3.2⟩
  obtain ⟨answers, e, h1, h2⟩ := k2 i cs x hi hx
  refine ⟨answers, e, h1, fun j op a hj ha => ⟨(h2 j op a hj ha).1, fun e he => ?_⟩⟩
  rcases (h2 j op a hj ha).2 e he with h | h
  · exact .inr (.inr h)
  · rcases herr e h with h | h
    · exact .inl h
    · exact .inr (.inl h)

/-- C91: whatever threads do to one SortedSet, at every point of every schedule, all that the built-in set and iteration show was in the object at the start or was passed to it (or equals such
a value: Python leaves open which of two equal values an intersection keeps); so was all that calls have returned, except for operands of `union` and `symmetric_difference`; calls have
returned or raised IndexError, ValueError or KeyError. -/
theorem C91_set (hc : c.Orders lt eqv) (hS : S.Lawful eqv) (s : Verif.SS τ c.State) (threads : List (List (SSOp α))) (hok : ∀ cs ∈ threads, ∀ op ∈ cs, op.Valid) (fuel : Nat)
    (schedule : List Nat) :
    let stored := fun v => ∃ x, eqv x v = true ∧ (x ∈ S.toList s.set ∨ x ∈ Verif.SS.iter c.api s ∨ ∃ cs ∈ threads, ∃ op ∈ cs, x ∈ op.given)
    let crowd := (Race.SS.crowd S c fuel s threads).run schedule
    ((∀ v ∈ S.toList crowd.shared.set, stored v) ∧ ∀ v ∈ c.contents crowd.shared.list, stored v) ∧
    ∀ i cs x, threads[i]? = some cs → crowd.result i = some x → ∃ answers, x = .ok answers ∧ answers.length = cs.length ∧
      ∀ (j : Nat) op a, cs[j]? = some op → answers[j]? = some a →
        (∀ out, a = .ok out → ∀ v ∈ out.shown, stored v ∨ ∃ x ∈ op.operands, eqv x v = true) ∧
        ∀ e, a = .error e → e = .indexError ∨ e = .valueError ∨ e = .keyError :=
  let h := set_keeps hc hS s threads hok fuel schedule
  ⟨h.1, h.2.1⟩

/-- C91: what is shown was in the object at the start or was passed to it, also if nothing is known about comparisons and the key function  Calls raise IndexError, ValueError, KeyError, or
what comparisons and the key function raise. -/
theorem C91_set_values (hc : c.Sane) (hS : S.Lawful eqv) (s : Verif.SS τ c.State) (threads : List (List (SSOp α))) (fuel : Nat) (schedule : List Nat) :
    let stored := fun v => ∃ x, eqv x v = true ∧ (x ∈ S.toList s.set ∨ x ∈ Verif.SS.iter c.api s ∨ ∃ cs ∈ threads, ∃ op ∈ cs, x ∈ op.given)
    let crowd := (Race.SS.crowd S c fuel s threads).run schedule
    ((∀ v ∈ S.toList crowd.shared.set, stored v) ∧ ∀ v ∈ c.contents crowd.shared.list, stored v) ∧
    ∀ i cs x, threads[i]? = some cs → crowd.result i = some x → ∃ answers, x = .ok answers ∧ answers.length = cs.length ∧
      ∀ (j : Nat) op a, cs[j]? = some op → answers[j]? = some a → (∀ out, a = .ok out → ∀ v ∈ out.shown, stored v ∨ ∃ x ∈ op.operands, eqv x v = true) ∧ ∀ e, a = .error e → c.MayRaise e := by
  intro stored crowd
  obtain ⟨P, hP, herr, hof, hinv⟩ := Race.keeps_raises hc stored (fun _ => True) (n := 1) trivial fuel
  obtain ⟨k1, k2⟩ := Pact.Safe.crowd (P := Race.SS.pact S stored P) (step := Race.SS.step S (c.race fuel) c.api)
    (Q := fun op out => ∀ v ∈ out.shown, stored v ∨ ∃ x ∈ op.operands, eqv x v = true) threads schedule (s := Race.SS.of c s)
    ⟨fun v hv => ⟨v, hS.refl v, .inl hv⟩, hof _ (fun v hv => ⟨v, hS.refl v, .inr (.inl hv)⟩) trivial⟩
    fun cs hcs op hop => Race.SS.safe_call hS hP (fun a b hab ⟨x, h1, h2⟩ => ⟨x, hS.trans _ _ _ h1 hab, h2⟩) op (fun _ _ => trivial) (herr ▸ SS.makes_raises hc hS)
      fun v hv => ⟨v, hS.refl v, .inr (.inr ⟨cs, hcs, op, hop, hv⟩)⟩
  refine ⟨⟨k1.1, (hinv _ k1.2).1⟩, fun i cs x hi hx => ?_⟩
  obtain ⟨answers, e, h1, h2⟩ := k2 i cs x hi hx
  exact ⟨answers, e, h1, fun j op a hj ha => ⟨(h2 j op a hj ha).1, fun e he => ((h2 j op a hj ha).2 e he).elim (fun h => h ▸ c.mayRaise_key) fun h => herr ▸ h⟩⟩

/-- C91: when the threads have stopped, wherever they are, `ss.symmetric_difference_update([])` repairs the set, and loses no member: from then on it is the plain sorted set of its members. -/
theorem C91_set_repair [DecidableEq α] (hc : c.Orders lt eqv) (hS : S.Lawful eqv) (heq : ∀ a b, eqv a b = decide (a = b)) (htotal : ∀ a b, lt a b = false → lt b a = false → a = b)
    {s : Verif.SS τ c.State} (hs : Verif.SS.Reachable S c.api s) (threads : List (List (SSOp α))) (hok : ∀ cs ∈ threads, ∀ op ∈ cs, op.Valid) (fuel : Nat) (schedule : List Nat)
    (ops : List (SSOp α)) (hops : ∀ op ∈ ops, op.Valid) :
    let crowd := (Race.SS.crowd S c fuel s threads).run schedule
    ∃ plain, Sorted lt plain ∧ plain.Nodup ∧ (∀ v, v ∈ plain ↔ S.mem v crowd.shared.set = true) ∧
      let spec := runHist (SetSpec.step (setOrder lt eqv)) ops plain
      let real := runHist (Verif.SS.step S c.api) (.symmetricDifferenceUpdate [] :: ops) (Race.SS.view c crowd.shared)
      real.1 = .ok .none :: spec.1 ∧ Verif.SS.iter c.api real.2 = spec.2 := by
  intro crowd
  obtain ⟨O, I, g1, rfl, g3, g4⟩ := hc.loaded
  have h : Verif.SS.Good S c.api O eqv I := ⟨hS, g1, g3⟩
  exact SS.repair_of_load (s := Race.SS.view c crowd.shared) hc hS heq htotal
    (load_pos (g4 _ (Verif.SS.reachable_inv h hs).list) (set_keeps hc hS s threads hok fuel schedule).2.2) ops hops

/-- C91: when the threads have stopped, wherever they are, `ss.clear()` returns, and from then on the set is the plain sorted set. -/
theorem C91_set_clear [DecidableEq α] (hc : c.Orders lt eqv) (hS : S.Lawful eqv) (heq : ∀ a b, eqv a b = decide (a = b)) (htotal : ∀ a b, lt a b = false → lt b a = false → a = b)
    {s : Verif.SS τ c.State} (hs : Verif.SS.Reachable S c.api s) (threads : List (List (SSOp α))) (hok : ∀ cs ∈ threads, ∀ op ∈ cs, op.Valid) (fuel : Nat) (schedule : List Nat)
    (ops : List (SSOp α)) (hops : ∀ op ∈ ops, op.Valid) :
    let crowd := (Race.SS.crowd S c fuel s threads).run schedule
    let spec := runHist (SetSpec.step (setOrder lt eqv)) ops []
    let real := runHist (Verif.SS.step S c.api) (.clear :: ops) (Race.SS.view c crowd.shared)
    real.1 = .ok .none :: spec.1 ∧ Verif.SS.iter c.api real.2 = spec.2 := by
  intro crowd
  obtain ⟨O, I, g1, rfl, g3, g4⟩ := hc.loaded
  have h : Verif.SS.Good S c.api O eqv I := ⟨hS, g1, g3⟩
  exact SS.clear_of_load (s := Race.SS.view c crowd.shared) hc hS heq htotal
    (load_pos (g4 _ (Verif.SS.reachable_inv h hs).list) (set_keeps hc hS s threads hok fuel schedule).2.2) ops hops

end sets

section dicts
variable {c : ListClass κ} {lt eqv : κ → κ → Bool}

private theorem dict_keeps (hc : c.Orders lt eqv) (he : IsEquiv eqv) {s : Verif.SD κ ν c.State} (hs : Verif.SD.Reachable eqv c.api s) (threads : List (List (SDOp κ ν)))
    (hok : ∀ cs ∈ threads, ∀ op ∈ cs, op.Valid) (fuel : Nat) (schedule : List Nat) :
    let stored := fun p => p ∈ s.dict ∨ ∃ cs ∈ threads, ∃ op ∈ cs, p ∈ op.given
    let crowd := (Race.SD.crowd eqv c fuel s threads).run schedule
    ((∀ k v, (k, v) ∈ crowd.shared.dict → (∃ w, stored (k, w)) ∧ ∃ k', stored (k', v) ∧ eqv k' k = true) ∧ ∀ k ∈ c.contents crowd.shared.list, ∃ v, stored (k, v)) ∧
    (∀ i cs x, threads[i]? = some cs → crowd.result i = some x → ∃ answers, x = .ok answers ∧ answers.length = cs.length ∧
      ∀ (j : Nat) op a, cs[j]? = some op → answers[j]? = some a →
        (∀ out, a = .ok out → out.From eqv (fun p => stored p ∨ p ∈ op.operands) op.asks) ∧
        ∀ e, a = .error e → e = .indexError ∨ e = .valueError ∨ e = .keyError) ∧
    (c.load (c.view crowd.shared.list) = c.load s.list ∨ 1 ≤ c.load (c.view crowd.shared.list)) ∧ PyDict.Keyed eqv crowd.shared.dict := by
  intro stored crowd
  obtain ⟨P, hP, herr, hof, hinv⟩ := Race.keeps hc (fun k => ∃ v, stored (k, v)) (fun n => n = c.load s.list ∨ 1 ≤ n) (.inl rfl) fuel
  obtain ⟨O, I, g1, rfl, g3, -⟩ := hc.loaded
  have h : Verif.SD.Good c.api O eqv I := ⟨he, g1, g3⟩
  have hi := Verif.SD.reachable_inv h hs
  have hkeys : ∀ k ∈ c.api.iter s.list, ∃ v, stored (k, v) := fun k hk => by
    rw [hi.iter] at hk
    have hk' : k ∈ PyDict.keys s.dict := (DictSpec.sortedKeys_sort h.list.order s.dict).perm.mem_iff.1 hk
    obtain ⟨q, hq, rfl⟩ := List.mem_map.1 hk'
    exact ⟨q.2, .inl hq⟩
  obtain ⟨k1, k2⟩ := Pact.Safe.crowd (P := Race.SD.pact eqv stored P) (step := Race.SD.step eqv (c.race fuel) c.api)
    (Q := fun op out => out.From eqv (fun p => stored p ∨ p ∈ op.operands) op.asks) threads schedule (s := Race.SD.of c s)
    ⟨hi.keyed, fun p hp => FromItems.of he (.inl hp), hof _ hkeys (.inl rfl)⟩
    fun cs hcs op hop => Race.SD.safe_call he hP op (fun n e => .inr (by have := hok cs hcs op hop; rw [e] at this; exact this)) (hok cs hcs op hop) (h.makes he _) fun p hp => .inr ⟨cs, hcs, op, hop, hp⟩
  have k3 := hinv _ k1.2.2
  refine ⟨⟨fun k v hkv => k1.2.1 _ hkv, k3.1⟩, fun i cs x hi hx => ?_, k3.2, k1.1⟩
  obtain ⟨answers, e, h1, h2⟩ := k2 i cs x hi hx
  refine ⟨answers, e, h1, fun j op a hj ha => ⟨(h2 j op a hj ha).1, fun e he => ?_⟩⟩
  rcases (h2 j op a hj ha).2 e he with h | h
  · exact .inr (.inr h)
  · rcases herr e h with h | h
    · exact .inl h
    · exact .inr (.inl h)

/-- C91: whatever threads do to one SortedDict, at every point of every schedule, all keys were in it at the start or were passed to it, and every value belongs to a key that equals the one
it was stored with; so it is with all that calls have returned (`DOut.From`), if the default of `pop` and the other mapping of `|` count as passed to the call; calls have returned or raised
IndexError, ValueError or KeyError. -/
theorem C91_dict (hc : c.Orders lt eqv) (he : IsEquiv eqv) {s : Verif.SD κ ν c.State} (hs : Verif.SD.Reachable eqv c.api s) (threads : List (List (SDOp κ ν)))
    (hok : ∀ cs ∈ threads, ∀ op ∈ cs, op.Valid) (fuel : Nat) (schedule : List Nat) :
    let stored := fun p => p ∈ s.dict ∨ ∃ cs ∈ threads, ∃ op ∈ cs, p ∈ op.given
    let crowd := (Race.SD.crowd eqv c fuel s threads).run schedule
    ((∀ k v, (k, v) ∈ crowd.shared.dict → (∃ w, stored (k, w)) ∧ ∃ k', stored (k', v) ∧ eqv k' k = true) ∧ ∀ k ∈ c.contents crowd.shared.list, ∃ v, stored (k, v)) ∧
    ∀ i cs x, threads[i]? = some cs → crowd.result i = some x → ∃ answers, x = .ok answers ∧ answers.length = cs.length ∧
      ∀ (j : Nat) op a, cs[j]? = some op → answers[j]? = some a →
        (∀ out, a = .ok out → out.From eqv (fun p => stored p ∨ p ∈ op.operands) op.asks) ∧
        ∀ e, a = .error e → e = .indexError ∨ e = .valueError ∨ e = .keyError :=
  let h := dict_keeps hc he hs threads hok fuel schedule
  ⟨h.1, h.2.1⟩

/-- C91: what is shown was in the dict at the start or was passed to it, each value with an equal key, also if nothing is known about comparisons and the key function  Calls raise IndexError, ValueError,
KeyError, or what comparisons and the key function raise. -/
theorem C91_dict_values (hc : c.Sane) (he : IsEquiv eqv) (s : Verif.SD κ ν c.State) (hs : PyDict.Keyed eqv s.dict) (hkeys : ∀ k ∈ Verif.SD.iter c.api s, k ∈ PyDict.keys s.dict)
    (threads : List (List (SDOp κ ν))) (hok : ∀ cs ∈ threads, ∀ op ∈ cs, op.Valid) (fuel : Nat) (schedule : List Nat) :
    let stored := fun p => p ∈ s.dict ∨ ∃ cs ∈ threads, ∃ op ∈ cs, p ∈ op.given
    let crowd := (Race.SD.crowd eqv c fuel s threads).run schedule
    ((∀ k v, (k, v) ∈ crowd.shared.dict → (∃ w, stored (k, w)) ∧ ∃ k', stored (k', v) ∧ eqv k' k = true) ∧ ∀ k ∈ c.contents crowd.shared.list, ∃ v, stored (k, v)) ∧
    ∀ i cs x, threads[i]? = some cs → crowd.result i = some x → ∃ answers, x = .ok answers ∧ answers.length = cs.length ∧
      ∀ (j : Nat) op a, cs[j]? = some op → answers[j]? = some a → (∀ out, a = .ok out → out.From eqv (fun p => stored p ∨ p ∈ op.operands) op.asks) ∧ ∀ e, a = .error e → c.MayRaise e := by
  intro stored crowd
  obtain ⟨P, hP, herr, hof, hinv⟩ := Race.keeps_raises hc (fun k => ∃ v, stored (k, v)) (fun _ => True) (n := 1) trivial fuel
  obtain ⟨k1, k2⟩ := Pact.Safe.crowd (P := Race.SD.pact eqv stored P) (step := Race.SD.step eqv (c.race fuel) c.api)
    (Q := fun op out => out.From eqv (fun p => stored p ∨ p ∈ op.operands) op.asks) threads schedule (s := Race.SD.of c s)
    ⟨hs, fun p hp => FromItems.of he (.inl hp), hof _ (fun k hk => by obtain ⟨q, hq, rfl⟩ := List.mem_map.1 (hkeys k hk); exact ⟨q.2, .inl hq⟩) trivial⟩
    fun cs hcs op hop => Race.SD.safe_call he hP op (fun _ _ => trivial) (hok cs hcs op hop) (herr ▸ SD.makes_raises hc he) fun p hp => .inr ⟨cs, hcs, op, hop, hp⟩
  refine ⟨⟨fun k v hkv => k1.2.1 _ hkv, (hinv _ k1.2.2).1⟩, fun i cs x hi hx => ?_⟩
  obtain ⟨answers, e, h1, h2⟩ := k2 i cs x hi hx
  exact ⟨answers, e, h1, fun j op a hj ha => ⟨(h2 j op a hj ha).1, fun e he => ((h2 j op a hj ha).2 e he).elim (fun h => h ▸ c.mayRaise_key) fun h => herr ▸ h⟩⟩

/-- C91: when the threads have stopped, wherever they are, `sd.update(other)` repairs a non-empty dict if `other` is not much smaller: from then on it is the plain sorted dict of its items,
updated by `other`. -/
theorem C91_dict_repair (hc : c.Orders lt eqv) (he : IsEquiv eqv) {s : Verif.SD κ ν c.State} (hs : Verif.SD.Reachable eqv c.api s) (threads : List (List (SDOp κ ν)))
    (hok : ∀ cs ∈ threads, ∀ op ∈ cs, op.Valid) (fuel : Nat) (schedule : List Nat) (ops : List (SDOp κ ν)) (hops : ∀ op ∈ ops, op.Valid) (other : List (κ × ν)) :
    let crowd := (Race.SD.crowd eqv c fuel s threads).run schedule
    crowd.shared.dict ≠ [] → crowd.shared.dict.length < 10 * other.length →
      let spec := runHist (DictSpec.step eqv (setOrder lt eqv)) ops (PyDict.update eqv crowd.shared.dict other)
      let real := runHist (Verif.SD.step eqv c.api) (.update (.dict other) :: ops) (Race.SD.view c crowd.shared)
      real.1 = .ok .none :: spec.1 ∧ real.2.dict = spec.2 ∧ Verif.SD.iter c.api real.2 = DictSpec.sortedKeys (setOrder lt eqv) spec.2 := by
  intro crowd h0 hbig
  obtain ⟨O, I, g1, rfl, g3, g4⟩ := hc.loaded
  have h : Verif.SD.Good c.api O eqv I := ⟨he, g1, g3⟩
  have k := (dict_keeps hc he hs threads hok fuel schedule).2.2
  exact SD.repair_of_load (s := Race.SD.view c crowd.shared) hc he
    (load_pos (g4 _ (Verif.SD.reachable_inv h hs).list) k.1) k.2 h0 other hbig ops hops

/-- C91: when the threads have stopped, wherever they are, `sd.clear()` returns, and from then on the dict is the plain sorted dict. -/
theorem C91_dict_clear (hc : c.Orders lt eqv) (he : IsEquiv eqv) {s : Verif.SD κ ν c.State} (hs : Verif.SD.Reachable eqv c.api s) (threads : List (List (SDOp κ ν)))
    (hok : ∀ cs ∈ threads, ∀ op ∈ cs, op.Valid) (fuel : Nat) (schedule : List Nat) (ops : List (SDOp κ ν)) (hops : ∀ op ∈ ops, op.Valid) :
    let crowd := (Race.SD.crowd eqv c fuel s threads).run schedule
    let spec := runHist (DictSpec.step eqv (setOrder lt eqv)) ops []
    let real := runHist (Verif.SD.step eqv c.api) (.clear :: ops) (Race.SD.view c crowd.shared)
    real.1 = .ok .none :: spec.1 ∧ real.2.dict = spec.2 ∧ Verif.SD.iter c.api real.2 = DictSpec.sortedKeys (setOrder lt eqv) spec.2 := by
  intro crowd
  obtain ⟨O, I, g1, rfl, g3, g4⟩ := hc.loaded
  have h : Verif.SD.Good c.api O eqv I := ⟨he, g1, g3⟩
  have k := (dict_keeps hc he hs threads hok fuel schedule).2.2
  exact SD.clear_of_load (s := Race.SD.view c crowd.shared) hc he
    (load_pos (g4 _ (Verif.SD.reachable_inv h hs).list) k.1) ops hops

end dicts

/-- C91: threads that only add members to a SortedSet and look at it do not hang: each ends if it has turns again and again, whatever the others do and whatever comparisons and the key
function do.  (`SSOp.stays`: `add` and all queries, `index` only if there is no key function.) -/
theorem C91_set_adds (S : SetOps τ α) (c : ListClass α) (s : Verif.SS τ c.State) (threads : List (List (SSOp α))) (hops : ∀ cs ∈ threads, ∀ op ∈ cs, op.stays c.hasKey = true) (fuel : Nat)
    (schedule : Nat → Nat) (i : Nat) (hi : i < threads.length) (fair : ∀ n, ∃ m, n ≤ m ∧ schedule m = i) :
    ∃ n x, ((Race.SS.crowd S c fuel s threads).run ((List.range n).map schedule)).result i = some x := by
  obtain ⟨R, hR⟩ := Race.lasts c fuel
  exact Course.Lasts.ends (R := Race.SS.course R) threads _ (fun cs hcs op hop s => Race.SS.lasts_call hR op (hops cs hcs op hop) s) schedule i hi fair

/-- C91: threads that only add items to a SortedDict (`sd[key] = value`, `setdefault`) and look at it do not hang. -/
theorem C91_dict_adds (eqv : κ → κ → Bool) (c : ListClass κ) (s : Verif.SD κ ν c.State) (threads : List (List (SDOp κ ν))) (hops : ∀ cs ∈ threads, ∀ op ∈ cs, op.stays c.hasKey = true)
    (fuel : Nat) (schedule : Nat → Nat) (i : Nat) (hi : i < threads.length) (fair : ∀ n, ∃ m, n ≤ m ∧ schedule m = i) :
    ∃ n x, ((Race.SD.crowd eqv c fuel s threads).run ((List.range n).map schedule)).result i = some x := by
  obtain ⟨R, hR⟩ := Race.lasts c fuel
  exact Course.Lasts.ends (R := Race.SD.course R) threads _ (fun cs hcs op hop s => Race.SD.lasts_call hR op (hops cs hcs op hop) s) schedule i hi fair

/-! ## What goes wrong

Thread 0 is suspended after its first access, thread 1 after its own first access; then each goes on to its end. -/

namespace Demo

def raceEach : List Nat := [0, 1] ++ List.replicate 40 0 ++ List.replicate 40 1

end Demo

open Demo in
/-- C91: two threads call `ss.add(25)`; the list has it twice from then on. -/
theorem C91_set_twice :
    let crowd := (Race.SS.crowd (iset false) intClass 30 coldSet [[.add 25], [.add 25]]).run raceEach
    crowd.result 0 = some (.ok [.ok .none]) ∧ crowd.result 1 = some (.ok [.ok .none]) ∧
    (iset false).toList crowd.shared.set = [50, 10, 30, 20, 70, 40, 60, 25] ∧ intClass.contents crowd.shared.list = [10, 20, 25, 25, 30, 40, 50, 60, 70] := by decide +kernel

open Demo in
/-- C91: two threads call `ss.discard(20)`; one raises KeyError. -/
theorem C91_set_discard :
    let crowd := (Race.SS.crowd (iset false) intClass 30 coldSet [[.discard 20], [.discard 20]]).run raceEach
    crowd.result 0 = some (.ok [.ok .none]) ∧ crowd.result 1 = some (.ok [.error .keyError]) ∧ intClass.contents crowd.shared.list = [10, 30, 40, 50, 60, 70] := by decide +kernel

open Demo in
/-- C91: two threads call `del ss[:2]`; the set loses two members, the list four values, so 30 and 40 are members that iteration does not yield. -/
theorem C91_set_slice :
    let crowd := (Race.SS.crowd (iset false) intClass 30 coldSet [[.delSlice ⟨none, some 2, none⟩], [.delSlice ⟨none, some 2, none⟩]]).run (List.replicate 25 0 ++ List.replicate 140 1 ++ List.replicate 140 0)
    crowd.result 0 = some (.ok [.ok .none]) ∧ crowd.result 1 = some (.ok [.ok .none]) ∧
    (iset false).toList crowd.shared.set = [50, 30, 70, 40, 60] ∧ intClass.contents crowd.shared.list = [50, 60, 70] := by decide +kernel

open Demo in
/-- C91: one thread calls `ss._reset(4)`, another `ss.add(25)`; both calls return, 25 is a member, and iteration does not yield it. -/
theorem C91_set_reset :
    let crowd := (Race.SS.crowd (iset false) intClass 30 coldSet [[.reset 4], [.add 25]]).run ([0] ++ List.replicate 40 1 ++ List.replicate 80 0)
    crowd.result 0 = some (.ok [.ok .none]) ∧ crowd.result 1 = some (.ok [.ok .none]) ∧
    (iset false).toList crowd.shared.set = [50, 10, 30, 20, 70, 40, 60, 25] ∧ intClass.contents crowd.shared.list = [10, 20, 30, 40, 50, 60, 70] := by decide +kernel

open Demo in
/-- C91: two threads call `sd.setdefault(25, ...)`; each is told that its own default is there now, and iteration yields the key twice. -/
theorem C91_dict_setdefault :
    let crowd := (Race.SD.crowd (equiv ilt) intClass 30 coldDict [[.setdefault 25 "a"], [.setdefault 25 "b"]]).run raceEach
    crowd.result 0 = some (.ok [.ok (.val "a")]) ∧ crowd.result 1 = some (.ok [.ok (.val "b")]) ∧
    intClass.contents crowd.shared.list = [10, 20, 25, 25, 30, 40, 50, 60, 70] ∧ PyDict.lookup (equiv ilt) crowd.shared.dict 25 = some "b" := by decide +kernel

/-! ## The hypotheses are met -/

namespace Demo

def raceTurns : List Nat := (List.range 300).map (· % 3)

example := C91_set intClass_orders (iset_lawful false) coldSet lockSetThreads lockSetThreads_ok 30 raceTurns
example := C91_set_repair intClass_orders (iset_lawful false) ieq_decide ilt_total coldSet_reachable lockSetThreads lockSetThreads_ok 30 raceTurns
  [.add 4, .getSlice ⟨none, some 3, none⟩] (by simp [SSOp.Valid])
example := C91_set_clear intClass_orders (iset_lawful false) ieq_decide ilt_total coldSet_reachable lockSetThreads lockSetThreads_ok 30 raceTurns
  [.add 4, .getSlice ⟨none, some 3, none⟩] (by simp [SSOp.Valid])
example := C91_dict intClass_orders ieqv_equiv coldDict_reachable lockDictThreads lockDictThreads_ok 30 raceTurns
example := C91_dict tensClass_orders ieqv_equiv dict2_reachable lockTensThreads lockTensThreads_ok 30 raceTurns
example := C91_dict_repair tensClass_orders ieqv_equiv dict2_reachable lockTensThreads lockTensThreads_ok 30 [0, 0, 0, 1, 1, 1, 1, 0, 1] [.setitem 4 1, .keysSlice ⟨none, some 3, none⟩] (by simp [SDOp.Valid])
  [(7, 7), (8, 8), (7, 9)] (by decide +kernel) (by decide +kernel)
example := C91_dict_clear tensClass_orders ieqv_equiv dict2_reachable lockTensThreads lockTensThreads_ok 30 raceTurns [.setitem 4 1, .keysSlice ⟨none, some 3, none⟩] (by simp [SDOp.Valid])

example := C91_set intClass_orders (iset_lawful false) coldSet lockSetSlices lockSetSlices_ok 30 raceTurns
example := C91_dict tensClass_orders ieqv_equiv dict2_reachable lockTensSlices lockTensSlices_ok 30 raceTurns
example := C91_set intClass_orders (iset_lawful false) coldSet lockSetResets lockSetResets_ok 30 raceTurns
example := C91_dict tensClass_orders ieqv_equiv dict2_reachable lockTensResets lockTensResets_ok 30 raceTurns
example := C91_set_clear intClass_orders (iset_lawful false) ieq_decide ilt_total coldSet_reachable lockSetResets lockSetResets_ok 30 raceTurns
  [.add 4, .getSlice ⟨none, some 3, none⟩] (by simp [SSOp.Valid])

/-- Threads in turn: calls raise IndexError because of each other, and thread 2 finds the list empty while it is being rebuilt. -/
example : let crowd := (Race.SS.crowd (iset false) intClass 30 coldSet lockSetThreads).run raceTurns
    crowd.result 0 = some (.ok [.error .indexError, .error .indexError]) ∧
    crowd.result 1 = some (.ok [.ok .none, .ok (.bool false), .ok (.vals [6, 20, 25, 30, 40, 50, 60, 70])]) ∧
    crowd.result 2 = some (.ok [.error .indexError, .ok (.vals [])]) := by decide +kernel

example : let crowd := (Race.SD.crowd (equiv ilt) intClass 30 coldDict lockDictThreads).run raceTurns
    [crowd.result 0, crowd.result 1, crowd.result 2] =
      [some (.ok [.error .indexError, .error .indexError]), some (.ok [.ok .none, .ok (.val "c"), .ok (.items [(5, "b"), (25, "c")])]), some (.ok [.ok .none, .ok (.val "b")])] := by decide +kernel

/-- Threads that only add. -/
def raceSetAdds : List (List (SSOp Int)) := [[.add 25, .getInt (-1), .index 30 none none], [.add 26, .union [[1], [2]]], [.add 25, .iter, .count 25]]
def raceDictAdds : List (List (SDOp Int String)) := [[.setitem 25 "a", .peekitem 0], [.setdefault 25 "b", .items], [.setitem 26 "c", .valuesSlice ⟨none, none, some (-1)⟩]]

theorem thrice_fair (i : Nat) (hi : i < 3) (n : Nat) : ∃ m, n ≤ m ∧ m % 3 = i := ⟨n * 3 + i, by omega, by omega⟩

example := C91_set_adds (iset false) intClass coldSet raceSetAdds (by simp [raceSetAdds, SSOp.stays, ListClass.hasKey, intClass]) 30 (· % 3) 1 (by decide) (thrice_fair 1 (by decide))
example := C91_dict_adds (equiv ilt) tensClass dict2 [[.setitem 25 7, .bisectLeft 4], [.setdefault 23 1, .copy]] (by simp [SDOp.stays]) 30 (· % 2) 1 (by decide) (alternate_fair 1 (by decide))
example := C91_dict_adds (equiv ilt) intClass coldDict raceDictAdds (by simp [raceDictAdds, SDOp.stays]) 30 (· % 3) 2 (by decide) (thrice_fair 2 (by decide))

end Demo

end Verif
