import Verif.Props.Serial
import Verif.Props.ReentrantSets
/-!
# C91, C93: sets and dicts can be repaired, whatever comparisons and key functions did to them

Threads have changed one SortedSet or SortedDict, with or without a lock, and comparisons and the key function did what they liked: `c'` (`.plain E'` or `.keyed K'`).  From then on comparisons are those
of a total order, `.plain E` or `.keyed K`.
-/

namespace Verif
variable {α κ ν τ γ : Type}
open Race

private theorem set_wild_load {S : SetOps τ α} {c : ListClass α} {eqv : α → α → Bool} (hc : c.Sane) (hS : S.Lawful eqv) (s : Verif.SS τ c.State) (hload : 1 ≤ c.load s.list) (threads : List (List (SSOp α)))
    (hok : ∀ cs ∈ threads, ∀ op ∈ cs, op.Valid) (fuel : Nat) (schedule : List Nat) :
    1 ≤ c.load (c.view ((Race.SS.crowd S c fuel s threads).run schedule).shared.list) ∧
    (((Race.SS.guarded c s threads).run (Race.SS.step S (c.race fuel) c.api) schedule).holder = none →
      1 ≤ c.load (c.view ((Race.SS.guarded c s threads).run (Race.SS.step S (c.race fuel) c.api) schedule).shared.list)) := by
  obtain ⟨P, hP, herr, hof, hinv⟩ := Race.keeps_sane hc (fun _ => True) (1 ≤ ·) (n := 1) (Nat.le_refl 1) fuel
  have hsafe := fun cs hcs op hop => Race.SS.safe_call (P := P) hS hP (fun _ _ _ _ => trivial) op (fun n e => by have := hok cs hcs op hop; rw [e] at this; exact this) (SS.makes_sane hc hS herr)
    fun _ _ => trivial
  have h0 : (Race.SS.pact S (fun _ => True) P).inv (Race.SS.of c s) := ⟨fun _ _ => trivial, hof _ (fun _ _ => trivial) hload⟩
  refine ⟨(hinv _ (Pact.Safe.crowd threads schedule h0 hsafe).1.2).2, fun hn => (hinv _ ((Guarded.keeps (step := Race.SS.step S (c.race fuel) c.api) (I := (Race.SS.pact S (fun _ => True) P).inv)
    (A := fun _ _ => True) (Race.SS.of c s) threads schedule h0 fun cs hcs op hop t x t' ht hx => ⟨((hsafe cs hcs op hop).alone ht x t' hx).1, trivial⟩).1 hn).2).2⟩

private theorem dict_wild_load {c : ListClass κ} {eqv : κ → κ → Bool} (hc : c.Sane) (he : IsEquiv eqv) (s : Verif.SD κ ν c.State) (hs : PyDict.Keyed eqv s.dict) (hload : 1 ≤ c.load s.list)
    (hkeys : ∀ k ∈ Verif.SD.iter c.api s, k ∈ PyDict.keys s.dict) (threads : List (List (SDOp κ ν))) (hok : ∀ cs ∈ threads, ∀ op ∈ cs, op.Valid) (fuel : Nat) (schedule : List Nat) :
    (PyDict.Keyed eqv ((Race.SD.crowd eqv c fuel s threads).run schedule).shared.dict ∧ 1 ≤ c.load (c.view ((Race.SD.crowd eqv c fuel s threads).run schedule).shared.list)) ∧
    (((Race.SD.guarded c s threads).run (Race.SD.step eqv (c.race fuel) c.api) schedule).holder = none →
      PyDict.Keyed eqv ((Race.SD.guarded c s threads).run (Race.SD.step eqv (c.race fuel) c.api) schedule).shared.dict ∧
      1 ≤ c.load (c.view ((Race.SD.guarded c s threads).run (Race.SD.step eqv (c.race fuel) c.api) schedule).shared.list)) := by
  let stored := fun p => p ∈ s.dict ∨ ∃ cs ∈ threads, ∃ op ∈ cs, p ∈ op.given
  obtain ⟨P, hP, herr, hof, hinv⟩ := Race.keeps_sane hc (fun k => ∃ v, stored (k, v)) (1 ≤ ·) (n := 1) (Nat.le_refl 1) fuel
  have hsafe := fun cs (hcs : cs ∈ threads) op hop => Race.SD.safe_call (P := P) he hP op (fun n e => by have := hok cs hcs op hop; rw [e] at this; exact this) (hok cs hcs op hop) (SD.makes_sane hc he herr)
    fun p hp => (.inr ⟨cs, hcs, op, hop, hp⟩ : stored p)
  have h0 : (Race.SD.pact eqv stored P).inv (Race.SD.of c s) :=
    ⟨hs, fun p hp => FromItems.of he (.inl hp), hof _ (fun k hk => by obtain ⟨q, hq, rfl⟩ := List.mem_map.1 (hkeys k hk); exact ⟨q.2, .inl hq⟩) hload⟩
  have k := (Pact.Safe.crowd threads schedule h0 hsafe).1
  refine ⟨⟨k.1, (hinv _ k.2.2).2⟩, fun hn => ?_⟩
  have k := (Guarded.keeps (step := Race.SD.step eqv (c.race fuel) c.api) (I := (Race.SD.pact eqv stored P).inv)
    (A := fun _ _ => True) (Race.SD.of c s) threads schedule h0 fun cs hcs op hop t x t' ht hx => ⟨((hsafe cs hcs op hop).alone ht x t' hx).1, trivial⟩).1 hn
  exact ⟨k.1, (hinv _ k.2.2).2⟩

/-- C91: when the threads have stopped, wherever they are, `ss.symmetric_difference_update([])` repairs a SortedSet and loses no member, and `ss.clear()` makes it as good as new, whatever comparisons did before: from
then on, as long as they are those of a total order, the answers of all calls are those of a plain sorted set. -/
theorem C91_set_wild_repair [DecidableEq α] {S : SetOps τ α} {E' E : Env α} {lt eqv : α → α → Bool} (hc' : (ListClass.plain E').Sane) (hc : (ListClass.plain E).Orders lt eqv) (hS : S.Lawful eqv)
    (heq : ∀ a b, eqv a b = decide (a = b)) (htotal : ∀ a b, lt a b = false → lt b a = false → a = b) (s : Verif.SS τ (ListClass.plain E').State) (hload : 1 ≤ (ListClass.plain E').load s.list)
    (threads : List (List (SSOp α))) (hok : ∀ cs ∈ threads, ∀ op ∈ cs, op.Valid) (fuel : Nat) (schedule : List Nat) (ops : List (SSOp α)) (hops : ∀ op ∈ ops, op.Valid) :
    let p := (Race.SS.crowd S (.plain E') fuel s threads).run schedule
    (∃ plain, Sorted lt plain ∧ plain.Nodup ∧ (∀ v, v ∈ plain ↔ S.mem v p.shared.set = true) ∧
      let spec := runHist (SetSpec.step (setOrder lt eqv)) ops plain
      let real := runHist (Verif.SS.step S (ListClass.plain E).api) (.symmetricDifferenceUpdate [] :: ops) (Race.SS.view (.plain E) p.shared)
      real.1 = .ok .none :: spec.1 ∧ Verif.SS.iter (ListClass.plain E).api real.2 = spec.2) ∧
    let spec := runHist (SetSpec.step (setOrder lt eqv)) ops []
    let real := runHist (Verif.SS.step S (ListClass.plain E).api) (.clear :: ops) (Race.SS.view (.plain E) p.shared)
    real.1 = .ok .none :: spec.1 ∧ Verif.SS.iter (ListClass.plain E).api real.2 = spec.2 := by
  intro p
  have h := (set_wild_load hc' hS s hload threads hok fuel schedule).1
  exact ⟨SS.repair_of_load (s := Race.SS.view (.plain E) p.shared) hc hS heq htotal h ops hops, SS.clear_of_load (s := Race.SS.view (.plain E) p.shared) hc hS heq htotal h ops hops⟩

/-- C91: when the threads have stopped, wherever they are, `sd.update(other)` repairs a non-empty SortedDict if `other` is not much smaller, and `sd.clear()` makes it as good as new, whatever comparisons did before: from
then on, as long as they are those of a total order, the answers of all calls are those of a plain sorted dict. -/
theorem C91_dict_wild_repair {E' E : Env κ} {lt eqv : κ → κ → Bool} (hc' : (ListClass.plain E').Sane) (hc : (ListClass.plain E).Orders lt eqv) (he : IsEquiv eqv)
    (s : Verif.SD κ ν (ListClass.plain E').State) (hs : PyDict.Keyed eqv s.dict) (hload : 1 ≤ (ListClass.plain E').load s.list) (hkeys : ∀ k ∈ Verif.SD.iter (ListClass.plain E').api s, k ∈ PyDict.keys s.dict)
    (threads : List (List (SDOp κ ν))) (hok : ∀ cs ∈ threads, ∀ op ∈ cs, op.Valid) (fuel : Nat) (schedule : List Nat) (ops : List (SDOp κ ν)) (hops : ∀ op ∈ ops, op.Valid) (other : List (κ × ν)) :
    let p := (Race.SD.crowd eqv (.plain E') fuel s threads).run schedule
    (p.shared.dict ≠ [] → p.shared.dict.length < 10 * other.length →
      let spec := runHist (DictSpec.step eqv (setOrder lt eqv)) ops (PyDict.update eqv p.shared.dict other)
      let real := runHist (Verif.SD.step eqv (ListClass.plain E).api) (.update (.dict other) :: ops) (Race.SD.view (.plain E) p.shared)
      real.1 = .ok .none :: spec.1 ∧ real.2.dict = spec.2 ∧ Verif.SD.iter (ListClass.plain E).api real.2 = DictSpec.sortedKeys (setOrder lt eqv) spec.2) ∧
    let spec := runHist (DictSpec.step eqv (setOrder lt eqv)) ops []
    let real := runHist (Verif.SD.step eqv (ListClass.plain E).api) (.clear :: ops) (Race.SD.view (.plain E) p.shared)
    real.1 = .ok .none :: spec.1 ∧ real.2.dict = spec.2 ∧ Verif.SD.iter (ListClass.plain E).api real.2 = DictSpec.sortedKeys (setOrder lt eqv) spec.2 := by
  intro p
  obtain ⟨hk, h⟩ := (dict_wild_load hc' he s hs hload hkeys threads hok fuel schedule).1
  exact ⟨fun h0 hbig => SD.repair_of_load (s := Race.SD.view (.plain E) p.shared) hc he h hk h0 other hbig ops hops, SD.clear_of_load (s := Race.SD.view (.plain E) p.shared) hc he h ops hops⟩

/-- C91: when the threads have stopped, wherever they are, `ss.symmetric_difference_update([])` repairs a SortedSet with a key function and loses no member, and `ss.clear()` makes it as good as new, whatever comparisons did before: from
then on, as long as they are those of a total order, the answers of all calls are those of a plain sorted set. -/
theorem C91_key_set_wild_repair [DecidableEq α] {S : SetOps τ α} {K' K : KEnv α γ} {lt eqv : α → α → Bool} (hc' : (ListClass.keyed K').Sane) (hc : (ListClass.keyed K).Orders lt eqv) (hS : S.Lawful eqv)
    (heq : ∀ a b, eqv a b = decide (a = b)) (htotal : ∀ a b, lt a b = false → lt b a = false → a = b) (s : Verif.SS τ (ListClass.keyed K').State) (hload : 1 ≤ (ListClass.keyed K').load s.list)
    (threads : List (List (SSOp α))) (hok : ∀ cs ∈ threads, ∀ op ∈ cs, op.Valid) (fuel : Nat) (schedule : List Nat) (ops : List (SSOp α)) (hops : ∀ op ∈ ops, op.Valid) :
    let p := (Race.SS.crowd S (.keyed K') fuel s threads).run schedule
    (∃ plain, Sorted lt plain ∧ plain.Nodup ∧ (∀ v, v ∈ plain ↔ S.mem v p.shared.set = true) ∧
      let spec := runHist (SetSpec.step (setOrder lt eqv)) ops plain
      let real := runHist (Verif.SS.step S (ListClass.keyed K).api) (.symmetricDifferenceUpdate [] :: ops) (Race.SS.view (.keyed K) p.shared)
      real.1 = .ok .none :: spec.1 ∧ Verif.SS.iter (ListClass.keyed K).api real.2 = spec.2) ∧
    let spec := runHist (SetSpec.step (setOrder lt eqv)) ops []
    let real := runHist (Verif.SS.step S (ListClass.keyed K).api) (.clear :: ops) (Race.SS.view (.keyed K) p.shared)
    real.1 = .ok .none :: spec.1 ∧ Verif.SS.iter (ListClass.keyed K).api real.2 = spec.2 := by
  intro p
  have h := (set_wild_load hc' hS s hload threads hok fuel schedule).1
  exact ⟨SS.repair_of_load (s := Race.SS.view (.keyed K) p.shared) hc hS heq htotal h ops hops, SS.clear_of_load (s := Race.SS.view (.keyed K) p.shared) hc hS heq htotal h ops hops⟩

/-- C91: when the threads have stopped, wherever they are, `sd.update(other)` repairs a non-empty SortedDict with a key function if `other` is not much smaller, and `sd.clear()` makes it as good as new, whatever comparisons did before: from
then on, as long as they are those of a total order, the answers of all calls are those of a plain sorted dict. -/
theorem C91_key_dict_wild_repair {K' K : KEnv κ γ} {lt eqv : κ → κ → Bool} (hc' : (ListClass.keyed K').Sane) (hc : (ListClass.keyed K).Orders lt eqv) (he : IsEquiv eqv)
    (s : Verif.SD κ ν (ListClass.keyed K').State) (hs : PyDict.Keyed eqv s.dict) (hload : 1 ≤ (ListClass.keyed K').load s.list) (hkeys : ∀ k ∈ Verif.SD.iter (ListClass.keyed K').api s, k ∈ PyDict.keys s.dict)
    (threads : List (List (SDOp κ ν))) (hok : ∀ cs ∈ threads, ∀ op ∈ cs, op.Valid) (fuel : Nat) (schedule : List Nat) (ops : List (SDOp κ ν)) (hops : ∀ op ∈ ops, op.Valid) (other : List (κ × ν)) :
    let p := (Race.SD.crowd eqv (.keyed K') fuel s threads).run schedule
    (p.shared.dict ≠ [] → p.shared.dict.length < 10 * other.length →
      let spec := runHist (DictSpec.step eqv (setOrder lt eqv)) ops (PyDict.update eqv p.shared.dict other)
      let real := runHist (Verif.SD.step eqv (ListClass.keyed K).api) (.update (.dict other) :: ops) (Race.SD.view (.keyed K) p.shared)
      real.1 = .ok .none :: spec.1 ∧ real.2.dict = spec.2 ∧ Verif.SD.iter (ListClass.keyed K).api real.2 = DictSpec.sortedKeys (setOrder lt eqv) spec.2) ∧
    let spec := runHist (DictSpec.step eqv (setOrder lt eqv)) ops []
    let real := runHist (Verif.SD.step eqv (ListClass.keyed K).api) (.clear :: ops) (Race.SD.view (.keyed K) p.shared)
    real.1 = .ok .none :: spec.1 ∧ real.2.dict = spec.2 ∧ Verif.SD.iter (ListClass.keyed K).api real.2 = DictSpec.sortedKeys (setOrder lt eqv) spec.2 := by
  intro p
  obtain ⟨hk, h⟩ := (dict_wild_load hc' he s hs hload hkeys threads hok fuel schedule).1
  exact ⟨fun h0 hbig => SD.repair_of_load (s := Race.SD.view (.keyed K) p.shared) hc he h hk h0 other hbig ops hops, SD.clear_of_load (s := Race.SD.view (.keyed K) p.shared) hc he h ops hops⟩

/-- C93: between calls, `ss.symmetric_difference_update([])` repairs a SortedSet and loses no member, and `ss.clear()` makes it as good as new, whatever comparisons did before: from
then on, as long as they are those of a total order, the answers of all calls are those of a plain sorted set. -/
theorem C93_set_wild_repair [DecidableEq α] {S : SetOps τ α} {E' E : Env α} {lt eqv : α → α → Bool} (hc' : (ListClass.plain E').Sane) (hc : (ListClass.plain E).Orders lt eqv) (hS : S.Lawful eqv)
    (heq : ∀ a b, eqv a b = decide (a = b)) (htotal : ∀ a b, lt a b = false → lt b a = false → a = b) (s : Verif.SS τ (ListClass.plain E').State) (hload : 1 ≤ (ListClass.plain E').load s.list)
    (threads : List (List (SSOp α))) (hok : ∀ cs ∈ threads, ∀ op ∈ cs, op.Valid) (fuel : Nat) (schedule : List Nat) (ops : List (SSOp α)) (hops : ∀ op ∈ ops, op.Valid) :
    let p := (Race.SS.guarded (.plain E') s threads).run (Race.SS.step S ((ListClass.plain E').race fuel) (ListClass.plain E').api) schedule
    p.holder = none → 
    (∃ plain, Sorted lt plain ∧ plain.Nodup ∧ (∀ v, v ∈ plain ↔ S.mem v p.shared.set = true) ∧
      let spec := runHist (SetSpec.step (setOrder lt eqv)) ops plain
      let real := runHist (Verif.SS.step S (ListClass.plain E).api) (.symmetricDifferenceUpdate [] :: ops) (Race.SS.view (.plain E) p.shared)
      real.1 = .ok .none :: spec.1 ∧ Verif.SS.iter (ListClass.plain E).api real.2 = spec.2) ∧
    let spec := runHist (SetSpec.step (setOrder lt eqv)) ops []
    let real := runHist (Verif.SS.step S (ListClass.plain E).api) (.clear :: ops) (Race.SS.view (.plain E) p.shared)
    real.1 = .ok .none :: spec.1 ∧ Verif.SS.iter (ListClass.plain E).api real.2 = spec.2 := by
  intro p hn
  have h := (set_wild_load hc' hS s hload threads hok fuel schedule).2 hn
  exact ⟨SS.repair_of_load (s := Race.SS.view (.plain E) p.shared) hc hS heq htotal h ops hops, SS.clear_of_load (s := Race.SS.view (.plain E) p.shared) hc hS heq htotal h ops hops⟩

/-- C93: between calls, `sd.update(other)` repairs a non-empty SortedDict if `other` is not much smaller, and `sd.clear()` makes it as good as new, whatever comparisons did before: from
then on, as long as they are those of a total order, the answers of all calls are those of a plain sorted dict. -/
theorem C93_dict_wild_repair {E' E : Env κ} {lt eqv : κ → κ → Bool} (hc' : (ListClass.plain E').Sane) (hc : (ListClass.plain E).Orders lt eqv) (he : IsEquiv eqv)
    (s : Verif.SD κ ν (ListClass.plain E').State) (hs : PyDict.Keyed eqv s.dict) (hload : 1 ≤ (ListClass.plain E').load s.list) (hkeys : ∀ k ∈ Verif.SD.iter (ListClass.plain E').api s, k ∈ PyDict.keys s.dict)
    (threads : List (List (SDOp κ ν))) (hok : ∀ cs ∈ threads, ∀ op ∈ cs, op.Valid) (fuel : Nat) (schedule : List Nat) (ops : List (SDOp κ ν)) (hops : ∀ op ∈ ops, op.Valid) (other : List (κ × ν)) :
    let p := (Race.SD.guarded (.plain E') s threads).run (Race.SD.step eqv ((ListClass.plain E').race fuel) (ListClass.plain E').api) schedule
    p.holder = none → 
    (p.shared.dict ≠ [] → p.shared.dict.length < 10 * other.length →
      let spec := runHist (DictSpec.step eqv (setOrder lt eqv)) ops (PyDict.update eqv p.shared.dict other)
      let real := runHist (Verif.SD.step eqv (ListClass.plain E).api) (.update (.dict other) :: ops) (Race.SD.view (.plain E) p.shared)
      real.1 = .ok .none :: spec.1 ∧ real.2.dict = spec.2 ∧ Verif.SD.iter (ListClass.plain E).api real.2 = DictSpec.sortedKeys (setOrder lt eqv) spec.2) ∧
    let spec := runHist (DictSpec.step eqv (setOrder lt eqv)) ops []
    let real := runHist (Verif.SD.step eqv (ListClass.plain E).api) (.clear :: ops) (Race.SD.view (.plain E) p.shared)
    real.1 = .ok .none :: spec.1 ∧ real.2.dict = spec.2 ∧ Verif.SD.iter (ListClass.plain E).api real.2 = DictSpec.sortedKeys (setOrder lt eqv) spec.2 := by
  intro p hn
  obtain ⟨hk, h⟩ := (dict_wild_load hc' he s hs hload hkeys threads hok fuel schedule).2 hn
  exact ⟨fun h0 hbig => SD.repair_of_load (s := Race.SD.view (.plain E) p.shared) hc he h hk h0 other hbig ops hops, SD.clear_of_load (s := Race.SD.view (.plain E) p.shared) hc he h ops hops⟩

/-- C93: between calls, `ss.symmetric_difference_update([])` repairs a SortedSet with a key function and loses no member, and `ss.clear()` makes it as good as new, whatever comparisons did before: from
then on, as long as they are those of a total order, the answers of all calls are those of a plain sorted set. -/
theorem C93_key_set_wild_repair [DecidableEq α] {S : SetOps τ α} {K' K : KEnv α γ} {lt eqv : α → α → Bool} (hc' : (ListClass.keyed K').Sane) (hc : (ListClass.keyed K).Orders lt eqv) (hS : S.Lawful eqv)
    (heq : ∀ a b, eqv a b = decide (a = b)) (htotal : ∀ a b, lt a b = false → lt b a = false → a = b) (s : Verif.SS τ (ListClass.keyed K').State) (hload : 1 ≤ (ListClass.keyed K').load s.list)
    (threads : List (List (SSOp α))) (hok : ∀ cs ∈ threads, ∀ op ∈ cs, op.Valid) (fuel : Nat) (schedule : List Nat) (ops : List (SSOp α)) (hops : ∀ op ∈ ops, op.Valid) :
    let p := (Race.SS.guarded (.keyed K') s threads).run (Race.SS.step S ((ListClass.keyed K').race fuel) (ListClass.keyed K').api) schedule
    p.holder = none → 
    (∃ plain, Sorted lt plain ∧ plain.Nodup ∧ (∀ v, v ∈ plain ↔ S.mem v p.shared.set = true) ∧
      let spec := runHist (SetSpec.step (setOrder lt eqv)) ops plain
      let real := runHist (Verif.SS.step S (ListClass.keyed K).api) (.symmetricDifferenceUpdate [] :: ops) (Race.SS.view (.keyed K) p.shared)
      real.1 = .ok .none :: spec.1 ∧ Verif.SS.iter (ListClass.keyed K).api real.2 = spec.2) ∧
    let spec := runHist (SetSpec.step (setOrder lt eqv)) ops []
    let real := runHist (Verif.SS.step S (ListClass.keyed K).api) (.clear :: ops) (Race.SS.view (.keyed K) p.shared)
    real.1 = .ok .none :: spec.1 ∧ Verif.SS.iter (ListClass.keyed K).api real.2 = spec.2 := by
  intro p hn
  have h := (set_wild_load hc' hS s hload threads hok fuel schedule).2 hn
  exact ⟨SS.repair_of_load (s := Race.SS.view (.keyed K) p.shared) hc hS heq htotal h ops hops, SS.clear_of_load (s := Race.SS.view (.keyed K) p.shared) hc hS heq htotal h ops hops⟩

/-- C93: between calls, `sd.update(other)` repairs a non-empty SortedDict with a key function if `other` is not much smaller, and `sd.clear()` makes it as good as new, whatever comparisons did before: from
then on, as long as they are those of a total order, the answers of all calls are those of a plain sorted dict. -/
theorem C93_key_dict_wild_repair {K' K : KEnv κ γ} {lt eqv : κ → κ → Bool} (hc' : (ListClass.keyed K').Sane) (hc : (ListClass.keyed K).Orders lt eqv) (he : IsEquiv eqv)
    (s : Verif.SD κ ν (ListClass.keyed K').State) (hs : PyDict.Keyed eqv s.dict) (hload : 1 ≤ (ListClass.keyed K').load s.list) (hkeys : ∀ k ∈ Verif.SD.iter (ListClass.keyed K').api s, k ∈ PyDict.keys s.dict)
    (threads : List (List (SDOp κ ν))) (hok : ∀ cs ∈ threads, ∀ op ∈ cs, op.Valid) (fuel : Nat) (schedule : List Nat) (ops : List (SDOp κ ν)) (hops : ∀ op ∈ ops, op.Valid) (other : List (κ × ν)) :
    let p := (Race.SD.guarded (.keyed K') s threads).run (Race.SD.step eqv ((ListClass.keyed K').race fuel) (ListClass.keyed K').api) schedule
    p.holder = none → 
    (p.shared.dict ≠ [] → p.shared.dict.length < 10 * other.length →
      let spec := runHist (DictSpec.step eqv (setOrder lt eqv)) ops (PyDict.update eqv p.shared.dict other)
      let real := runHist (Verif.SD.step eqv (ListClass.keyed K).api) (.update (.dict other) :: ops) (Race.SD.view (.keyed K) p.shared)
      real.1 = .ok .none :: spec.1 ∧ real.2.dict = spec.2 ∧ Verif.SD.iter (ListClass.keyed K).api real.2 = DictSpec.sortedKeys (setOrder lt eqv) spec.2) ∧
    let spec := runHist (DictSpec.step eqv (setOrder lt eqv)) ops []
    let real := runHist (Verif.SD.step eqv (ListClass.keyed K).api) (.clear :: ops) (Race.SD.view (.keyed K) p.shared)
    real.1 = .ok .none :: spec.1 ∧ real.2.dict = spec.2 ∧ Verif.SD.iter (ListClass.keyed K).api real.2 = DictSpec.sortedKeys (setOrder lt eqv) spec.2 := by
  intro p hn
  obtain ⟨hk, h⟩ := (dict_wild_load hc' he s hs hload hkeys threads hok fuel schedule).2 hn
  exact ⟨fun h0 hbig => SD.repair_of_load (s := Race.SD.view (.keyed K) p.shared) hc he h hk h0 other hbig ops hops, SD.clear_of_load (s := Race.SD.view (.keyed K) p.shared) hc he h ops hops⟩

/-! ## The hypotheses are met -/

namespace Demo

/-- Values below 0 cannot be compared with the others.  After `ss.add(-5)` has raised, -5 is a member that iteration does not yield, -/
def wildSetThreads : List (List (SSOp Int)) := [[.add 25], [.add (-5), .len], [.iter]]

theorem wildSetThreads_ok : ∀ cs ∈ wildSetThreads, ∀ op ∈ cs, op.Valid := by simp [wildSetThreads, SSOp.Valid]

/-- and when values can be compared, `ss.symmetric_difference_update([])` puts it in its place. -/
example : let p := (Race.SS.guarded (.plain mixedEnv) coldSet wildSetThreads).run (Race.SS.step (iset false) ((ListClass.plain mixedEnv).race 30) (ListClass.plain mixedEnv).api) lockSchedule
    p.holder = none ∧ (runHist (SS.step (iset false) intClass.api) [.iter, .symmetricDifferenceUpdate [], .iter, .clear, .iter] (Race.SS.view intClass p.shared)).1 =
      [.ok (.vals [10, 20, 25, 30, 40, 50, 60, 70]), .ok .none, .ok (.vals [-5, 10, 20, 25, 30, 40, 50, 60, 70]), .ok .none, .ok (.vals [])] := by decide +kernel

example := C93_set_wild_repair (E' := mixedEnv) mixedEnv_sane intClass_orders (iset_lawful false) ieq_decide ilt_total coldSet (by decide +kernel) wildSetThreads wildSetThreads_ok 30 lockSchedule
  [.add 4, .iter] (by simp [SSOp.Valid]) (by decide +kernel)
example := C91_set_wild_repair (E' := mixedEnv) mixedEnv_sane intClass_orders (iset_lawful false) ieq_decide ilt_total coldSet (by decide +kernel) wildSetThreads wildSetThreads_ok 30 raceTurns
  [.add 4, .iter] (by simp [SSOp.Valid])
example := C93_key_set_wild_repair (K' := mixedKEnv) mixedKEnv_sane negClass_orders (iset_lawful true) ieq_decide (fun a b h1 h2 => by simp [ilt] at h1 h2; omega) nosyKeyedStart (by decide +kernel)
  wildSetThreads wildSetThreads_ok 30 lockSchedule [.add 4, .iter] (by simp [SSOp.Valid]) (by decide +kernel)
example := C91_key_set_wild_repair (K' := mixedKEnv) mixedKEnv_sane negClass_orders (iset_lawful true) ieq_decide (fun a b h1 h2 => by simp [ilt] at h1 h2; omega) nosyKeyedStart (by decide +kernel)
  wildSetThreads wildSetThreads_ok 30 raceTurns [.add 4, .iter] (by simp [SSOp.Valid])

theorem coldDict_keyed : PyDict.Keyed (equiv ilt) coldDict.dict := by
  rw [PyDict.Keyed, show PyDict.keys coldDict.dict = [50, 10, 30, 20, 70, 40, 60] by decide +kernel]; simp [Distinct, equiv, ilt]

/-- After `sd.setdefault(-6, "y")` has raised, -6 has a value and iteration does not yield it, -/
def wildDictThreads : List (List (SDOp Int String)) := [[.setitem (-5) "x", .len], [.setdefault (-6) "y", .get (-6)], [.len, .iter]]

theorem wildDictThreads_ok : ∀ cs ∈ wildDictThreads, ∀ op ∈ cs, op.Valid := by simp [wildDictThreads, SDOp.Valid]

/-- and `sd.update` puts it in its place. -/
example : let p := (Race.SD.guarded (.plain mixedEnv) coldDict wildDictThreads).run (Race.SD.step (equiv ilt) ((ListClass.plain mixedEnv).race 30) (ListClass.plain mixedEnv).api) lockSchedule
    p.holder = none ∧ (runHist (SD.step (equiv ilt) intClass.api) [.iter, .update (.dict [(1, "z")]), .iter] (Race.SD.view intClass p.shared)).1 =
      [.ok (.keys [10, 20, 30, 40, 50, 60, 70]), .ok .none, .ok (.keys [-6, 1, 10, 20, 30, 40, 50, 60, 70])] := by decide +kernel

example := (C93_dict_wild_repair (E' := mixedEnv) mixedEnv_sane intClass_orders ieqv_equiv coldDict coldDict_keyed (by decide +kernel) (by decide +kernel) wildDictThreads wildDictThreads_ok 30 lockSchedule
  [.setitem 4 "w", .iter] (by simp [SDOp.Valid]) [(1, "z")] (by decide +kernel)).1 (by decide +kernel) (by decide +kernel)
example := (C91_dict_wild_repair (E' := mixedEnv) mixedEnv_sane intClass_orders ieqv_equiv coldDict coldDict_keyed (by decide +kernel) (by decide +kernel) wildDictThreads wildDictThreads_ok 30 raceTurns
  [.setitem 4 "w", .iter] (by simp [SDOp.Valid]) [(1, "z")]).1 (by decide +kernel) (by decide +kernel)

/-- There is no key for 7. -/
def wildKeyThreads : List (List (SDOp Int Int)) := [[.setitem 7 1, .len], [.setdefault (-6) 2, .get (-6)], [.len, .iter]]

theorem dict2_keyed : PyDict.Keyed (equiv ilt) dict2.dict := by
  rw [PyDict.Keyed]; simp only [Distinct]; decide +kernel

example := C93_key_dict_wild_repair (K' := mixedKEnv) mixedKEnv_sane tensClass_orders ieqv_equiv dict2 dict2_keyed (by decide +kernel) (by decide +kernel) wildKeyThreads (by simp [wildKeyThreads, SDOp.Valid]) 30 lockSchedule
  [.setitem 4 5, .iter] (by simp [SDOp.Valid]) [(1, 3)] (by decide +kernel)
example := C91_key_dict_wild_repair (K' := mixedKEnv) mixedKEnv_sane tensClass_orders ieqv_equiv dict2 dict2_keyed (by decide +kernel) (by decide +kernel) wildKeyThreads (by simp [wildKeyThreads, SDOp.Valid]) 30 raceTurns
  [.setitem 4 5, .iter] (by simp [SDOp.Valid]) [(1, 3)]

end Demo

end Verif
