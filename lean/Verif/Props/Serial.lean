import Verif.Proofs.SerialAdd
import Verif.Proofs.SerialSets
import Verif.Proofs.SerialRaises
import Verif.Props.RaceSets
import Verif.Props.DemoWild
/-!
# C93: threads that share a sorted list, set or dict and a lock, whatever comparisons and key functions do

C89 and C90 are about comparisons that are a total order.  Here nothing is assumed of them: they may raise, or contradict each other.  `Guarded.Serial` and `Task.serially` (Serial.lean) say what
it means that calls happen one after the other.
-/

namespace Verif
variable {α κ ν τ : Type}
open Race

/-- C93: at every point of every schedule, the calls on a SortedList under a lock have happened one after the other, those that raise too. -/
theorem C93_list (E : Env α) (s : St α α) (threads : List (List (Op α))) (fuel : Nat) (schedule : List Nat) :
    Guarded.Serial (SL.step E fuel) (Shared.of s) threads ((SL.guarded s threads).run (SL.step E fuel) schedule) :=
  Guarded.serial ..

/-- C93: the same for a SortedKeyList. -/
theorem C93_key_list (K : KEnv α κ) (s : St α κ) (threads : List (List (KOp α κ))) (fuel : Nat) (schedule : List Nat) :
    Guarded.Serial (SKL.call K fuel) (Shared.of s) threads ((SKL.guarded s threads).run (SKL.call K fuel) schedule) :=
  Guarded.serial ..

/-- C93: the same for a SortedSet. -/
theorem C93_set (S : SetOps τ α) (c : ListClass α) (s : Verif.SS τ c.State) (threads : List (List (SSOp α))) (fuel : Nat) (schedule : List Nat) :
    Guarded.Serial (Race.SS.step S (c.race fuel) c.api) (Race.SS.of c s) threads ((Race.SS.guarded c s threads).run (Race.SS.step S (c.race fuel) c.api) schedule) :=
  Guarded.serial ..

/-- C93: the same for a SortedDict. -/
theorem C93_dict (eqv : κ → κ → Bool) (c : ListClass κ) (s : Verif.SD κ ν c.State) (threads : List (List (SDOp κ ν))) (fuel : Nat) (schedule : List Nat) :
    Guarded.Serial (Race.SD.step eqv (c.race fuel) c.api) (Race.SD.of c s) threads ((Race.SD.guarded c s threads).run (Race.SD.step eqv (c.race fuel) c.api) schedule) :=
  Guarded.serial ..

/-- C93: an `add` in which a comparison raises leaves no trace: the other calls, those of all threads, before it and after it, have the answers that they have one after the other without it, and the
list is as they leave it.  (IndexError and ValueError are left out: inside `add` they may also come from the list itself, if comparisons have contradicted each other.) -/
theorem C93_list_add (E : Env α) (s : St α α) (threads : List (List (Op α))) (fuel : Nat) (schedule : List Nat) :
    let p := (SL.guarded s threads).run (SL.step E fuel) schedule
    ∀ before after i v e, p.log = before ++ (i, .add v, .error e) :: after → e ≠ .indexError → e ≠ .valueError →
      ∃ now, Task.serially (SL.step E fuel) ((before ++ after).map fun e => e.2.1) (Shared.of s) = some ((before ++ after).map fun e => e.2.2, now) ∧ (p.holder = none → p.shared = now) := by
  intro p before after i v e hl h1 h2
  obtain ⟨now, hs, hn, -⟩ := C93_list E s threads fuel schedule
  refine ⟨now, ?_, hn⟩
  rw [show ((SL.guarded s threads).run (SL.step E fuel) schedule).log = _ from hl] at hs
  simp only [List.map_append, List.map_cons] at hs ⊢
  exact Task.serially_skip (step := SL.step E fuel) (c := .add v) (Task.Whole.map _ (SL.whole_add E fuel v)) (fun h => h.elim h1 h2) (by simp) hs

/-- C93: the same for a SortedKeyList; the key function may raise, too. -/
theorem C93_key_list_add (K : KEnv α κ) (s : St α κ) (threads : List (List (KOp α κ))) (fuel : Nat) (schedule : List Nat) :
    let p := (SKL.guarded s threads).run (SKL.call K fuel) schedule
    ∀ before after i v e, p.log = before ++ (i, .op (.add v), .error e) :: after → e ≠ .indexError → e ≠ .valueError →
      ∃ now, Task.serially (SKL.call K fuel) ((before ++ after).map fun e => e.2.1) (Shared.of s) = some ((before ++ after).map fun e => e.2.2, now) ∧ (p.holder = none → p.shared = now) := by
  intro p before after i v e hl h1 h2
  obtain ⟨now, hs, hn, -⟩ := C93_key_list K s threads fuel schedule
  refine ⟨now, ?_, hn⟩
  rw [show ((SKL.guarded s threads).run (SKL.call K fuel) schedule).log = _ from hl] at hs
  simp only [List.map_append, List.map_cons] at hs ⊢
  exact Task.serially_skip (step := SKL.call K fuel) (c := .op (.add v)) (Task.Whole.map _ (SKL.whole_add K fuel v)) (fun h => h.elim h1 h2) (by simp) hs

/-- C93: the same for `sd[key] = value` on a SortedDict. -/
theorem C93_dict_setitem (eqv : κ → κ → Bool) (c : ListClass κ) (s : Verif.SD κ ν c.State) (threads : List (List (SDOp κ ν))) (fuel : Nat) (schedule : List Nat) :
    let p := (Race.SD.guarded c s threads).run (Race.SD.step eqv (c.race fuel) c.api) schedule
    ∀ before after i k v e, p.log = before ++ (i, .setitem k v, .error e) :: after → e ≠ .indexError → e ≠ .valueError →
      ∃ now, Task.serially (Race.SD.step eqv (c.race fuel) c.api) ((before ++ after).map fun e => e.2.1) (Race.SD.of c s) = some ((before ++ after).map fun e => e.2.2, now) ∧
        (p.holder = none → p.shared = now) := by
  intro p before after i k v e hl h1 h2
  obtain ⟨now, hs, hn, -⟩ := C93_dict eqv c s threads fuel schedule
  refine ⟨now, ?_, hn⟩
  rw [show ((Race.SD.guarded c s threads).run (Race.SD.step eqv (c.race fuel) c.api) schedule).log = _ from hl] at hs
  simp only [List.map_append, List.map_cons] at hs ⊢
  exact Task.serially_skip (step := Race.SD.step eqv (c.race fuel) c.api) (c := .setitem k v) (Task.Whole.map _ (Race.SD.whole_setitem eqv c fuel k v)) (fun h => h.elim h1 h2) (by simp) hs

/-- If each call, run alone, keeps `I` and answers as `A` says, so do the calls under a lock. -/
theorem Guarded.keeps {σ γ β : Type} {step : γ → Task σ β} {I : σ → Prop} {A : γ → Except PyErr β → Prop} (s0 : σ) (threads : List (List γ)) (schedule : List Nat) (h0 : I s0)
    (h : ∀ cs ∈ threads, ∀ c ∈ cs, ∀ s x s', I s → (step c).alone s = some (x, s') → I s' ∧ A c x) :
    let p := ({ shared := s0, holder := none, waiting := threads, log := [] } : Guarded σ γ β).run step schedule
    (p.holder = none → I p.shared) ∧ ∀ e ∈ p.log, A e.2.1 e.2.2 := by
  intro p
  have ho := (Guarded.Orderly.start (step := step) s0 threads).run schedule
  obtain ⟨s, h1, h2⟩ := ho.state
  obtain ⟨k1, k2⟩ := h1.keeps (I := I) (A := A) (fun e he => by obtain ⟨cs, hcs, hc⟩ := ho.mem.1 e he; exact h cs hcs _ hc) h0
  refine ⟨fun e => ?_, k2⟩
  rw [show (({ shared := s0, holder := none, waiting := threads, log := [] } : Guarded σ γ β).run step schedule).holder = none from e] at h2
  rw [show p.shared = s from h2]
  exact k1

/-- C93: no value appears from nowhere: answers show, and between calls the list holds, values that were in it at the start or that a thread has passed to it; and calls raise IndexError,
ValueError, NotImplementedError (methods that sorted lists refuse) or what a comparison raises. -/
theorem C93_list_values {E : Env α} (hsort : ∀ xs ys, E.sorted xs = .ok ys → ys.Perm xs) (s : St α α) (threads : List (List (Op α))) (fuel : Nat) (schedule : List Nat) :
    let known := fun v => v ∈ s.lists.flatten ∨ ∃ cs ∈ threads, ∃ op ∈ cs, v ∈ op.given
    let p := (SL.guarded s threads).run (SL.step E fuel) schedule
    (p.holder = none → ∀ v ∈ p.shared.contents, known v) ∧
    ∀ entry ∈ p.log, (∀ out, entry.2.2 = .ok out → ∀ v ∈ out.shown, known v) ∧
      ∀ e, entry.2.2 = .error e → e = .indexError ∨ e = .valueError ∨ (e = .notImplementedError ∧ ∃ cs ∈ threads, ∃ u, .unsupported u ∈ cs) ∨ (∃ op x y, E.cmp op x y = .error e) ∨ ∃ xs, E.sorted xs = .error e := by
  intro known p
  let B : Bounds α α := { val := known, load := fun _ => True, grow := False, index := .inl rfl, value := .inr (.inl rfl)
                          err := fun e => e = .indexError ∨ e = .valueError ∨ (e = .notImplementedError ∧ ∃ cs ∈ threads, ∃ u, .unsupported u ∈ cs) ∨ (∃ op x y, E.cmp op x y = .error e) ∨ ∃ xs, E.sorted xs = .error e }
  have hE : B.Suits E := ⟨fun op x y e h => .inr (.inr (.inr (.inl ⟨op, x, y, h⟩))), fun xs e h => .inr (.inr (.inr (.inr ⟨xs, h⟩))), fun xs ys h hx v hv => hx v ((hsort xs ys h).mem_iff.1 hv)⟩
  obtain ⟨h1, h2⟩ := Guarded.keeps (step := SL.step E fuel) (I := B.Holds) (A := fun _ x => (∀ out, x = .ok out → ∀ v ∈ out.shown, known v) ∧ ∀ e, x = .error e → B.err e) (Shared.of s) threads schedule
    (Bounds.Holds.of s (fun l hl v hv => .inl (List.mem_flatten.2 ⟨l, hl, hv⟩)) trivial) fun cs hcs op hop t x t' ht hx =>
      ((Bounds.Safe.SL_step hE fuel op (fun h => h.elim) (fun v hv => .inr ⟨cs, hcs, op, hop, hv⟩) (fun _ _ => trivial) (fun u e => .inr (.inr (.inl ⟨rfl, cs, hcs, u, e ▸ hop⟩)) ) t ht).alone ht).2 x t' hx
  refine ⟨fun e v hv => ?_, h2⟩
  obtain ⟨a, -, ha⟩ := List.mem_flatMap.1 hv
  exact (h1 e).cell a v ha

/-- C93: the same for a SortedKeyList; calls may also raise what the key function raises. -/
theorem C93_key_list_values {K : KEnv α κ} (hsort : ∀ xs ys, K.sortedByKey xs = .ok ys → ys.Perm xs) (s : St α κ) (threads : List (List (KOp α κ))) (fuel : Nat) (schedule : List Nat) :
    let known := fun v => v ∈ s.lists.flatten ∨ ∃ cs ∈ threads, ∃ op ∈ cs, v ∈ op.given
    let p := (SKL.guarded s threads).run (SKL.call K fuel) schedule
    (p.holder = none → ∀ v ∈ p.shared.contents, known v) ∧
    ∀ entry ∈ p.log, (∀ out, entry.2.2 = .ok out → ∀ v ∈ out.shown, known v) ∧
      ∀ e, entry.2.2 = .error e → e = .indexError ∨ e = .valueError ∨ (e = .notImplementedError ∧ ∃ cs ∈ threads, ∃ u, .op (.unsupported u) ∈ cs) ∨ (∃ x, K.key x = .error e) ∨ (∃ op x y, K.kcmp op x y = .error e) ∨ (∃ op x y, K.vcmp op x y = .error e) ∨
        ∃ xs, K.sortedByKey xs = .error e := by
  intro known p
  let B : Bounds α κ := { val := known, load := fun _ => True, grow := False, index := .inl rfl, value := .inr (.inl rfl)
                          err := fun e => e = .indexError ∨ e = .valueError ∨ (e = .notImplementedError ∧ ∃ cs ∈ threads, ∃ u, .op (.unsupported u) ∈ cs) ∨ (∃ x, K.key x = .error e) ∨ (∃ op x y, K.kcmp op x y = .error e) ∨ (∃ op x y, K.vcmp op x y = .error e) ∨
                            ∃ xs, K.sortedByKey xs = .error e }
  have hE : B.KSuits K := ⟨fun x e h => .inr (.inr (.inr (.inl ⟨x, h⟩))), fun op x y e h => .inr (.inr (.inr (.inr (.inl ⟨op, x, y, h⟩)))), fun x y e h => .inr (.inr (.inr (.inr (.inr (.inl ⟨.eq, x, y, h⟩))))),
    fun xs e h => .inr (.inr (.inr (.inr (.inr (.inr ⟨xs, h⟩))))), fun xs ys h hx v hv => hx v ((hsort xs ys h).mem_iff.1 hv)⟩
  obtain ⟨h1, h2⟩ := Guarded.keeps (step := SKL.call K fuel) (I := B.Holds) (A := fun _ x => (∀ out, x = .ok out → ∀ v ∈ out.shown, known v) ∧ ∀ e, x = .error e → B.err e) (Shared.of s) threads schedule
    (Bounds.Holds.of s (fun l hl v hv => .inl (List.mem_flatten.2 ⟨l, hl, hv⟩)) trivial) fun cs hcs op hop t x t' ht hx =>
      ((Bounds.Safe.SKL_call hE (fun op x y e h => .inr (.inr (.inr (.inr (.inr (.inl ⟨op, x, y, h⟩)))))) fuel op (fun h => h.elim) (fun v hv => .inr ⟨cs, hcs, op, hop, hv⟩) (fun _ _ => trivial) (fun u e => .inr (.inr (.inl ⟨rfl, cs, hcs, u, e ▸ hop⟩))) t ht).alone ht).2 x t' hx
  refine ⟨fun e v hv => ?_, h2⟩
  obtain ⟨a, -, ha⟩ := List.mem_flatMap.1 hv
  exact (h1 e).cell a v ha

/-- C93: the same for a SortedSet: what the built-in set, iteration and answers show was in the object at the start or was passed to it (or, to `union` and `symmetric_difference`, to the call), or
equals such a value.  Of comparisons and the key function nothing is assumed: if `sorted` returns, it returns its values, and `int(log(n, 2))` is not too small.  Calls raise
IndexError, ValueError, KeyError, or what comparisons and the key function raise. -/
theorem C93_set_values {S : SetOps τ α} {c : ListClass α} {eqv : α → α → Bool} (hc : c.Sane) (hS : S.Lawful eqv) (s : Verif.SS τ c.State) (threads : List (List (SSOp α))) (fuel : Nat) (schedule : List Nat) :
    let stored := fun v => ∃ x, eqv x v = true ∧ (x ∈ S.toList s.set ∨ x ∈ Verif.SS.iter c.api s ∨ ∃ cs ∈ threads, ∃ op ∈ cs, x ∈ op.given)
    let p := (Race.SS.guarded c s threads).run (Race.SS.step S (c.race fuel) c.api) schedule
    (p.holder = none → (∀ v ∈ S.toList p.shared.set, stored v) ∧ ∀ v ∈ c.contents p.shared.list, stored v) ∧
    ∀ entry ∈ p.log, (∀ out, entry.2.2 = .ok out → ∀ v ∈ out.shown, stored v ∨ ∃ x ∈ entry.2.1.operands, eqv x v = true) ∧ ∀ e, entry.2.2 = .error e → c.MayRaise e := by
  intro stored p
  obtain ⟨P, hP, herr, hof, hinv⟩ := Race.keeps_raises hc stored (fun _ => True) (n := 1) trivial fuel
  obtain ⟨h1, h2⟩ := Guarded.keeps (step := Race.SS.step S (c.race fuel) c.api) (I := (Race.SS.pact S stored P).inv)
    (A := fun op x => (∀ out, x = .ok out → ∀ v ∈ out.shown, stored v ∨ ∃ x ∈ op.operands, eqv x v = true) ∧ ∀ e, x = .error e → c.MayRaise e) (Race.SS.of c s) threads schedule
    ⟨fun v hv => ⟨v, hS.refl v, .inl hv⟩, hof _ (fun v hv => ⟨v, hS.refl v, .inr (.inl hv)⟩) trivial⟩ fun cs hcs op hop t x t' ht hx => by
      obtain ⟨k1, k2, k3⟩ := (Race.SS.safe_call hS hP (fun a b hab ⟨x, h1, h2⟩ => ⟨x, hS.trans _ _ _ h1 hab, h2⟩) op (fun _ _ => trivial) (herr ▸ SS.makes_raises hc hS)
        fun v hv => ⟨v, hS.refl v, .inr (.inr ⟨cs, hcs, op, hop, hv⟩)⟩).alone ht x t' hx
      exact ⟨k1, k2, fun e he => (k3 e he).elim (fun h => h ▸ c.mayRaise_key) fun h => herr ▸ h⟩
  exact ⟨fun e => ⟨(h1 e).1, (hinv _ (h1 e).2).1⟩, h2⟩

/-- C93: the same for a SortedDict: every value that the built-in dict or an answer shows belongs to a key that equals the one it was stored with, or passed to the call with. -/
theorem C93_dict_values {c : ListClass κ} {eqv : κ → κ → Bool} (hc : c.Sane) (he : IsEquiv eqv) (s : Verif.SD κ ν c.State) (hs : PyDict.Keyed eqv s.dict) (hkeys : ∀ k ∈ Verif.SD.iter c.api s, k ∈ PyDict.keys s.dict)
    (threads : List (List (SDOp κ ν))) (hok : ∀ cs ∈ threads, ∀ op ∈ cs, op.Valid) (fuel : Nat) (schedule : List Nat) :
    let stored := fun p => p ∈ s.dict ∨ ∃ cs ∈ threads, ∃ op ∈ cs, p ∈ op.given
    let p := (Race.SD.guarded c s threads).run (Race.SD.step eqv (c.race fuel) c.api) schedule
    (p.holder = none → (∀ k v, (k, v) ∈ p.shared.dict → (∃ w, stored (k, w)) ∧ ∃ k', stored (k', v) ∧ eqv k' k = true) ∧ ∀ k ∈ c.contents p.shared.list, ∃ v, stored (k, v)) ∧
    ∀ entry ∈ p.log, (∀ out, entry.2.2 = .ok out → out.From eqv (fun p => stored p ∨ p ∈ entry.2.1.operands) entry.2.1.asks) ∧ ∀ e, entry.2.2 = .error e → c.MayRaise e := by
  intro stored p
  obtain ⟨P, hP, herr, hof, hinv⟩ := Race.keeps_raises hc (fun k => ∃ v, stored (k, v)) (fun _ => True) (n := 1) trivial fuel
  obtain ⟨h1, h2⟩ := Guarded.keeps (step := Race.SD.step eqv (c.race fuel) c.api) (I := (Race.SD.pact eqv stored P).inv)
    (A := fun op x => (∀ out, x = .ok out → out.From eqv (fun p => stored p ∨ p ∈ op.operands) op.asks) ∧ ∀ e, x = .error e → c.MayRaise e) (Race.SD.of c s) threads schedule
    ⟨hs, fun p hp => FromItems.of he (.inl hp), hof _ (fun k hk => by obtain ⟨q, hq, rfl⟩ := List.mem_map.1 (hkeys k hk); exact ⟨q.2, .inl hq⟩) trivial⟩ fun cs hcs op hop t x t' ht hx => by
      obtain ⟨k1, k2, k3⟩ := (Race.SD.safe_call he hP op (fun _ _ => trivial) (hok cs hcs op hop) (herr ▸ SD.makes_raises hc he) fun p hp => .inr ⟨cs, hcs, op, hop, hp⟩).alone ht x t' hx
      exact ⟨k1, k2, fun e he => (k3 e he).elim (fun h => h ▸ c.mayRaise_key) fun h => herr ▸ h⟩
  exact ⟨fun e => ⟨fun k v hkv => (h1 e).2.1 _ hkv, (hinv _ (h1 e).2.2).1⟩, h2⟩

/-- C93: between calls, `clear()` makes the list as good as new, whatever comparisons did before: from then on, as long as comparisons are those of a total order, the answers of all calls are those of a
plain sorted list. -/
theorem C93_list_clear (E' : Env α) {E : Env α} {lt : α → α → Bool} (hE : E.Lawful lt) (s : St α α) (hload : 1 ≤ s.load) (threads : List (List (Op α))) (hreset : ∀ cs ∈ threads, ∀ load, .reset load ∈ cs → 1 ≤ load)
    (fuel : Nat) (schedule : List Nat) (ops : List (Op α)) (hops : ∀ op ∈ ops, op.Valid) :
    let p := (SL.guarded s threads).run (SL.step E' fuel) schedule
    let spec := runHist (Spec.step (Spec.Order.ofValues lt)) ops []
    let real := runHist (SL.api E).step (.clear :: ops) p.shared.view
    p.holder = none → real.1 = .ok .none :: spec.1 ∧ Core.iter real.2 = spec.2 := by
  intro p spec real hn
  have hS : (Race.free (1 ≤ ·) False).Suits E' := ⟨fun _ _ _ _ _ => trivial, fun _ _ _ => trivial, fun _ _ _ _ _ _ => trivial⟩
  have h1 : (Race.free (1 ≤ ·) False).Holds p.shared := (Guarded.keeps (step := SL.step E' fuel) (I := (Race.free (1 ≤ ·) False).Holds) (A := fun _ _ => True) (Shared.of s) threads schedule
    (Bounds.Holds.of s (fun _ _ _ _ => trivial) hload) fun cs hcs op hop t x t' ht hx =>
      ⟨(((Bounds.Safe.SL_step hS fuel op (fun h => h.elim) (fun _ _ => trivial) (fun load e => hreset cs hcs load (e ▸ hop)) (fun _ _ => trivial) t ht).alone ht).2 x t' hx).1, trivial⟩).1 hn
  obtain ⟨s', e, hi, h0⟩ := SL.clear_inv lt (s := p.shared.view) h1.2
  obtain ⟨k1, k2, _⟩ := (SL.api_lawful hE).hist ops hops hi
  have e' : (SL.api E).step .clear p.shared.view = (.ok .none, s') := by cases e; rfl
  rw [show (SL.api E).iter s' = [] from h0] at k1 k2
  simp only [real, spec, runHist, e', k1, true_and]
  exact k2

/-- C93: the same for a SortedKeyList. -/
theorem C93_key_list_clear (K' : KEnv α κ) {K : KEnv α κ} {key : α → κ} {klt : κ → κ → Bool} {veq : α → α → Bool} (hK : K.Lawful key klt veq) (s : St α κ) (hload : 1 ≤ s.load)
    (threads : List (List (KOp α κ))) (hreset : ∀ cs ∈ threads, ∀ load, .op (.reset load) ∈ cs → 1 ≤ load) (fuel : Nat) (schedule : List Nat) (ops : List (KOp α κ)) (hops : ∀ op ∈ ops, op.Valid) :
    let p := (SKL.guarded s threads).run (SKL.call K' fuel) schedule
    let spec := runHist (Spec.kstep key klt (Spec.Order.ofKey key klt veq K.vcmp)) ops []
    let real := runHist (SKL.kstep K) (.op .clear :: ops) p.shared.view
    p.holder = none → real.1 = .ok .none :: spec.1 ∧ Core.iter real.2 = spec.2 := by
  intro p spec real hn
  have hS : (Race.free (1 ≤ ·) False).KSuits K' := ⟨fun _ _ _ => trivial, fun _ _ _ _ _ => trivial, fun _ _ _ _ => trivial, fun _ _ _ => trivial, fun _ _ _ _ _ _ => trivial⟩
  have h1 : (Race.free (1 ≤ ·) False).Holds p.shared := (Guarded.keeps (step := SKL.call K' fuel) (I := (Race.free (1 ≤ ·) False).Holds) (A := fun _ _ => True) (Shared.of s) threads schedule
    (Bounds.Holds.of s (fun _ _ _ _ => trivial) hload) fun cs hcs op hop t x t' ht hx =>
      ⟨(((Bounds.Safe.SKL_call hS (fun _ _ _ _ _ => trivial) fuel op (fun h => h.elim) (fun _ _ => trivial) (fun load e => hreset cs hcs load (e ▸ hop)) (fun _ _ => trivial) t ht).alone ht).2 x t' hx).1, trivial⟩).1 hn
  obtain ⟨s', e, hi, h0⟩ := SKL.clear_inv key klt (s := p.shared.view) h1.2
  obtain ⟨k1, k2, _⟩ := Refines.hist ops (fun op ho => SKL.kstep_refines hK op (hops op ho)) hi
  have e' : SKL.kstep K (.op .clear) p.shared.view = (.ok .none, s') := by cases e; rfl
  rw [h0] at k1 k2
  simp only [real, spec, runHist, e', k1, true_and]
  exact k2

/-- If every call ends when it runs alone, and every thread has turns again and again, all calls of all threads end. -/
theorem Guarded.ends {σ γ β : Type} {step : γ → Task σ β} (s0 : σ) (threads : List (List γ)) (h : ∀ cs ∈ threads, ∀ c ∈ cs, ∀ s, ((step c).alone s).isSome) (schedule : Nat → Nat)
    (fair : ∀ i, i < threads.length → ∀ n, ∃ m, n ≤ m ∧ schedule m = i) :
    ∃ n, let p := ({ shared := s0, holder := none, waiting := threads, log := [] } : Guarded σ γ β).run step ((List.range n).map schedule)
      p.Done ∧ ∀ i, p.ended i = threads[i]?.getD [] := by
  obtain ⟨n, hn⟩ := fair_end (step := step) (s0 := s0) schedule fair fun is j c m e => by
    have ho := (Guarded.Orderly.start (step := step) s0 threads).run is
    obtain ⟨s, -, h2⟩ := ho.state
    rw [e] at h2
    obtain ⟨cs, hcs, hc⟩ := ho.mem.2 j c m e
    rw [show m.alone _ = _ from h2]
    exact h cs hcs c hc s
  exact ⟨n, hn, ended_all ((Guarded.Orderly.start _ threads).run _) hn⟩

/-- C93: threads that only add values to the list and look at it, under a lock, get all their calls done, whatever comparisons do: a call that raises gives the lock back. -/
theorem C93_list_adds (E : Env α) (s : St α α) (threads : List (List (Op α))) (hops : ∀ cs ∈ threads, ∀ op ∈ cs, op.stays = true) (fuel : Nat) (schedule : Nat → Nat)
    (fair : ∀ i, i < threads.length → ∀ n, ∃ m, n ≤ m ∧ schedule m = i) :
    ∃ n, let p := (SL.guarded s threads).run (SL.step E fuel) ((List.range n).map schedule)
      p.Done ∧ ∀ i, p.ended i = threads[i]?.getD [] := by
  have hS : (Race.free (fun _ => True) True).Suits E := ⟨fun _ _ _ _ _ => trivial, fun _ _ _ => trivial, fun _ _ _ _ _ _ => trivial⟩
  have hh : ∀ t : Shared α α, (Race.free (fun _ => True) True).Holds t := fun t => ⟨fun _ _ _ _ => trivial, trivial⟩
  exact Guarded.ends (step := SL.step E fuel) (Shared.of s) threads (fun cs hcs op hop t =>
    ((Bounds.Safe.SL_step hS fuel op (fun _ => hops cs hcs op hop) (fun _ _ => trivial) (fun _ _ => trivial) (fun _ _ => trivial) t (hh t)).alone (hh t)).1 trivial) schedule fair

/-- C93: the same for a SortedKeyList. -/
theorem C93_key_list_adds (K : KEnv α κ) (s : St α κ) (threads : List (List (KOp α κ))) (hops : ∀ cs ∈ threads, ∀ op ∈ cs, op.stays = true) (fuel : Nat) (schedule : Nat → Nat)
    (fair : ∀ i, i < threads.length → ∀ n, ∃ m, n ≤ m ∧ schedule m = i) :
    ∃ n, let p := (SKL.guarded s threads).run (SKL.call K fuel) ((List.range n).map schedule)
      p.Done ∧ ∀ i, p.ended i = threads[i]?.getD [] := by
  have hS : (Race.free (fun _ => True) True).KSuits K := ⟨fun _ _ _ => trivial, fun _ _ _ _ _ => trivial, fun _ _ _ _ => trivial, fun _ _ _ => trivial, fun _ _ _ _ _ _ => trivial⟩
  have hh : ∀ t : Shared α κ, (Race.free (fun _ => True) True).Holds t := fun t => ⟨fun _ _ _ _ => trivial, trivial⟩
  exact Guarded.ends (step := SKL.call K fuel) (Shared.of s) threads (fun cs hcs op hop t =>
    ((Bounds.Safe.SKL_call hS (fun _ _ _ _ _ => trivial) fuel op (fun _ => hops cs hcs op hop) (fun _ _ => trivial) (fun _ _ => trivial) (fun _ _ => trivial) t (hh t)).alone (hh t)).1 trivial) schedule fair

/-- C93: the same for a SortedSet: `add` and queries. -/
theorem C93_set_adds (S : SetOps τ α) (c : ListClass α) (s : Verif.SS τ c.State) (threads : List (List (SSOp α))) (hops : ∀ cs ∈ threads, ∀ op ∈ cs, op.stays c.hasKey = true) (fuel : Nat)
    (schedule : Nat → Nat) (fair : ∀ i, i < threads.length → ∀ n, ∃ m, n ≤ m ∧ schedule m = i) :
    ∃ n, let p := (Race.SS.guarded c s threads).run (Race.SS.step S (c.race fuel) c.api) ((List.range n).map schedule)
      p.Done ∧ ∀ i, p.ended i = threads[i]?.getD [] := by
  obtain ⟨R, hR⟩ := Race.lasts c fuel
  exact Guarded.ends (step := Race.SS.step S (c.race fuel) c.api) _ threads (fun cs hcs op hop t => (Race.SS.lasts_call hR op (hops cs hcs op hop) t).alone) schedule fair

/-- C93: the same for a SortedDict: `sd[key] = value`, `setdefault` and queries. -/
theorem C93_dict_adds (eqv : κ → κ → Bool) (c : ListClass κ) (s : Verif.SD κ ν c.State) (threads : List (List (SDOp κ ν))) (hops : ∀ cs ∈ threads, ∀ op ∈ cs, op.stays c.hasKey = true) (fuel : Nat)
    (schedule : Nat → Nat) (fair : ∀ i, i < threads.length → ∀ n, ∃ m, n ≤ m ∧ schedule m = i) :
    ∃ n, let p := (Race.SD.guarded c s threads).run (Race.SD.step eqv (c.race fuel) c.api) ((List.range n).map schedule)
      p.Done ∧ ∀ i, p.ended i = threads[i]?.getD [] := by
  obtain ⟨R, hR⟩ := Race.lasts c fuel
  exact Guarded.ends (step := Race.SD.step eqv (c.race fuel) c.api) _ threads (fun cs hcs op hop t => (Race.SD.lasts_call hR op (hops cs hcs op hop) t).alone) schedule fair

open Demo in
/-- C93: but an `ss.add(value)` in which a comparison raises does leave a trace: the value is a member then, and iteration does not yield it.  (Values below 0 cannot be compared with the others.) -/
theorem C93_set_add_trace : let p := (Race.SS.guarded (.plain mixedEnv) coldSet [[.add 25], [.add (-5), .len], [.iter]]).run (Race.SS.step (iset false) ((ListClass.plain mixedEnv).race 30) (ListClass.plain mixedEnv).api) lockSchedule
    p.log.map (fun e => (e.1, e.2.2)) = [(0, .ok .none), (1, .error .typeError), (2, .ok (.vals [10, 20, 25, 30, 40, 50, 60, 70])), (1, .ok (.int 9))] := by decide +kernel

open Demo in
/-- C93: so does `sd.setdefault(key, value)`: the key has its value then, and iteration does not yield it.  `sd[key] = value` does not. -/
theorem C93_dict_setdefault_trace : let p := (Race.SD.guarded (.plain mixedEnv) coldDict [[.setitem (-5) "x", .len], [.setdefault (-6) "y", .get (-6)], [.len, .iter]]).run (Race.SD.step (equiv ilt) ((ListClass.plain mixedEnv).race 30) (ListClass.plain mixedEnv).api) lockSchedule
    p.log.map (fun e => (e.1, e.2.2)) = [(0, .error .typeError), (1, .error .typeError), (2, .ok (.int 8)), (0, .ok (.int 8)), (1, .ok (.val "y")), (2, .ok (.keys [10, 20, 30, 40, 50, 60, 70]))] := by decide +kernel

/-! ## The hypotheses are met -/

namespace Demo

/-- Values below 0 cannot be compared with the others (`mixedEnv`): `add(-5)` and `add(-6)` raise TypeError. -/
def serialThreads : List (List (Op Int)) := [[.add 8, .add (-5), .len], [.add (-6), .add 2], [.iter, .add 9]]

/-- What comes of it. -/
example : let p := (SL.guarded sl serialThreads).run (SL.step mixedEnv 30) lockSchedule
    p.log.map (fun e => (e.1, e.2.2)) = [(0, .ok .none), (1, .error .typeError), (2, .ok (.vals [3, 3, 3, 4, 5, 7, 8, 8, 9])), (0, .error .typeError), (1, .ok .none), (2, .ok .none), (0, .ok (.int 11))] ∧
    p.shared.contents = [2, 3, 3, 3, 4, 5, 7, 8, 8, 9, 9] ∧ p.holder = none := by decide +kernel

example := C93_list mixedEnv sl serialThreads 30 lockSchedule
example := C93_list_values (E := mixedEnv) (fun xs ys h => mixedEnv_sane.perm xs ys h) sl serialThreads 30 lockSchedule
example := C93_list_clear mixedEnv intEnv_lawful sl (by decide +kernel) serialThreads (by simp [serialThreads]) 30 lockSchedule [.add 4, .iter] (by simp [Op.Valid])
example := C93_list_adds mixedEnv sl serialThreads (by simp [serialThreads, Op.stays]) 30 (· % 3) fun i hi n => ⟨n * 3 + i, by omega, by simp [serialThreads] at hi; omega⟩
example := C93_key_list_adds mixedKEnv skl (onKeys serialThreads) (by simp [onKeys, serialThreads, KOp.stays, Op.keyStays]) 30 (· % 3) fun i hi n => ⟨n * 3 + i, by omega, by simp [onKeys, serialThreads] at hi; omega⟩
example := C93_set_adds (iset false) intClass coldSet raceSetAdds (by simp [raceSetAdds, SSOp.stays, ListClass.hasKey, intClass]) 30 (· % 3) fun i hi n => ⟨n * 3 + i, by omega, by simp [raceSetAdds] at hi; omega⟩
example := C93_dict_adds (equiv ilt) intClass coldDict raceDictAdds (by simp [raceDictAdds, SDOp.stays]) 30 (· % 3) fun i hi n => ⟨n * 3 + i, by omega, by simp [raceDictAdds] at hi; omega⟩

/-- `mixedKEnv`: keys below 0 cannot be compared with the others, and there is no key for 7. -/
example := C93_key_list mixedKEnv skl (onKeys serialThreads) 30 lockSchedule
example := C93_key_list_values (K := mixedKEnv) (fun xs ys h => mixedKEnv_sane.perm xs ys h) skl (onKeys serialThreads) 30 lockSchedule
example := C93_key_list_clear mixedKEnv negEnv_lawful skl (by decide +kernel) (onKeys serialThreads) (by simp [onKeys, serialThreads]) 30 lockSchedule [.op (.add 4)] (by simp [KOp.Valid, Op.Valid])
example := C93_set (iset false) intClass coldSet raceSetAdds 30 lockSchedule
example := C93_dict (equiv ilt) intClass coldDict raceDictAdds 30 lockSchedule

example := C93_set_values (c := .plain mixedEnv) mixedEnv_sane (iset_lawful false) coldSet [[.add 25], [.add (-5), .len], [.iter]] 30 lockSchedule
example := C93_dict_values (c := .plain mixedEnv) mixedEnv_sane ieqv_equiv coldDict
  (by rw [PyDict.Keyed, show PyDict.keys coldDict.dict = [50, 10, 30, 20, 70, 40, 60] by decide +kernel]; simp [Distinct, equiv, ilt]) (by decide +kernel) raceDictAdds (by simp [raceDictAdds, SDOp.Valid]) 30 lockSchedule

/-- The same without the lock. -/
example := C91_set_values (c := .plain mixedEnv) mixedEnv_sane (iset_lawful false) coldSet [[.add 25], [.add (-5), .len], [.iter]] 30 raceTurns
example := C91_dict_values (c := .plain mixedEnv) mixedEnv_sane ieqv_equiv coldDict
  (by rw [PyDict.Keyed, show PyDict.keys coldDict.dict = [50, 10, 30, 20, 70, 40, 60] by decide +kernel]; simp [Distinct, equiv, ilt]) (by decide +kernel) raceDictAdds (by simp [raceDictAdds, SDOp.Valid]) 30 raceTurns

deriving instance DecidableEq for Unsupported
deriving instance DecidableEq for Op, KOp

/-- Without the first `add` that raises. -/
example := C93_list_add mixedEnv sl serialThreads 30 lockSchedule [(0, .add 8, .ok .none)]
  [(2, .iter, .ok (.vals [3, 3, 3, 4, 5, 7, 8, 8, 9])), (0, .add (-5), .error .typeError), (1, .add 2, .ok .none), (2, .add 9, .ok .none), (0, .len, .ok (.int 11))] 1 (-6) .typeError (by decide +kernel) (by decide) (by decide)

/-- An `add` for which the key function raises. -/
example := C93_key_list_add mixedKEnv skl [[.op (.add 8)], [.op (.add 7)], [.op (.add 9), .op .len]] 30 lockSchedule [(0, .op (.add 8), .ok .none)]
  [(2, .op (.add 9), .ok .none), (2, .op .len, .ok (.int 10))] 1 7 (.other 7) (by decide +kernel) (by decide) (by decide)

deriving instance DecidableEq for DictArg
deriving instance DecidableEq for SDOp

/-- An item assignment that raises. -/
example := C93_dict_setitem (equiv ilt) (.plain mixedEnv) coldDict [[.setitem (-5) "x", .len], [.setitem 25 "y"], [.len]] 30 lockSchedule [] [(1, .setitem 25 "y", .ok .none), (2, .len, .ok (.int 8)), (0, .len, .ok (.int 8))]
  0 (-5) "x" .typeError (by decide +kernel) (by decide) (by decide)

end Demo

end Verif
