import Verif.Props.SerialQueries
/-!
# C93: threads that only query a set or dict
-/

namespace Verif
variable {α κ ν τ σ β γ δ : Type}
open Race

/-- The task, run alone, leaves `f` of the object as it is. -/
def Task.Fixes (f : σ → δ) (m : Task σ β) : Prop := ∀ s x s', m.alone s = some (x, s') → f s' = f s

theorem Task.Fixes.looks {f : σ → δ} {m : Task σ β} (h : m.Looks) : m.Fixes f := fun s x s' e => by rw [h s x s' e]

theorem Task.Fixes.bind {f : σ → δ} {m : Task σ β} {g : β → Task σ γ} (h : m.Fixes f) (hg : ∀ b, (g b).Fixes f) : (m >>= g).Fixes f := by
  intro s x s' e
  rw [Task.alone_bind'] at e
  cases hm : m.alone s with
  | none => rw [hm] at e; cases e
  | some y =>
    obtain ⟨y, t⟩ := y
    rw [hm] at e
    cases y with
    | ok b => exact (hg b _ _ _ e).trans (h _ _ _ hm)
    | error e' => cases e; exact h _ _ _ hm

theorem Task.Fixes.map {f : σ → δ} {m : Task σ β} (g : β → γ) (h : m.Fixes f) : (g <$> m).Fixes f := .bind h fun _ => .looks (.pure _)

theorem Race.Mild.fixes {m : Run α κ β} (h : Mild m) : m.Fixes Shared.contents := fun s x s' e => by obtain ⟨i, o, rfl⟩ := h s x s' e; rfl

/-- The queries of the list inside. -/
structure Race.Fixed (c : ListClass α) (fuel : Nat) : Prop where
  getInt i : ((c.race fuel).getInt i).Fixes c.contents
  getSlice sl : ((c.race fuel).getSlice sl).Fixes c.contents
  bisectLeft v : ((c.race fuel).bisectLeft v).Fixes c.contents
  bisectRight v : ((c.race fuel).bisectRight v).Fixes c.contents
  index v a b : ((c.race fuel).index v a b).Fixes c.contents
  irange lo hi a b r : ((c.race fuel).irange lo hi a b r).Fixes c.contents
  islice a b r : ((c.race fuel).islice a b r).Fixes c.contents
  toList : (c.race fuel).toList.Fixes c.contents

theorem Race.fixed (c : ListClass α) (fuel : Nat) : Fixed c fuel := by
  cases c with
  | plain E => exact ⟨fun _ => (mild_getInt _ _).fixes, fun _ => (mild_getSlice _ _).fixes, fun _ => (SL.mild_bisect _ _ _).fixes, fun _ => (SL.mild_bisect _ _ _).fixes,
      fun _ _ _ => (SL.mild_index _ _ _ _).fixes, fun _ _ _ _ _ => .looks (SL.looks_irange _ _ _ _ _ _), fun _ _ _ => (mild_islice _ _ _ _).fixes, .looks (.see _)⟩
  | keyed K => exact ⟨fun _ => (mild_getInt _ _).fixes, fun _ => (mild_getSlice _ _).fixes, fun _ => (Mild.bind (.lift _) fun _ => SKL.mild_bisectKey _ _ _).fixes,
      fun _ => (Mild.bind (.lift _) fun _ => SKL.mild_bisectKey _ _ _).fixes,
      fun _ _ _ => (SKL.mild_index _ _ _ _ _).fixes, fun _ _ _ _ _ => .looks (SKL.looks_irange _ _ _ _ _ _), fun _ _ _ => (mild_islice _ _ _ _).fixes, .looks (.see _)⟩

theorem Race.SS.fixes_onList {f : σ → δ} {m : Task σ β} (h : m.Fixes f) : (SS.onList m : Task (Verif.SS τ σ) β).Fixes fun s => (s.set, f s.list) := by
  intro s x s' he
  rw [SS.alone_onList] at he
  cases hm : m.alone s.list with
  | none => rw [hm] at he; cases he
  | some y =>
    obtain ⟨y, t⟩ := y
    rw [hm] at he
    cases he
    exact congrArg _ (h _ _ _ hm)

theorem Race.SD.fixes_onList {f : σ → δ} {m : Task σ β} (h : m.Fixes f) : (SD.onList m : Task (Verif.SD κ ν σ) β).Fixes fun s => (s.dict, f s.list) := by
  intro s x s' he
  rw [SD.alone_onList] at he
  cases hm : m.alone s.list with
  | none => rw [hm] at he; cases he
  | some y =>
    obtain ⟨y, t⟩ := y
    rw [hm] at he
    cases he
    exact congrArg _ (h _ _ _ hm)

theorem Race.contents_memory (c : ListClass α) (s : c.State) : c.contents (c.memory s) = c.api.iter s := by
  cases c <;> exact contents_start s

theorem Race.alone_race_toList (c : ListClass α) (fuel : Nat) (s : c.Memory) : (c.race fuel).toList.alone s = some (.ok (c.contents s), s) := by cases c <;> rfl

/-- C93: threads that only query a SortedSet change nothing, whatever comparisons do, and whether they raise or not: between calls it has the members that it had and the list inside the same values,
and `len`, `in` and iteration have always the same answers. -/
theorem C93_set_queries (S : SetOps τ α) (c : ListClass α) (s : Verif.SS τ c.State) (threads : List (List (SSOp α))) (hq : ∀ cs ∈ threads, ∀ o ∈ cs, o.isQuery) (fuel : Nat) (schedule : List Nat) :
    let p := (Race.SS.guarded c s threads).run (Race.SS.step S (c.race fuel) c.api) schedule
    (p.holder = none → p.shared.set = s.set ∧ c.contents p.shared.list = Verif.SS.iter c.api s) ∧
      ∀ e ∈ p.log, (e.2.1 = .len → e.2.2 = .ok (.int (S.len s.set))) ∧ (∀ v, e.2.1 = .contains v → e.2.2 = .ok (.bool (S.mem v s.set))) ∧
        (e.2.1 = .iter → e.2.2 = .ok (.vals (Verif.SS.iter c.api s))) := by
  have h := Guarded.keeps (step := Race.SS.step S (c.race fuel) c.api) (I := fun t => (t.set, c.contents t.list) = (s.set, c.api.iter s.list))
    (A := fun o x => (o = .len → x = .ok (.int (S.len s.set))) ∧ (∀ v, o = .contains v → x = .ok (.bool (S.mem v s.set))) ∧ (o = .iter → x = .ok (.vals (Verif.SS.iter c.api s))))
    (Race.SS.of c s) threads schedule (congrArg _ (contents_memory c s.list)) ?_
  · exact ⟨fun hn => Prod.mk.inj (h.1 hn), h.2⟩
  · rintro cs hcs o ho t x t' ht he
    have F := fixed c fuel
    have hm : (Race.SS.step S (c.race fuel) c.api o : Task (Verif.SS τ c.Memory) _).Fixes fun s => (s.set, c.contents s.list) := by
      have := hq cs hcs o ho
      cases o <;> first
        | (cases this; done)
        | exact .map _ (.looks (.see _))
        | exact .map _ (Race.SS.fixes_onList (F.getInt _))
        | exact .map _ (Race.SS.fixes_onList (F.getSlice _))
        | exact .map _ (Race.SS.fixes_onList (F.bisectLeft _))
        | exact .map _ (Race.SS.fixes_onList (F.bisectRight _))
        | exact .map _ (Race.SS.fixes_onList (F.index _ _ _))
        | exact .map _ (Race.SS.fixes_onList (F.irange _ _ _ _ _))
        | exact .map _ (Race.SS.fixes_onList (F.islice _ _ _))
        | exact .map _ (Race.SS.fixes_onList F.toList)
        | exact .bind (.looks (.see _)) fun _ => .map _ (.looks (.lift _))
        | exact .bind (Race.SS.fixes_onList F.toList) fun _ => .map _ (.looks (.lift _))
    obtain ⟨h1, h2⟩ := Prod.mk.inj ht
    refine ⟨(hm _ _ _ he).trans ht, ?_, ?_, ?_⟩
    · rintro rfl
      rw [← h1]
      exact (Prod.mk.inj (Option.some.inj he)).1.symm
    · rintro v rfl
      rw [← h1]
      exact (Prod.mk.inj (Option.some.inj he)).1.symm
    · rintro rfl
      change _ = Except.ok (Out.vals (c.api.iter s.list))
      rw [← h2]
      change (Race.SS.onList (c.race fuel).toList >>= fun l => Pure.pure (Out.vals l)).alone t = _ at he
      rw [Task.alone_bind', Race.SS.alone_onList, alone_race_toList] at he
      exact (Prod.mk.inj (Option.some.inj he)).1.symm

theorem Race.SD.fixes_mapEach {f : Verif.SD κ ν σ → δ} {g : κ → Task (Verif.SD κ ν σ) β} (h : ∀ k, (g k).Fixes f) : ∀ ks, (SD.mapEach g ks).Fixes f
  | [] => .looks (.pure _)
  | k :: ks => .bind (h k) fun _ => .bind (fixes_mapEach h ks) fun _ => .looks (.pure _)

/-- C93: the same for a SortedDict. -/
theorem C93_dict_queries (eqv : κ → κ → Bool) (c : ListClass κ) (s : Verif.SD κ ν c.State) (threads : List (List (SDOp κ ν))) (hq : ∀ cs ∈ threads, ∀ o ∈ cs, o.isQuery) (fuel : Nat)
    (schedule : List Nat) :
    let p := (Race.SD.guarded c s threads).run (Race.SD.step eqv (c.race fuel) c.api) schedule
    (p.holder = none → p.shared.dict = s.dict ∧ c.contents p.shared.list = Verif.SD.iter c.api s) ∧
      ∀ e ∈ p.log, (e.2.1 = .len → e.2.2 = .ok (.int s.dict.length)) ∧ (∀ k, e.2.1 = .getitem k → e.2.2 = (PyDict.getitem eqv s.dict k).map .val) ∧
        (e.2.1 = .iter → e.2.2 = .ok (.keys (Verif.SD.iter c.api s))) := by
  have h := Guarded.keeps (step := Race.SD.step eqv (c.race fuel) c.api) (I := fun t => (t.dict, c.contents t.list) = (s.dict, c.api.iter s.list))
    (A := fun o x => (o = .len → x = .ok (.int s.dict.length)) ∧ (∀ k, o = .getitem k → x = (PyDict.getitem eqv s.dict k).map .val) ∧ (o = .iter → x = .ok (.keys (Verif.SD.iter c.api s))))
    (Race.SD.of c s) threads schedule (congrArg _ (contents_memory c s.list)) ?_
  · exact ⟨fun hn => Prod.mk.inj (h.1 hn), h.2⟩
  · rintro cs hcs o ho t x t' ht he
    have F := fixed c fuel
    have pairs : ∀ ks, (Race.SD.mapEach (fun k => do let v ← Race.SD.getitem eqv k; pure (k, v)) ks : Task (Verif.SD κ ν c.Memory) (List (κ × ν))).Fixes fun s => (s.dict, c.contents s.list) :=
      Race.SD.fixes_mapEach fun _ => .bind (.looks (.see _)) fun _ => .looks (.pure _)
    have vals : ∀ ks, (Race.SD.mapEach (Race.SD.getitem eqv) ks : Task (Verif.SD κ ν c.Memory) (List ν)).Fixes fun s => (s.dict, c.contents s.list) :=
      Race.SD.fixes_mapEach fun _ => .looks (.see _)
    have hm : (Race.SD.step eqv (c.race fuel) c.api o : Task (Verif.SD κ ν c.Memory) _).Fixes fun s => (s.dict, c.contents s.list) := by
      have := hq cs hcs o ho
      cases o <;> first
        | (cases this; done)
        | exact .map _ (.looks (.see _))
        | exact .map _ (Race.SD.fixes_onList (F.getInt _))
        | exact .map _ (Race.SD.fixes_onList (F.getSlice _))
        | exact .map _ (Race.SD.fixes_onList (F.bisectLeft _))
        | exact .map _ (Race.SD.fixes_onList (F.bisectRight _))
        | exact .map _ (Race.SD.fixes_onList (F.index _ _ _))
        | exact .map _ (Race.SD.fixes_onList (F.irange _ _ _ _ _))
        | exact .map _ (Race.SD.fixes_onList (F.islice _ _ _))
        | exact .map _ (Race.SD.fixes_onList F.toList)
        | exact .map _ (.bind (Race.SD.fixes_onList F.toList) pairs)
        | exact .map _ (.bind (Race.SD.fixes_onList F.toList) vals)
        | exact .map _ (.bind (Race.SD.fixes_onList (F.getSlice _)) pairs)
        | exact .map _ (.bind (Race.SD.fixes_onList (F.getSlice _)) vals)
        | exact .map _ (.bind (Race.SD.fixes_onList (F.getInt _)) fun _ => .looks (.see _))
        | exact .map _ (.bind (Race.SD.fixes_onList (F.getInt _)) fun _ => .bind (.looks (.see _)) fun _ => .looks (.pure _))
        | exact .bind (.bind (Race.SD.fixes_onList F.toList) pairs) fun _ => .map _ (.looks (.lift _))
    obtain ⟨h1, h2⟩ := Prod.mk.inj ht
    refine ⟨(hm _ _ _ he).trans ht, ?_, ?_, ?_⟩
    · rintro rfl
      rw [← h1]
      exact (Prod.mk.inj (Option.some.inj he)).1.symm
    · rintro k rfl
      rw [← h1]
      change (Race.SD.getitem eqv k >>= fun l => Pure.pure (DOut.val l)).alone t = _ at he
      rw [Task.alone_bind', show (Race.SD.getitem eqv k).alone t = some (PyDict.getitem eqv t.dict k, t) from rfl] at he
      cases hg : PyDict.getitem eqv t.dict k <;> (rw [hg] at he; exact (Prod.mk.inj (Option.some.inj he)).1.symm)
    · rintro rfl
      change _ = Except.ok (DOut.keys (c.api.iter s.list))
      rw [← h2]
      change (Race.SD.onList (c.race fuel).toList >>= fun l => Pure.pure (DOut.keys l)).alone t = _ at he
      rw [Task.alone_bind', Race.SD.alone_onList, alone_race_toList] at he
      exact (Prod.mk.inj (Option.some.inj he)).1.symm

/-! ## The hypotheses can be met -/

namespace Demo

/-- Three threads that only query; two calls raise. -/
def setQueryCalls : List (List (SSOp Int)) := [[.getInt 5, .iter], [.contains 30, .irange (some (-5)) none true true false], [.index (-3) none none, .len]]
example := C93_set_queries (iset false) (.plain mixedEnv) coldSet setQueryCalls (by simp [setQueryCalls, SSOp.isQuery]) 30 lockSchedule
example : ((Race.SS.guarded (.plain mixedEnv) coldSet setQueryCalls).run (Race.SS.step (iset false) ((ListClass.plain mixedEnv).race 30) (ListClass.plain mixedEnv).api) lockSchedule).log.map (fun e => (e.1, e.2.2)) =
    [(0, .ok (.val 60)), (1, .ok (.bool true)), (2, .error .typeError), (0, .ok (.vals [10, 20, 30, 40, 50, 60, 70])),
    (1, .error .typeError), (2, .ok (.int 7))] := by decide +kernel

def dictQueryCalls : List (List (SDOp Int String)) := [[.peekitem 5, .iter], [.getitem 30, .irange (some (-5)) none true true false], [.getitem 99, .len]]
example := C93_dict_queries (equiv ilt) (.plain mixedEnv) coldDict dictQueryCalls (by simp [dictQueryCalls, SDOp.isQuery]) 30 lockSchedule
example : ((Race.SD.guarded (.plain mixedEnv) coldDict dictQueryCalls).run (Race.SD.step (equiv ilt) ((ListClass.plain mixedEnv).race 30) (ListClass.plain mixedEnv).api) lockSchedule).log.map (fun e => (e.1, e.2.2)) =
    [(0, .ok (.item 60 "f")), (1, .ok (.val "c")), (2, .error .keyError), (0, .ok (.keys [10, 20, 30, 40, 50, 60, 70])),
    (1, .error .typeError), (2, .ok (.int 7))] := by decide +kernel

end Demo
end Verif
