import Verif.Props.SerialReadsSets
import Verif.Proofs.SerialQueries
/-!
# C93: threads that only query
-/

namespace Verif
variable {α κ : Type}
open Race

theorem Race.contents_start (s : St α κ) : (Shared.of s).contents = s.lists.flatten := by
  change (List.range s.lists.length).flatMap (fun a => s.lists.getD a []) = _
  rw [List.flatMap_def]
  congr 1
  refine List.ext_getElem (by simp) fun i h1 h2 => ?_
  simp [List.getD_eq_getElem?_getD, List.getElem?_eq_getElem h2]

/-- C93: threads that only query change nothing, whatever comparisons do, and whether they raise or not: between calls the list holds the values that it held, and `len` and iteration, both ways,
have always the same answers. -/
theorem C93_list_queries (E : Env α) (s : St α α) (threads : List (List (Op α))) (hq : ∀ cs ∈ threads, ∀ c ∈ cs, c.isQuery) (fuel : Nat) (schedule : List Nat) :
    let p := (SL.guarded s threads).run (SL.step E fuel) schedule
    (p.holder = none → p.shared.contents = s.lists.flatten ∧ p.shared.len = s.len) ∧
      ∀ e ∈ p.log, (e.2.1 = .len → e.2.2 = .ok (.int s.len)) ∧ (e.2.1 = .iter → e.2.2 = .ok (.vals s.lists.flatten)) ∧ (e.2.1 = .reversed → e.2.2 = .ok (.vals s.lists.flatten.reverse)) := by
  have h := Guarded.keeps (step := SL.step E fuel) (I := fun t => ∃ i o, t = { Shared.of s with index := i, offset := o })
    (A := fun c x => (c = .len → x = .ok (.int s.len)) ∧ (c = .iter → x = .ok (.vals s.lists.flatten)) ∧ (c = .reversed → x = .ok (.vals s.lists.flatten.reverse)))
    (Shared.of s) threads schedule ⟨_, _, rfl⟩ ?_
  · refine ⟨fun hn => ?_, h.2⟩
    obtain ⟨i, o, he⟩ := h.1 hn
    change ((SL.guarded s threads).run (SL.step E fuel) schedule).shared = _ at he
    rw [he]
    exact ⟨contents_start s, rfl⟩
  · rintro cs hcs c hc t x t' ⟨i, o, rfl⟩ he
    have hm : Mild (SL.step E fuel c) := by
      have := hq cs hcs c hc
      cases c <;> first
        | (cases this; done)
        | exact .map _ (.see _)
        | exact .map _ (.looks (SL.looks_contains E _))
        | exact .map _ (mild_getInt _ _)
        | exact .map _ (SL.mild_bisect E _ _)
        | exact .map _ (SL.mild_count E _)
        | exact .map _ (mild_getSlice _ _)
        | exact .map _ (mild_islice _ _ _ _)
        | exact .map _ (.looks (SL.looks_irange E _ _ _ _ _))
        | exact .map _ (SL.mild_index E _ _ _)
        | exact .map _ (.looks (looks_compare _ _ _))
        | exact .map _ (.bind (.see _) fun _ => .lift _)
        | exact .raise _
    obtain ⟨i', o', rfl⟩ := hm _ _ _ he
    refine ⟨⟨i', o', rfl⟩, ?_, ?_, ?_⟩
    · rintro rfl
      rw [show Task.alone (SL.step E fuel .len) { Shared.of s with index := i, offset := o } = some (Out.int <$> (if (s.len : Int) < 0 then .error .valueError else .ok (s.len : Int)), { Shared.of s with index := i, offset := o }) by rw [if_neg (by omega)]; rfl, if_neg (by omega)] at he
      cases he; rfl
    · rintro rfl
      rw [← contents_start s]
      exact (Prod.mk.inj (Option.some.inj he)).1.symm
    · rintro rfl
      rw [← contents_start s]
      exact (Prod.mk.inj (Option.some.inj he)).1.symm

/-- C93: the same for a SortedKeyList. -/
theorem C93_key_list_queries (K : KEnv α κ) (s : St α κ) (threads : List (List (KOp α κ))) (hq : ∀ cs ∈ threads, ∀ c ∈ cs, c.isQuery) (fuel : Nat) (schedule : List Nat) :
    let p := (SKL.guarded s threads).run (SKL.call K fuel) schedule
    (p.holder = none → p.shared.contents = s.lists.flatten ∧ p.shared.len = s.len) ∧
      ∀ e ∈ p.log, (e.2.1 = .op .len → e.2.2 = .ok (.int s.len)) ∧ (e.2.1 = .op .iter → e.2.2 = .ok (.vals s.lists.flatten)) ∧ (e.2.1 = .op .reversed → e.2.2 = .ok (.vals s.lists.flatten.reverse)) := by
  have h := Guarded.keeps (step := SKL.call K fuel) (I := fun t => ∃ i o, t = { Shared.of s with index := i, offset := o })
    (A := fun c x => (c = .op .len → x = .ok (.int s.len)) ∧ (c = .op .iter → x = .ok (.vals s.lists.flatten)) ∧ (c = .op .reversed → x = .ok (.vals s.lists.flatten.reverse)))
    (Shared.of s) threads schedule ⟨_, _, rfl⟩ ?_
  · refine ⟨fun hn => ?_, h.2⟩
    obtain ⟨i, o, he⟩ := h.1 hn
    change ((SKL.guarded s threads).run (SKL.call K fuel) schedule).shared = _ at he
    rw [he]
    exact ⟨contents_start s, rfl⟩
  · rintro cs hcs c hc t x t' ⟨i, o, rfl⟩ he
    have hm : Mild (SKL.call K fuel c) := by
      have := hq cs hcs c hc
      rcases c with c | _ | _ | _
      · cases c <;> first
          | (cases this; done)
          | exact .map _ (.see _)
          | exact .map _ (.looks (SKL.looks_contains K fuel _))
          | exact .map _ (mild_getInt _ _)
          | exact .map _ (.bind (.lift _) fun _ => SKL.mild_bisectKey K _ _)
          | exact .map _ (.looks (SKL.looks_count K fuel _))
          | exact .map _ (mild_getSlice _ _)
          | exact .map _ (mild_islice _ _ _ _)
          | exact .map _ (.looks (SKL.looks_irange K _ _ _ _ _))
          | exact .map _ (SKL.mild_index K fuel _ _ _)
          | exact .map _ (.looks (looks_compare _ _ _))
          | exact .map _ (.bind (.see _) fun _ => .lift _)
          | exact .raise _
      · exact .map _ (SKL.mild_bisectKey K _ _)
      · exact .map _ (SKL.mild_bisectKey K _ _)
      · exact .map _ (.looks (SKL.looks_irangeKey K _ _ _ _ _))
    obtain ⟨i', o', rfl⟩ := hm _ _ _ he
    refine ⟨⟨i', o', rfl⟩, ?_, ?_, ?_⟩
    · rintro rfl
      rw [show Task.alone (SKL.call K fuel (.op .len)) { Shared.of s with index := i, offset := o } = some (Out.int <$> (if (s.len : Int) < 0 then .error .valueError else .ok (s.len : Int)), { Shared.of s with index := i, offset := o }) by rw [if_neg (by omega)]; rfl, if_neg (by omega)] at he
      cases he; rfl
    · rintro rfl
      rw [← contents_start s]
      exact (Prod.mk.inj (Option.some.inj he)).1.symm
    · rintro rfl
      rw [← contents_start s]
      exact (Prod.mk.inj (Option.some.inj he)).1.symm

/-! ## The hypotheses can be met -/

namespace Demo

/-- Three threads that only query; the `count` and the `index` raise. -/
def queryCalls : List (List (Op Int)) := [[.getInt 5, .iter], [.count (-6), .len], [.index (-3) none none, .reversed]]
example := C93_list_queries mixedEnv sl queryCalls (by simp [queryCalls, Op.isQuery]) 30 lockSchedule
example : ((SL.guarded sl queryCalls).run (SL.step mixedEnv 30) lockSchedule).log.map (fun e => (e.1, e.2.2)) = [(0, .ok (.val 7)), (1, .error .typeError), (2, .error .typeError),
    (0, .ok (.vals [3, 3, 3, 4, 5, 7, 8, 9])), (1, .ok (.int 8)), (2, .ok (.vals [9, 8, 7, 5, 4, 3, 3, 3]))] := by decide +kernel

def keyQueryCalls : List (List (KOp Int Int)) := [[.op (.getInt 5), .op .iter], [.op (.count (-6)), .op .len], [.bisectKeyLeft 3, .irangeKey none (some 4) true true true]]
example := C93_key_list_queries mixedKEnv skl keyQueryCalls (by simp [keyQueryCalls, KOp.isQuery, Op.isQuery]) 30 lockSchedule
example : ((SKL.guarded skl keyQueryCalls).run (SKL.call mixedKEnv 30) lockSchedule).log.map (fun e => (e.1, e.2.2)) = [(0, .ok (.val 44)), (1, .error .typeError), (2, .ok (.int 0)),
    (0, .ok (.vals [31, 35, 31, 33, 38, 44, 52, 97])), (1, .ok (.int 8)), (2, .ok (.vals [44, 38, 33, 31, 35, 31]))] := by decide +kernel

end Demo
end Verif
