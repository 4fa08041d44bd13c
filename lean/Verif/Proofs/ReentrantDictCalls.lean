import Verif.Proofs.ReentrantDicts
/-!
# Calls on a sorted dict whose comparisons and key function query it
-/

namespace Verif
namespace Reent
variable {σ W κ ν β : Type}

namespace SD
variable {eqv : κ → κ → Bool} {c : ListClass κ} {C : c.Code (SDQuery κ ν) (DOut κ ν)} {O : Spec.Order κ} {I : c.State → Prop}
  {d0 : List (κ × ν)} {s0 : c.State} {D : Nat}

theorem inner_yields {J : W → Prop} {m : RPy W (SD κ ν c.State) β} {x : Except PyErr β}
    (h : ∀ p, Same c.Reindexed I d0 s0 p.1 → J p.2 → (m p).1 = x ∧ Same c.Reindexed I d0 s0 (m p).2.1 ∧ J (m p).2.2) :
    Yields c.Reindexed I (fun w => w.1 = d0 ∧ J w.2) s0 (inner m) x := by
  intro p hp
  obtain ⟨e, h1, h2⟩ := h (⟨p.2.1, p.1⟩, p.2.2) ⟨hp.world.1, hp.re, hp.inv⟩ hp.world.2
  exact ⟨e, h1.re, h1.inv, h1.dict, h2⟩

/-- The methods of `_list`, at any depth, in the middle of a call: the built-in dict is `d0` and the list is `s0`. -/
theorem list_mimics (h : Verif.SD.Good c.api O eqv I) (hs : c.api.Settled c.Reindexed) (hc : SS.Copies c I)
    (hr : c.Right C fun q => reply eqv O q.1 d0 (c.api.iter s0)) (hq : c.Quiet C D) (old : List (SDQuery κ ν × Except PyErr (DOut κ ν))) :
    ∀ n d, n + d = D → (list eqv c C n d).Mimics c.api c.Reindexed I
      (fun w => w.1 = d0 ∧ Answered (fun q : SDQuery κ ν => reply eqv O q.1 d0 (c.api.iter s0)) old w.2) s0 := by
  intro n
  induction n with
  | zero =>
    intro d hd
    refine hc C _ D _ s0 d _ hr hq fun code x hx hdone => inner_yields fun p hp hJ => ?_
    exact calling_silent (P := Same c.Reindexed I d0 s0) hx (hdone (by omega)) p hp hJ
  | succ n ih =>
    intro d hd
    refine hc C _ D _ s0 d _ hr hq fun code x hx _ => inner_yields fun p hp hJ => ?_
    exact calling_holds (P := Same c.Reindexed I d0 s0) (fun q p hp hJ => query_same h hs (ih (d + 1) (by omega)) q.1 q.2 hp hJ) hx p hp hJ

theorem query_valid {op : SDOp κ ν} (hq : op.isQuery = true) : op.Valid := by
  cases op <;> first | trivial | (cases hq; done)

theorem reply_spec (h : Verif.SD.Good c.api O eqv I) {s : SD κ ν c.State} (hi : Verif.SD.Inv c.api O eqv I s) (q : SDQuery κ ν) :
    reply eqv O q.1 s.dict (c.api.iter s.list) = (DictSpec.step eqv O q.1 s.dict).1 := by
  rw [← step_reply h q.1 q.2 hi.list]
  exact (Verif.SD.step_refines h q.1 (query_valid q.2) s hi).1

/-- What the client's code is told during a call. -/
theorem told (h : Verif.SD.Good c.api O eqv I) {s : SD κ ν c.State} (hi : Verif.SD.Inv c.api O eqv I s) (op : SDOp κ ν) (q : SDQuery κ ν) :
    reply eqv O q.1 (meanwhile eqv op s.dict) (c.api.iter s.list) = DictSpec.during eqv O op s.dict q := by
  have hkey : ∀ x ∈ q.1.valuesOf (DictSpec.sortedKeys O s.dict), ∃ v, PyDict.lookup eqv s.dict x = some v := fun x hx => by
    obtain ⟨v, hv⟩ := DictSpec.sortedKeys_lookup h.order h.equiv s.dict (valuesOf_sub _ _ x hx)
    exact ⟨v, hv⟩
  cases op with
  | setdefault k v =>
    obtain ⟨-, r2, r3⟩ := Verif.SD.step_refines h (.setdefault k v) trivial s hi
    by_cases hm : PyDict.has eqv s.dict k = true
    · obtain ⟨x, hx⟩ := PyDict.lookup_some hm
      have e : (DictSpec.step eqv O (.setdefault k v) s.dict).2 = s.dict := by
        simp only [DictSpec.step, DictSpec.out, Py.bind_apply, DictSpec.setdefault, hx]; rfl
      simp only [DictSpec.during, e, meanwhile, hm, if_true, ite_self]
      exact reply_spec h hi q
    · have hm : PyDict.has eqv s.dict k = false := by simpa using hm
      have e : (DictSpec.step eqv O (.setdefault k v) s.dict).2 = PyDict.set eqv s.dict k v := by
        simp only [DictSpec.step, DictSpec.out, Py.bind_apply, DictSpec.setdefault, PyDict.lookup_none hm]; rfl
      simp only [DictSpec.during, e, meanwhile, hm, if_false, Bool.false_eq_true]
      rw [e] at r2
      split
      · next ha =>
        rw [← r2, ← reply_spec h r3 q]
        exact reply_store q.1 ha _ _ _
      · next ha =>
        rw [← reply_spec h hi q]
        refine reply_agree q.1 (by simpa using ha) fun x hx => ?_
        rw [hi.iter] at hx
        obtain ⟨w, hw⟩ := hkey x hx
        unfold PyDict.getitem
        rw [PyDict.lookup_set h.equiv, if_neg]
        intro hk
        have hx := PyDict.has_eq_lookup (eqv := eqv) s.dict x
        rw [hw, PyDict.has_eq, ← any_congr_eqv h.equiv hk, ← PyDict.has_eq, hm] at hx
        cases hx
  | delitem k =>
    obtain ⟨-, r2, r3⟩ := Verif.SD.step_refines h (.delitem k) trivial s hi
    have e : (DictSpec.step eqv O (.delitem k) s.dict).2 = PyDict.erase eqv s.dict k := by
      simp only [DictSpec.step, DictSpec.out, Py.bind_apply, DictSpec.delitem]
      by_cases hm : PyDict.has eqv s.dict k = true
      · rw [if_pos hm]; rfl
      · rw [if_neg hm]; exact (PyDict.erase_absent (by simpa using hm)).symm
    rw [e] at r2
    simp only [DictSpec.during, meanwhile]
    split
    · next ha =>
      rw [← r2, ← reply_spec h r3 q]
      exact reply_store q.1 ha _ _ _
    · next ha =>
      rw [hi.iter]
      split
      · next hany =>
        obtain ⟨x, hx, hk⟩ := List.any_eq_true.1 hany
        refine reply_missing q.1 hx ?_
        unfold PyDict.getitem
        rw [PyDict.lookup_erase h.equiv, if_pos (by rw [h.equiv.symm]; exact hk)]
      · next hany =>
        rw [← reply_spec h hi q, hi.iter]
        refine reply_agree q.1 (by simpa using ha) fun x hx => ?_
        unfold PyDict.getitem
        rw [PyDict.lookup_erase h.equiv, if_neg]
        intro hk
        exact hany (List.any_eq_true.2 ⟨x, hx, by rw [h.equiv.symm]; exact hk⟩)
  | _ => exact reply_spec h hi q

/-- One call that does not rebuild the list. -/
theorem call_ok (h : Verif.SD.Good c.api O eqv I) (hs : c.api.Settled c.Reindexed) (hc : SS.Copies c I)
    (hC : c.HonestDict C eqv O) (hq : c.Quiet C D) (op : SDOp κ ν) (hb : op.bulk = false) (hv : op.Valid)
    (p : SD κ ν c.State × Seen (SDQuery κ ν) (DOut κ ν)) (hi : Verif.SD.Inv c.api O eqv I p.1) :
    let call := step eqv c.api (list eqv c C D 0) op p
    call.1 = (DictSpec.step eqv O op p.1.dict).1 ∧
    call.2.1.dict = (DictSpec.step eqv O op p.1.dict).2 ∧
    Verif.SD.Inv c.api O eqv I call.2.1 ∧
    Answered (DictSpec.during eqv O op p.1.dict) p.2.answers call.2.2 := by
  intro call
  have hright := hC op p.1.dict hb hi.keyed
  have htold : (fun q : SDQuery κ ν => reply eqv O q.1 (meanwhile eqv op p.1.dict) (c.api.iter p.1.list)) = DictSpec.during eqv O op p.1.dict := by
    funext q; exact told h hi op q
  have hL : (list eqv c C D 0).Mimics c.api c.Reindexed I
      (fun w => w.1 = meanwhile eqv op p.1.dict ∧ Answered (DictSpec.during eqv O op p.1.dict) p.2.answers w.2) p.1.list := by
    have := list_mimics (D := D) (d0 := meanwhile eqv op p.1.dict) (s0 := p.1.list) h hs hc (by rw [htold]; exact hright) hq p.2.answers D 0 rfl
    rw [htold] at this
    exact this
  have hold : Answered (DictSpec.during eqv O op p.1.dict) p.2.answers p.2 := ⟨[], rfl, nofun⟩
  by_cases ho : op.isQuery = true
  · have hm : meanwhile eqv op p.1.dict = p.1.dict := by
      cases op <;> first | rfl | (cases ho; done)
    rw [hm] at hL
    obtain ⟨e, h1, h2⟩ := query_same h hs hL op ho ⟨rfl, hs.refl _, hi.list⟩ hold
    refine ⟨e.trans (reply_spec h hi ⟨op, ho⟩), h1.dict.trans (DictSpec.query_kept op ho _).symm, ⟨h1.inv, ?_, ?_⟩, h2⟩
    · rw [h1.dict]; exact hi.keyed
    · rw [h1.dict]; exact (hs.iter h1.re).trans hi.iter
  · obtain ⟨l, w', hre, hI, hJ, e⟩ := call_ends (W := Seen (SDQuery κ ν) (DOut κ ν)) hs op (by simpa using ho) hb hi.list hold hL
    have hi' : Verif.SD.Inv c.api O eqv I ⟨p.1.dict, l⟩ := ⟨hI, hi.keyed, (hs.iter hre).trans hi.iter⟩
    obtain ⟨q1, q2, q3⟩ := Verif.SD.step_refines h op hv _ hi'
    have e : call = _ := e
    rw [e]
    exact ⟨q1, q2, q3, hJ⟩

end SD
end Reent
end Verif
