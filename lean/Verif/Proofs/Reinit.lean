import Verif.Model.Reinit
import Verif.Proofs.Ctor
import Verif.Proofs.Views
import Verif.Props.Gen
/-!
# `__init__` called again: lemmas
-/

namespace Verif
variable {F κ ν σ : Type}

namespace SD
variable {eqv : κ → κ → Bool} {L : ListAPI σ κ} {O : Spec.Order κ} {I : σ → Prop}
open PyDict DictSpec

/-- The items that `update` sees as a dict are those given, without repetitions. -/
theorem pairsOf_given {args : List (DArg F κ ν)} {kwargs items : List (κ × ν)}
    (hg : DictSpec.given args kwargs = .ok items) (hd : ∀ a ∈ args, ∀ its, a.dict? = some its → Keyed eqv its) :
    pairsOf eqv (DictArg.ofCall args kwargs) = .ok (ofPairs eqv items) := by
  have hb := builtinPairs_ok hg
  unfold DictArg.ofCall
  split
  · rename_i its
    have : items = its := by simpa [builtinPairs] using (congrArg Prod.fst hb).symm
    rw [this, update_nil_keyed (hd _ (List.mem_singleton.2 rfl) its rfl)]; rfl
  · rename_i f its
    have : items = its := by simpa [builtinPairs] using (congrArg Prod.fst hb).symm
    rw [this, update_nil_keyed (hd _ (List.mem_singleton.2 rfl) its rfl)]; rfl
  · rw [hb]; rfl

/-- An update that rebuilds the list makes the dict whole, whatever the list held. -/
theorem update_rebuild (h : Good L O eqv I) {d : List (κ × ν)} {l : σ} (hi : I l) (hk : Keyed eqv d) (hne : d ≠ [])
    {arg : DictArg κ ν} {pairs : List (κ × ν)} (hp : pairsOf eqv arg = .ok pairs) (hlen : 10 * pairs.length > d.length) :
    ∃ s', update eqv L arg { dict := d, list := l } = (.ok (), s') ∧ s'.dict = PyDict.update eqv d pairs ∧
      Inv L O eqv I s' := by
  have h0 : ¬ d.length = 0 := fun e => hne (List.length_eq_zero_iff.1 e)
  unfold update
  simp only [Py.get_bind, h0, if_false, hp, Py.lift_ok_bind, hlen, if_true]
  simp only [dictUpdate, DictArg.fail, DictArg.items, onDict, Py.bind_assoc', Py.modify_bind, Py.pure_bind']
  obtain ⟨l', e, h1, h2⟩ := onList_run (s := ({ dict := PyDict.update eqv d pairs, list := l } : SD κ ν σ))
    h.list.clear hi rfl
  rw [Py.bind_ok e]
  simp only [Py.get_bind]
  obtain ⟨l2, e2, h3, h4⟩ := onList_run (s := ({ dict := PyDict.update eqv d pairs, list := l' } : SD κ ν σ))
    (h.list.update (keys (PyDict.update eqv d pairs))) h2 rfl
  refine ⟨_, e2, rfl, h4, Keyed.update hk _, ?_⟩
  show L.iter l2 = _
  rw [h3]
  show Spec.insertAll O (L.iter l') _ = _
  rw [h1]; rfl

/-- A dict whose list lacks the keys of `d0`. -/
structure Torn (L : ListAPI σ κ) (eqv : κ → κ → Bool) (I : σ → Prop) (d0 : List (κ × ν)) (s : SD κ ν σ) : Prop where
  list : I s.list
  keyed : Keyed eqv s.dict
  keys : (keys s.dict).Perm (PyDict.keys d0 ++ L.iter s.list)

theorem setitem_torn (h : Good L O eqv I) {d0 : List (κ × ν)} {s : SD κ ν σ} (hs : Torn L eqv I d0 s) (k : κ) (v : ν) :
    ∃ s', setitem eqv L k v s = (.ok (), s') ∧ s'.dict = PyDict.set eqv s.dict k v ∧ Torn L eqv I d0 s' := by
  unfold setitem
  simp only [Py.get_bind]
  rcases Bool.eq_false_or_eq_true (has eqv s.dict k) with hk | hk
  · simp only [show contains eqv k s = _ from hk, if_true]
    refine ⟨{ s with dict := PyDict.set eqv s.dict k v }, rfl, rfl, hs.list, hs.keyed.set k v, ?_⟩
    show (PyDict.keys (PyDict.set eqv s.dict k v)).Perm _
    rw [keys_set, addNew, ← has_eq, hk]
    exact hs.keys
  · simp only [show contains eqv k s = _ from hk]
    obtain ⟨l', e, h1, h2⟩ := onList_run (h.list.add k) hs.list rfl
    simp only [Bool.false_eq_true, if_false]
    rw [Py.bind_ok e]
    refine ⟨{ dict := PyDict.set eqv s.dict k v, list := l' }, rfl, rfl, h2, hs.keyed.set k v, ?_⟩
    show (PyDict.keys (PyDict.set eqv s.dict k v)).Perm (PyDict.keys d0 ++ L.iter l')
    rw [keys_set, addNew, ← has_eq, hk, h1]
    have hp : (Spec.insert O (L.iter s.list) k).Perm (L.iter s.list ++ [k]) := by
      have := (Spec.insertAll_isStableSort h.order (h.list.sorted _ hs.list) [k]).perm
      exact this
    refine (hs.keys.append_right [k]).trans ?_
    rw [List.append_assoc]
    exact List.Perm.append_left _ hp.symm

theorem forEach_torn (h : Good L O eqv I) {d0 : List (κ × ν)} (ps : List (κ × ν)) : ∀ {s : SD κ ν σ}, Torn L eqv I d0 s →
    ∃ s', Py.forEach (fun p => setitem eqv L p.1 p.2) ps s = (.ok (), s') ∧ s'.dict = PyDict.update eqv s.dict ps ∧
      Torn L eqv I d0 s' := by
  induction ps with
  | nil => exact fun hs => ⟨_, rfl, rfl, hs⟩
  | cons p ps ih =>
    intro s hs
    obtain ⟨s1, e1, h1, h2⟩ := setitem_torn h hs p.1 p.2
    obtain ⟨s2, e2, h3, h4⟩ := ih h2
    exact ⟨s2, (Py.bind_ok e1).trans e2, by rw [h3, h1]; rfl, h4⟩

/-- An update that does not rebuild the list leaves out the keys that the list lacks. -/
theorem update_torn (h : Good L O eqv I) {d : List (κ × ν)} {l : σ} (hi : I l) (hl : L.iter l = []) (hk : Keyed eqv d)
    (hne : d ≠ []) {arg : DictArg κ ν} {pairs : List (κ × ν)} (hp : pairsOf eqv arg = .ok pairs)
    (hlen : ¬ 10 * pairs.length > d.length) :
    ∃ s', update eqv L arg { dict := d, list := l } = (.ok (), s') ∧ s'.dict = PyDict.update eqv d pairs ∧
      Torn L eqv I d s' := by
  have h0 : ¬ d.length = 0 := fun e => hne (List.length_eq_zero_iff.1 e)
  unfold update
  simp only [Py.get_bind, h0, if_false, hp, Py.lift_ok_bind, hlen]
  exact forEach_torn h pairs ⟨hi, hk, by show (PyDict.keys d).Perm (PyDict.keys d ++ L.iter l); rw [hl, List.append_nil]⟩

theorem updateSelf_ok (h : Good L O eqv I) {d : List (κ × ν)} {l : σ} (hi : I l) (hl : L.iter l = []) (hk : Keyed eqv d) :
    ∃ s', updateSelf eqv L { dict := d, list := l } = (.ok (), s') ∧ s'.dict = d ∧ Inv L O eqv I s' := by
  unfold updateSelf
  simp only [Py.get_bind]
  by_cases h0 : d.length = 0
  · simp only [h0, if_true]
    obtain ⟨l2, e2, h3, h4⟩ := onList_run (s := ({ dict := d, list := l } : SD κ ν σ)) (h.list.update (keys d)) hi rfl
    refine ⟨_, e2, rfl, h4, hk, ?_⟩
    show L.iter l2 = _
    rw [h3]
    show Spec.insertAll O (L.iter l) _ = _
    rw [hl]; rfl
  · have : 10 * d.length > d.length := by omega
    simp only [h0, if_false, this, if_true]
    obtain ⟨l', e, h1, h2⟩ := onList_run (s := ({ dict := d, list := l } : SD κ ν σ)) h.list.clear hi rfl
    rw [Py.bind_ok e]
    obtain ⟨l2, e2, h3, h4⟩ := onList_run (s := ({ dict := d, list := l' } : SD κ ν σ)) (h.list.update (keys d)) h2 rfl
    refine ⟨_, e2, rfl, h4, hk, ?_⟩
    show L.iter l2 = _
    rw [h3]
    show Spec.insertAll O (L.iter l') _ = _
    rw [h1]; rfl

end SD
end Verif
