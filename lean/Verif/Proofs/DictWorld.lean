import Verif.Proofs.DictByRef
/-!
# Several sorted dicts, dicts and views by reference follow the specification
-/

namespace Verif
namespace DictHeap
open PyDict (keys ofPairs Keyed)
open DictSpec (sortedKeys sortedItems)
open SD (Good)
variable {κ ν σ β γ : Type} {m m' m1 m2 : Mem κ ν σ} {A B A' B' : Nat → Prop} {a b l : Nat} {s s' : SD κ ν σ}
  {eqv : κ → κ → Bool} {L : ListAPI σ κ} {O : Spec.Order κ} {I : σ → Prop} {o ob : Obj κ ν} {ps : List (κ × ν)}

/-- A sorted dict is read in the order of its keys. -/
theorem Src.sorted (h : Good L O eqv I) (hs : At m a l s) (hi : SD.Inv L O eqv I s) :
    Src eqv L m a { items := s.dict, attrs := some { list := l, methods := l } } (sortedItems eqv O s.dict) := by
  refine ⟨hs.dict, ?_, fun p hp => ?_, ?_⟩
  · rw [iter_run L hs, DictSpec.keys_sortedItems h.order h.equiv, ← hi.iter]
    rfl
  · obtain ⟨k, _, e⟩ := List.mem_filterMap.1 hp
    obtain ⟨v, e1, rfl⟩ := Option.map_eq_some_iff.1 e
    exact e1
  · rw [DictSpec.sortedItems_length h.order h.equiv, (DictSpec.sortedKeys_sort h.order s.dict).perm.length_eq]
    simp [PyDict.keys]

theorem out_ok {g : β → DOut κ ν} {r : Run κ ν σ β} {x : β} (e : r m = (.ok x, m')) : SD.out g r m = (.ok (g x), m') := by
  unfold SD.out
  rw [Py.bind_ok e]
  rfl

section
variable (h : Good L O eqv I)
include h

/-- `update`. -/
theorem update_ok {arg : Arg κ ν} (hs : At m a l s) (hi : SD.Inv L O eqv I s) (harg : ArgIs eqv L m a ps none arg) :
    ∃ m' s', update eqv L a arg m = (.ok (), m') ∧ At m' a l s' ∧ SD.Inv L O eqv I s' ∧ s'.dict = PyDict.update eqv s.dict ps ∧
      Own a l m m' := by
  obtain ⟨m', e1, h1, h2⟩ := update_lifts h.equiv hs hi.keyed harg
  obtain ⟨s', e2, h3, h4⟩ := (SD.update_refines h (arg := arg.value ps) harg.items.2).eq_of hi rfl
  rw [harg.items.1] at h3
  rw [e2] at e1 h1
  exact ⟨m', s', e1, h1, h4, h3, h2⟩

/-- The constructor. -/
theorem init_ok {arg : Arg κ ν} (harg : ArgIs eqv L m m.dicts.length ps none arg) :
    ∃ m' s', init eqv L arg m = (.ok m.dicts.length, m') ∧ At m' m.dicts.length m.lists.length s' ∧ SD.Inv L O eqv I s' ∧
      s'.dict = ofPairs eqv ps ∧ Stays Nil Nil m m' := by
  obtain ⟨m', h1, h2⟩ := init_value h.equiv harg
  obtain ⟨s', e, h3, h4⟩ := SD.new_ok h (arg := arg.value ps) harg.items.2
  rw [harg.items.1] at h3
  rw [e] at h2
  exact ⟨m', s', h2.1, h2.2, h4, h3, h1⟩

/-- The constructor, with pairs that end with an exception. -/
theorem init_fail {arg : Arg κ ν} {x : PyErr} (harg : ArgIs eqv L m m.dicts.length ps (some x) arg) :
    ∃ m', init eqv L arg m = (.error x, m') ∧ Stays Nil Nil m m' := by
  obtain ⟨m', h1, h2⟩ := init_value h.equiv harg
  have e : SD.new eqv L (arg.value ps) = .error x := by
    obtain ⟨s0, e0, _, _⟩ := h.list.new none
    have : SD.update eqv L (arg.value ps) { dict := [], list := s0 } = (.error x, { dict := PyDict.update eqv [] ps, list := s0 }) := by
      unfold SD.update
      rw [Py.get_bind]
      simp only [List.length_nil, if_true]
      refine Py.bind_error ?_
      unfold SD.dictUpdate
      rw [harg.items.1, harg.items.2]
      rfl
    unfold SD.new
    simp only [e0, this]
  rw [e] at h2
  exact ⟨m', h2, h1⟩

theorem itemsOf_ok (hs : At m a l s) (hi : SD.Inv L O eqv I s) : itemsOf eqv L a m = (.ok (sortedItems eqv O s.dict), m) := by
  rw [itemsOf_run eqv L hs, SD.items_ok h hi]

/-- `sd.copy()`, `sd | other`, `other | sd`: a constructor call with the items of other dicts. -/
theorem combine_ok {bs : List Nat} (hb : Sources eqv L m bs ps) :
    ∃ m' s', init eqv L (.itemsOf bs) m = (.ok m.dicts.length, m') ∧ At m' m.dicts.length m.lists.length s' ∧ SD.Inv L O eqv I s' ∧
      s'.dict = ofPairs eqv ps ∧ Stays Nil Nil m m' :=
  init_ok h (arg := .itemsOf bs) ⟨hb, .inl fun hm => absurd (hb.lt _ hm) (Nat.lt_irrefl _), rfl⟩

/-- One call. -/
theorem call_ok (op : SDOp κ ν) (hop : op.Valid) (hs : At m a l s) (hi : SD.Inv L O eqv I s) :
    ∃ m' s', call eqv L a op m = ((DictSpec.step eqv O op s.dict).1, m') ∧ At m' a l s' ∧ SD.Inv L O eqv I s' ∧
      s'.dict = (DictSpec.step eqv O op s.dict).2 ∧ Own a l m m' := by
  have plain : plain op → ∃ m' s', call eqv L a op m = ((DictSpec.step eqv O op s.dict).1, m') ∧ At m' a l s' ∧ SD.Inv L O eqv I s' ∧
      s'.dict = (DictSpec.step eqv O op s.dict).2 ∧ Own a l m m' := by
    intro hp
    obtain ⟨m', e1, h1, h2⟩ := Lifts.call eqv L op hp m s hs
    obtain ⟨s', e2, h3, h4⟩ := (SD.step_refines h op hop).eq_of hi rfl
    rw [e2] at e1 h1
    exact ⟨m', s', e1, h1, h4, h3, h2⟩
  have lit : ∀ qs : List (κ × ν), ∃ m1, literal eqv qs m = (.ok m.dicts.length, m1) ∧ Stays Nil Nil m m1 ∧
      m1.dicts[m.dicts.length]? = some { items := ofPairs eqv qs, attrs := none } := fun qs =>
    ⟨_, rfl, .newDict _, by simp⟩
  have weak : ∀ {m m' : Mem κ ν σ}, Stays Nil Nil m m' → Own a l m m' := fun h => h.mono (fun _ h => h.elim) fun _ h => h.elim
  have made : ∀ {m : Mem κ ν σ} {bs : List Nat} {ps : List (κ × ν)}, At m a l s → Sources eqv L m bs ps →
      ∃ m', (do itemsOf eqv L (← init eqv L (.itemsOf bs)) : Run κ ν σ _) m = (.ok (sortedItems eqv O (ofPairs eqv ps)), m') ∧
      At m' a l s ∧ Own a l m m' := by
    intro m bs ps hs hb
    obtain ⟨m', s', e1, h1, h2, h3, h4⟩ := combine_ok h hb
    refine ⟨m', ?_, hs.same h4 id id, weak h4⟩
    rw [Py.bind_ok e1, itemsOf_ok h h1 h2, h3]
  have src := Src.sorted h hs hi
  have hd := DictSpec.keyed_sortedItems h.order h.equiv hi.keyed
  cases op with
  | update arg =>
    have key : ∃ m1 arg' qs, argument eqv arg m = (.ok arg', m1) ∧ Stays Nil Nil m m1 ∧ ArgIs eqv L m1 a qs none arg' ∧
        PyDict.update eqv s.dict qs = PyDict.update eqv s.dict arg.items := by
      cases arg with
      | dict qs =>
        obtain ⟨m1, e1, h1, h2⟩ := lit qs
        refine ⟨m1, .obj m.dicts.length, ofPairs eqv qs, ?_, h1,
          ⟨⟨_, Src.plain h.equiv h2 (PyDict.Keyed.nil.update qs)⟩, rfl⟩, PyDict.update_ofPairs h.equiv s.dict qs⟩
        show (literal eqv qs >>= _) m = _
        rw [Py.bind_ok e1]
        rfl
      | pairs qs fail => exact ⟨m, .pairs qs fail, qs, rfl, .refl _ _ m, ⟨rfl, hop⟩, rfl⟩
    obtain ⟨m1, arg', qs, e1, h1, h2, h3⟩ := key
    obtain ⟨m', s', e2, h4, h5, h6, h7⟩ := update_ok h (hs.same h1 id id) hi h2
    refine ⟨m', s', ?_, h4, h5, h6.trans h3, (weak h1).trans h7⟩
    exact out_ok ((Py.bind_ok e1).trans e2)
  | copy =>
    obtain ⟨m', e, h1, h2⟩ := made hs (.cons src .nil)
    refine ⟨m', s, ?_, h1, hi, rfl, h2⟩
    rw [List.append_nil, PyDict.update_nil_keyed hd, DictSpec.sortedItems_idem h.order h.equiv hi.keyed] at e
    exact out_ok e
  | or other =>
    obtain ⟨m1, e1, h1, h2⟩ := lit other
    have hs1 := hs.same h1 id id
    obtain ⟨m', e, h3, h4⟩ := made hs1 (.cons (Src.sorted h hs1 hi)
      (.cons (Src.plain h.equiv h2 (PyDict.Keyed.nil.update other)) .nil))
    refine ⟨m', s, ?_, h3, hi, rfl, (weak h1).trans h4⟩
    have e2 : ofPairs eqv (sortedItems eqv O s.dict ++ (ofPairs eqv other ++ [])) =
        PyDict.update eqv (sortedItems eqv O s.dict) other := by
      rw [List.append_nil]
      show PyDict.update eqv [] _ = _
      rw [PyDict.update_append, PyDict.update_ofPairs h.equiv]
      congr 1
      exact PyDict.update_nil_keyed hd
    rw [e2, DictSpec.sortedItems_or h.order h.equiv hi.keyed] at e
    exact out_ok ((Py.bind_ok e1).trans e)
  | ror other =>
    obtain ⟨m1, e1, h1, h2⟩ := lit other
    have hs1 := hs.same h1 id id
    obtain ⟨m', e, h3, h4⟩ := made hs1 (.cons (Src.plain h.equiv h2 (PyDict.Keyed.nil.update other))
      (.cons (Src.sorted h hs1 hi) .nil))
    refine ⟨m', s, ?_, h3, hi, rfl, (weak h1).trans h4⟩
    have e2 : ofPairs eqv (ofPairs eqv other ++ (sortedItems eqv O s.dict ++ [])) =
        PyDict.update eqv (ofPairs eqv other) (sortedItems eqv O s.dict) := by
      rw [List.append_nil]
      show PyDict.update eqv [] _ = _
      rw [PyDict.update_append]
      congr 1
      exact PyDict.update_nil_keyed (PyDict.Keyed.nil.update other)
    rw [e2, DictSpec.sortedItems_ror h.order h.equiv hi.keyed] at e
    exact out_ok ((Py.bind_ok e1).trans e)
  | _ => exact plain trivial

end

/-- The world of references has the values `st`, and nothing is shared. -/
structure World.Has (L : ListAPI σ κ) (O : Spec.Order κ) (eqv : κ → κ → Bool) (I : σ → Prop) (w : World κ ν σ) (st : DictStore κ ν) :
    Prop where
  wf : w.Wf
  dictsLen : w.dicts.length = st.dicts.length
  objsLen : w.objs.length = st.sorted.length
  viewsLen : w.views.length = st.views.length
  dicts : ∀ i a : Nat, w.dicts[i]? = some a → ∃ d, st.dicts[i]? = some d ∧ w.mem.dicts[a]? = some { items := d, attrs := none } ∧
    Keyed eqv d
  objs : ∀ j a : Nat, w.objs[j]? = some a → ∃ l s, st.sorted[j]? = some s.dict ∧ At w.mem a l s ∧ SD.Inv L O eqv I s
  views : ∀ (n : Nat) (kind : ViewKind) (a : Nat), w.views[n]? = some (kind, a) →
    ∃ j, st.views[n]? = some (kind, j) ∧ w.objs[j]? = some a
  ilocs : ∀ j a : Nat, w.objs[j]? = some a → w.ilocs.lookup a = st.ilocs.lookup j
  ilocsLen : ∀ j n : Nat, st.ilocs.lookup j = some n → j < st.sorted.length

namespace World.Has
variable {w : World κ ν σ} {st : DictStore κ ν} (h : Good L O eqv I) (hw : w.Has L O eqv I st)

theorem empty : World.Has L O eqv I (World.empty : World κ ν σ) DictStore.empty where
  wf := .empty
  dictsLen := rfl
  objsLen := rfl
  viewsLen := rfl
  dicts := by intro i a h; simp [World.empty] at h
  objs := by intro i a h; simp [World.empty] at h
  views := by intro n kind a h; simp [World.empty] at h
  ilocs := by intro j a h; simp [World.empty] at h
  ilocsLen := by intro j n h; simp [DictStore.empty] at h

section
include hw

theorem dictsNone {i : Nat} (e : w.dicts[i]? = none) : st.dicts[i]? = none := by
  rw [List.getElem?_eq_none_iff] at e ⊢; have := hw.dictsLen; omega

theorem objsNone {j : Nat} (e : w.objs[j]? = none) : st.sorted[j]? = none := by
  rw [List.getElem?_eq_none_iff] at e ⊢; have := hw.objsLen; omega

theorem viewsNone {n : Nat} (e : w.views[n]? = none) : st.views[n]? = none := by
  rw [List.getElem?_eq_none_iff] at e ⊢; have := hw.viewsLen; omega

/-- New objects that nobody keeps. -/
theorem garbage (hs : Stays Nil Nil w.mem m') : World.Has L O eqv I { w with mem := m' } st where
  wf := hw.wf.stays hs
  dictsLen := hw.dictsLen
  objsLen := hw.objsLen
  viewsLen := hw.viewsLen
  dicts i a e := by
    obtain ⟨d, e1, e2, e3⟩ := hw.dicts i a e
    exact ⟨d, e1, hs.dicts a _ id e2, e3⟩
  objs j a e := by
    obtain ⟨l, s, e1, e2, e3⟩ := hw.objs j a e
    exact ⟨l, s, e1, e2.same hs id id, e3⟩
  views := hw.views
  ilocs := hw.ilocs
  ilocsLen := hw.ilocsLen

/-- A sorted dict changes. -/
theorem changed {j : Nat} (hj : w.objs[j]? = some a) (hs : At w.mem a l s) (ho : Own a l w.mem m') (hs' : At m' a l s')
    (hi : SD.Inv L O eqv I s') : World.Has L O eqv I { w with mem := m' } { st with sorted := st.sorted.set j s'.dict } where
  wf := hw.wf.stays ho
  dictsLen := hw.dictsLen
  objsLen := by simp [hw.objsLen]
  viewsLen := hw.viewsLen
  dicts i b e := by
    obtain ⟨d, e1, e2, e3⟩ := hw.dicts i b e
    exact ⟨d, e1, ho.dicts b _ (hw.wf.dictObj e hj) e2, e3⟩
  objs j' b e := by
    obtain ⟨l', t, e1, e2, e3⟩ := hw.objs j' b e
    by_cases hjj : j = j'
    · subst hjj
      obtain rfl : a = b := by simpa using hj.symm.trans e
      exact ⟨l, s', by simp [lt_of_some e1], hs', hi⟩
    · refine ⟨l', t, by rw [List.getElem?_set_ne hjj]; exact e1, e2.same ho (fun hh => ?_) (fun hh => ?_), e3⟩
      · subst hh; exact hjj (hw.wf.objObj j j' b hj e)
      · subst hh; exact hjj (hw.wf.listList j j' a b _ s t hj e hs e2)
  views := hw.views
  ilocs := hw.ilocs
  ilocsLen j n e := by simpa using hw.ilocsLen j n e

/-- The client changes one of its dicts. -/
theorem mutated {i : Nat} (hi : w.dicts[i]? = some a) (ho : Stays (· = a) Nil w.mem m') {d : List (κ × ν)}
    (hd : m'.dicts[a]? = some { items := d, attrs := none }) (hk : Keyed eqv d) :
    World.Has L O eqv I { w with mem := m' } { st with dicts := st.dicts.set i d } where
  wf := hw.wf.stays ho
  dictsLen := by simp [hw.dictsLen]
  objsLen := hw.objsLen
  viewsLen := hw.viewsLen
  dicts i' b e := by
    obtain ⟨d', e1, e2, e3⟩ := hw.dicts i' b e
    by_cases hii : i = i'
    · subst hii
      obtain rfl : a = b := by simpa using hi.symm.trans e
      exact ⟨d, by simp [lt_of_some e1], hd, hk⟩
    · refine ⟨d', by rw [List.getElem?_set_ne hii]; exact e1, ho.dicts b _ (fun hh => ?_) e2, e3⟩
      subst hh; exact hii (hw.wf.dictDict i i' b hi e)
  objs j b e := by
    obtain ⟨l', t, e1, e2, e3⟩ := hw.objs j b e
    exact ⟨l', t, e1, e2.same ho (fun hh => hw.wf.dictObj hi e hh.symm) id, e3⟩
  views := hw.views
  ilocs := hw.ilocs
  ilocsLen := hw.ilocsLen

/-- The client keeps a new sorted dict. -/
theorem added (hs : Stays Nil Nil w.mem m') (h1 : w.mem.dicts.length ≤ a) (h2 : w.mem.lists.length ≤ l) (ha : At m' a l s)
    (hi : SD.Inv L O eqv I s) :
    World.Has L O eqv I { w with mem := m', objs := w.objs ++ [a] } { st with sorted := st.sorted ++ [s.dict] } where
  wf := hw.wf.addObj hs h1 h2 ha
  dictsLen := hw.dictsLen
  objsLen := by simp [hw.objsLen]
  viewsLen := hw.viewsLen
  dicts := (hw.garbage hs).dicts
  objs j b e := by
    rcases append_some e with e | ⟨rfl, rfl⟩
    · obtain ⟨l', t, e1, e2⟩ := (hw.garbage hs).objs j b e
      exact ⟨l', t, append_old e1, e2⟩
    · exact ⟨l, s, by rw [hw.objsLen]; simp, ha, hi⟩
  views n kind b e := by
    obtain ⟨j, e1, e2⟩ := hw.views n kind b e
    exact ⟨j, e1, append_old e2⟩
  ilocs j b e := by
    rcases append_some e with e | ⟨e3, e4⟩
    · exact hw.ilocs j b e
    · have n1 : w.ilocs.lookup b = none := by
        cases e5 : w.ilocs.lookup b with
        | none => rfl
        | some n =>
          obtain ⟨j', hj'⟩ := hw.wf.views n .keys b (hw.wf.ilocs b n e5)
          obtain ⟨l', t, e6⟩ := hw.wf.objs j' b hj'
          have := lt_of_some e6.dict; omega
      have n2 : st.ilocs.lookup j = none := by
        cases e5 : st.ilocs.lookup j with
        | none => rfl
        | some n => have := hw.ilocsLen j n e5; have := hw.objsLen; omega
      rw [n2]; exact n1
  ilocsLen j n e := by have := hw.ilocsLen j n e; simp; omega

/-- The client keeps a new dict. -/
theorem addedDict (hs : Stays Nil Nil w.mem m') (h1 : w.mem.dicts.length ≤ a) {d : List (κ × ν)}
    (ha : m'.dicts[a]? = some { items := d, attrs := none }) (hk : Keyed eqv d) :
    World.Has L O eqv I { w with mem := m', dicts := w.dicts ++ [a] } { st with dicts := st.dicts ++ [d] } where
  wf := hw.wf.addDict hs h1 ha
  dictsLen := by simp [hw.dictsLen]
  objsLen := hw.objsLen
  viewsLen := hw.viewsLen
  dicts i b e := by
    rcases append_some e with e | ⟨rfl, rfl⟩
    · obtain ⟨d', e1, e2⟩ := (hw.garbage hs).dicts i b e
      exact ⟨d', append_old e1, e2⟩
    · exact ⟨d, by rw [hw.dictsLen]; simp, ha, hk⟩
  objs := (hw.garbage hs).objs
  views := hw.views
  ilocs := hw.ilocs
  ilocsLen := hw.ilocsLen

theorem addedView {j : Nat} (hj : w.objs[j]? = some a) (kind : ViewKind) :
    World.Has L O eqv I { w with views := w.views ++ [(kind, a)] } { st with views := st.views ++ [(kind, j)] } where
  wf := hw.wf.addView hj kind
  dictsLen := hw.dictsLen
  objsLen := hw.objsLen
  viewsLen := by simp [hw.viewsLen]
  dicts := hw.dicts
  objs := hw.objs
  views n kind' b e := by
    rcases append_some e with e | ⟨rfl, e'⟩
    · obtain ⟨j, e1, e2⟩ := hw.views n kind' b e
      exact ⟨j, append_old e1, e2⟩
    · cases e'
      exact ⟨j, by rw [hw.viewsLen]; simp, hj⟩
  ilocs := hw.ilocs
  ilocsLen := hw.ilocsLen

theorem addedIloc {j : Nat} (hj : w.objs[j]? = some a) :
    World.Has L O eqv I { w with views := w.views ++ [(.keys, a)], ilocs := (a, w.views.length) :: w.ilocs }
      { st with views := st.views ++ [(.keys, j)], ilocs := (j, st.views.length) :: st.ilocs } := { hw.addedView hj .keys with
  wf := hw.wf.addIloc hj
  ilocs := fun j' b e => by
    have e' : w.objs[j']? = some b := e
    have hiff : b = a ↔ j' = j := by
      constructor
      · intro hh; subst hh; exact hw.wf.objObj _ _ _ e' hj
      · intro hh; subst hh; simpa using e'.symm.trans hj
    have hb : (b == a) = (j' == j) := by
      rw [Bool.eq_iff_iff]; simpa using hiff
    simp only [List.lookup_cons, hb, hw.viewsLen, hw.ilocs j' b e']
  ilocsLen := fun j' n e => by
    simp only [List.lookup_cons] at e
    split at e
    · rename_i hh
      have : j' = j := by simpa using hh
      subst this
      have := lt_of_some hj; have := hw.objsLen; simp only; omega
    · exact hw.ilocsLen j' n e }

end

include h hw

theorem mapping (r : DictRef κ ν) : (w.mapping r = none ∧ st.mapping eqv O r = none) ∨
    ∃ b o ps, w.mapping r = some b ∧ st.mapping eqv O r = some ps ∧ Src eqv L w.mem b o ps := by
  cases r with
  | dict i =>
    simp only [World.mapping, DictStore.mapping]
    cases e : w.dicts[i]? with
    | none => exact .inl ⟨rfl, hw.dictsNone e⟩
    | some b =>
      obtain ⟨d, e1, e2, e3⟩ := hw.dicts i b e
      exact .inr ⟨b, _, d, rfl, e1, Src.plain h.equiv e2 e3⟩
  | sorted j =>
    simp only [World.mapping, DictStore.mapping]
    cases e : w.objs[j]? with
    | none => exact .inl ⟨rfl, by rw [hw.objsNone e]; rfl⟩
    | some b =>
      obtain ⟨l, s, e1, e2, e3⟩ := hw.objs j b e
      exact .inr ⟨b, _, _, rfl, by rw [e1]; rfl, Src.sorted h e2 e3⟩
  | itemsOf j => exact .inl ⟨rfl, rfl⟩
  | pairs items fail => exact .inl ⟨rfl, rfl⟩

theorem arg (r : DictRef κ ν) : (w.arg r = none ∧ st.arg eqv O r = none) ∨
    ∃ arg ps fail, w.arg r = some arg ∧ st.arg eqv O r = some (ps, fail) ∧ ∀ self, ArgIs eqv L w.mem self ps fail arg := by
  cases r with
  | dict i =>
    simp only [World.arg, DictStore.arg]
    cases e : w.dicts[i]? with
    | none => exact .inl ⟨rfl, by rw [hw.dictsNone e]; rfl⟩
    | some b =>
      obtain ⟨d, e1, e2, e3⟩ := hw.dicts i b e
      exact .inr ⟨_, d, none, rfl, by rw [e1]; rfl, fun _ => ⟨⟨_, Src.plain h.equiv e2 e3⟩, rfl⟩⟩
  | sorted j =>
    simp only [World.arg, DictStore.arg]
    cases e : w.objs[j]? with
    | none => exact .inl ⟨rfl, by rw [hw.objsNone e]; rfl⟩
    | some b =>
      obtain ⟨l, s, e1, e2, e3⟩ := hw.objs j b e
      exact .inr ⟨_, _, none, rfl, by rw [e1]; rfl, fun _ => ⟨⟨_, Src.sorted h e2 e3⟩, rfl⟩⟩
  | itemsOf j =>
    simp only [World.arg, DictStore.arg]
    cases e : w.objs[j]? with
    | none => exact .inl ⟨rfl, by rw [hw.objsNone e]; rfl⟩
    | some b =>
      obtain ⟨l, s, e1, e2, e3⟩ := hw.objs j b e
      refine .inr ⟨_, _, none, rfl, by rw [e1]; rfl, fun self => ⟨?_, ?_, rfl⟩⟩
      · have := Sources.cons (Src.sorted h e2 e3) .nil
        rwa [List.append_nil] at this
      · by_cases hb : self = b
        · exact .inr (by rw [hb])
        · exact .inl (by simp [hb])
  | pairs items fail => exact .inr ⟨_, items, fail, rfl, rfl, fun _ => ⟨rfl, rfl⟩⟩

omit h hw in
/-- The same answer, and still the same values. -/
def Same (L : ListAPI σ κ) (O : Spec.Order κ) (eqv : κ → κ → Bool) (I : σ → Prop) (r : Except PyErr (DictOut κ ν) × World κ ν σ)
    (r' : Except PyErr (DictOut κ ν) × DictStore κ ν) : Prop :=
  r.1 = r'.1 ∧ r.2.Has L O eqv I r'.2

omit h in
theorem make {r : Run κ ν σ Nat} {d : List (κ × ν)} (hr : ∃ m' a l s', r w.mem = (.ok a, m') ∧ w.mem.dicts.length ≤ a ∧
    w.mem.lists.length ≤ l ∧ At m' a l s' ∧ SD.Inv L O eqv I s' ∧ s'.dict = d ∧ Stays Nil Nil w.mem m') :
    Same L O eqv I (World.make r w) (DictStore.addSorted d st) := by
  obtain ⟨m', a, l, s', e, h1, h2, h3, h4, rfl, h5⟩ := hr
  refine ⟨?_, ?_⟩
  · simp only [World.make, e, DictStore.addSorted, hw.objsLen]
  · simp only [World.make, e, DictStore.addSorted]
    exact hw.added h5 h1 h2 h3 h4

/-- A constructor call with the items of other dicts. -/
theorem combine {bs : List Nat} (hb : Sources eqv L w.mem bs ps) {d : List (κ × ν)} (hd : d = ofPairs eqv ps) :
    Same L O eqv I (World.make (init eqv L (.itemsOf bs)) w) (DictStore.addSorted d st) := by
  obtain ⟨m', s', e, h1, h2, h3, h4⟩ := combine_ok h hb
  exact hw.make ⟨m', _, _, s', e, Nat.le_refl _, Nat.le_refl _, h1, h2, h3.trans hd.symm, h4⟩

/-- One event. -/
theorem sim (ev : DictEvent κ ν) (hev : ev.Valid) : Same L O eqv I (World.step eqv L ev w) (DictStore.step eqv O ev st) := by
  have callStep : ∀ (j a : Nat) (op : SDOp κ ν), w.objs[j]? = some a → ∀ r : Run κ ν σ (DOut κ ν),
      (∀ l s, At w.mem a l s → SD.Inv L O eqv I s → ∃ m' s', r w.mem = ((DictSpec.step eqv O op s.dict).1, m') ∧ At m' a l s' ∧
        SD.Inv L O eqv I s' ∧ s'.dict = (DictSpec.step eqv O op s.dict).2 ∧ Own a l w.mem m') →
      Same L O eqv I (World.run .value r w) (DictStore.call eqv O j op st) := by
    intro j a op e r hr
    obtain ⟨l, s, e1, e2, e3⟩ := hw.objs j a e
    obtain ⟨m', s', f1, f2, f3, f4, f5⟩ := hr l s e2 e3
    simp only [World.run, DictStore.call, e1, f1]
    refine ⟨rfl, ?_⟩
    have := hw.changed e e2 f5 f2 f3
    rw [f4] at this
    exact this
  cases ev with
  | newDict ps =>
    refine ⟨by simp only [World.step, World.makeDict, literal, newDict, DictStore.step, hw.dictsLen], ?_⟩
    exact hw.addedDict (.newDict _) (Nat.le_refl _) (by simp) (PyDict.Keyed.nil.update ps)
  | mutate i ps =>
    simp only [World.step, DictStore.step]
    cases e : w.dicts[i]? with
    | none => rw [hw.dictsNone e]; exact ⟨rfl, hw⟩
    | some a =>
      obtain ⟨d, e1, e2, e3⟩ := hw.dicts i a e
      simp only [e1, World.run]
      rw [onDict_run e2]
      exact ⟨rfl, hw.mutated e (put_stays e2 _) (put_get e2 _) (PyDict.Keyed.nil.update ps)⟩
  | construct r =>
    simp only [World.step, DictStore.step]
    rcases hw.arg h r with ⟨e1, e2⟩ | ⟨arg, ps, fail, e1, e2, harg⟩
    · rw [e1, e2]; exact ⟨rfl, hw⟩
    · rw [e1, e2]
      cases fail with
      | none =>
        obtain ⟨m', s', e, h1, h2, h3, h4⟩ := init_ok h (harg _)
        exact hw.make ⟨m', _, _, s', e, Nat.le_refl _, Nat.le_refl _, h1, h2, h3, h4⟩
      | some x =>
        obtain ⟨m', e, h1⟩ := init_fail h (harg _)
        simp only [World.make, e]
        exact ⟨rfl, hw.garbage h1⟩
  | call j op =>
    simp only [World.step, DictStore.step]
    cases e : w.objs[j]? with
    | none => simp only [DictStore.call, hw.objsNone e]; exact ⟨rfl, hw⟩
    | some a => exact callStep j a op e _ fun l s hs hi => call_ok h op hev hs hi
  | update j r =>
    simp only [World.step, DictStore.step]
    cases e : w.objs[j]? with
    | none => rw [hw.objsNone e]; exact ⟨rfl, hw⟩
    | some a =>
      obtain ⟨l, s, e3, e4, e5⟩ := hw.objs j a e
      rw [e3]
      rcases hw.arg h r with ⟨e1, e2⟩ | ⟨arg, ps, fail, e1, e2, harg⟩
      · rw [e1, e2]; exact ⟨rfl, hw⟩
      · rw [e1, e2]
        have hf : fail = none := by
          cases r with
          | pairs items f =>
            simp only [DictStore.arg, Option.some.injEq, Prod.mk.injEq] at e2
            rw [← e2.2]; exact hev
          | dict i =>
            simp only [DictStore.arg, Option.map_eq_some_iff, Prod.mk.injEq] at e2
            obtain ⟨_, _, _, e⟩ := e2; exact e.symm
          | sorted i =>
            simp only [DictStore.arg, Option.map_eq_some_iff, Prod.mk.injEq] at e2
            obtain ⟨_, _, _, e⟩ := e2; exact e.symm
          | itemsOf i =>
            simp only [DictStore.arg, Option.map_eq_some_iff, Prod.mk.injEq] at e2
            obtain ⟨_, _, _, e⟩ := e2; exact e.symm
        subst hf
        obtain ⟨m', s', f1, f2, f3, f4, f5⟩ := update_ok h e4 e5 (harg a)
        simp only [World.run, f1]
        have := hw.changed e e4 f5 f2 f3
        rw [f4] at this
        exact ⟨rfl, this⟩
  | or j r =>
    simp only [World.step, DictStore.step]
    cases e : w.objs[j]? with
    | none => rw [hw.objsNone e]; exact ⟨rfl, hw⟩
    | some a =>
      obtain ⟨l, s, e3, e4, e5⟩ := hw.objs j a e
      rw [e3]
      rcases hw.mapping h r with ⟨e1, e2⟩ | ⟨b, o, ps, e1, e2, hb⟩
      · rw [e1, e2]; exact ⟨rfl, hw⟩
      · rw [e1, e2]
        exact hw.combine h (.cons (Src.sorted h e4 e5) (.cons hb .nil)) (by rw [List.append_nil])
  | ror j r =>
    simp only [World.step, DictStore.step]
    cases e : w.objs[j]? with
    | none => rw [hw.objsNone e]; exact ⟨rfl, hw⟩
    | some a =>
      obtain ⟨l, s, e3, e4, e5⟩ := hw.objs j a e
      rw [e3]
      rcases hw.mapping h r with ⟨e1, e2⟩ | ⟨b, o, ps, e1, e2, hb⟩
      · rw [e1, e2]; exact ⟨rfl, hw⟩
      · rw [e1, e2]
        exact hw.combine h (.cons hb (.cons (Src.sorted h e4 e5) .nil)) (by rw [List.append_nil])
  | copy j =>
    simp only [World.step, DictStore.step]
    cases e : w.objs[j]? with
    | none => rw [hw.objsNone e]; exact ⟨rfl, hw⟩
    | some a =>
      obtain ⟨l, s, e3, e4, e5⟩ := hw.objs j a e
      rw [e3]
      refine hw.combine h (.cons (Src.sorted h e4 e5) .nil) ?_
      rw [List.append_nil]
      exact (PyDict.update_nil_keyed (DictSpec.keyed_sortedItems h.order h.equiv e5.keyed)).symm
  | pickle j =>
    simp only [World.step, DictStore.step]
    cases e : w.objs[j]? with
    | none => rw [hw.objsNone e]; exact ⟨rfl, hw⟩
    | some a =>
      obtain ⟨l, s, e3, e4, e5⟩ := hw.objs j a e
      rw [e3]
      refine hw.make ?_
      let o : Obj κ ν := { items := s.dict, attrs := none }
      let m1 : Mem κ ν σ := { w.mem with dicts := w.mem.dicts ++ [o] }
      let m2 : Mem κ ν σ := { m1 with dicts := m1.dicts ++ [o] }
      have r1 : reduceArgs a w.mem = (.ok w.mem.dicts.length, m1) := by
        unfold reduceArgs
        rw [Py.bind_ok (items_run e4)]
        rfl
      have r2 : (items w.mem.dicts.length : Run κ ν σ _) m1 = (.ok s.dict, m1) := by
        have : m1.dicts[w.mem.dicts.length]? = some o := by simp [m1]
        simp only [items, this, o]
      have r3 : (newDict o : Run κ ν σ _) m1 = (.ok m1.dicts.length, m2) := rfl
      have hb : m2.dicts[m1.dicts.length]? = some o := by simp [m2]
      have st1 : Stays Nil Nil w.mem m1 := .newDict _
      have st2 : Stays Nil Nil m1 m2 := .newDict _
      obtain ⟨m', s', f1, f2, f3, f4, f5⟩ := init_ok h (m := m2) (arg := .obj m1.dicts.length) (ps := s.dict)
        ⟨⟨_, Src.plain h.equiv hb e5.keyed⟩, rfl⟩
      have st3 := st1.trans (st2.trans f5)
      refine ⟨m', _, _, s', ?_, ?_, ?_, f2, f3, f4.trans (PyDict.update_nil_keyed e5.keyed), st3⟩
      · unfold pickle
        rw [Py.bind_ok r1, Py.bind_ok r2, Py.bind_ok r3]
        exact f1
      · exact (st1.trans st2).dictsLen
      · exact (st1.trans st2).listsLen
  | reduceArgs j =>
    simp only [World.step, DictStore.step]
    cases e : w.objs[j]? with
    | none => rw [hw.objsNone e]; exact ⟨rfl, hw⟩
    | some a =>
      obtain ⟨l, s, e3, e4, e5⟩ := hw.objs j a e
      rw [e3]
      have r1 : reduceArgs a w.mem = (.ok w.mem.dicts.length,
          { w.mem with dicts := w.mem.dicts ++ [{ items := s.dict, attrs := none }] }) := by
        unfold reduceArgs
        rw [Py.bind_ok (items_run e4)]
        rfl
      simp only [World.makeDict, r1]
      exact ⟨by rw [hw.dictsLen], hw.addedDict (.newDict _) (Nat.le_refl _) (by simp) e5.keyed⟩
  | view j kind =>
    simp only [World.step, DictStore.step]
    cases e : w.objs[j]? with
    | none => rw [hw.objsNone e]; exact ⟨rfl, hw⟩
    | some a =>
      obtain ⟨l, s, e3, e4, e5⟩ := hw.objs j a e
      rw [e3]
      exact ⟨by simp only [hw.viewsLen], hw.addedView e kind⟩
  | iloc j =>
    simp only [World.step, DictStore.step]
    cases e : w.objs[j]? with
    | none => rw [hw.objsNone e]; exact ⟨rfl, hw⟩
    | some a =>
      obtain ⟨l, s, e3, e4, e5⟩ := hw.objs j a e
      rw [e3, ← hw.ilocs j a e]
      simp only [World.iloc]
      cases w.ilocs.lookup a with
      | none => exact ⟨by simp only [hw.viewsLen], hw.addedIloc e⟩
      | some n => exact ⟨rfl, hw⟩
  | viewCall n op =>
    simp only [World.step, DictStore.step]
    cases e : w.views[n]? with
    | none => rw [hw.viewsNone e]; exact ⟨rfl, hw⟩
    | some p =>
      obtain ⟨kind, a⟩ := p
      obtain ⟨j, e1, e2⟩ := hw.views n kind a e
      rw [e1]
      refine callStep j a (op.on kind) e2 _ fun l s hs hi => ?_
      obtain ⟨m', f1, f2, f3⟩ := Lifts.viewCall eqv L kind op w.mem s hs
      have hv : (op.on kind : SDOp κ ν).Valid := by cases op <;> cases kind <;> trivial
      obtain ⟨s', g1, g2, g3⟩ := (SD.step_refines h (op.on kind) hv).eq_of hi rfl
      rw [g1] at f1 f2
      exact ⟨m', s', f1, f2, g3, g2, f3⟩

/-- A sequence of events. -/
theorem hist (evs : List (DictEvent κ ν)) (hev : ∀ ev ∈ evs, ev.Valid) :
    (runHist (World.step eqv L) evs w).1 = (runHist (DictStore.step eqv O) evs st).1 ∧
    (runHist (World.step eqv L) evs w).2.Has L O eqv I (runHist (DictStore.step eqv O) evs st).2 := by
  induction evs generalizing w st with
  | nil => exact ⟨rfl, hw⟩
  | cons ev evs ih =>
    have h1 := hw.sim h ev (hev ev (by simp))
    have h2 := ih h1.2 fun e he => hev e (by simp [he])
    simp only [runHist]
    exact ⟨by rw [h1.1, h2.1], h2.2⟩

omit h in
theorem seen : w.seenDicts = st.dicts ∧ w.seenSorted L = st.sorted.map fun d => { keys := sortedKeys O d, items := d } := by
  constructor
  · refine List.ext_getElem? fun i => ?_
    simp only [seenDicts, List.getElem?_map]
    cases e : w.dicts[i]? with
    | none => rw [hw.dictsNone e]; rfl
    | some a =>
      obtain ⟨d, e1, e2, _⟩ := hw.dicts i a e
      simp only [Option.map_some, e1, items, e2]
      rfl
  · refine List.ext_getElem? fun j => ?_
    simp only [seenSorted, List.getElem?_map]
    cases e : w.objs[j]? with
    | none => rw [hw.objsNone e]; rfl
    | some a =>
      obtain ⟨l, s, e1, e2, e3⟩ := hw.objs j a e
      simp only [Option.map_some, e1, items_run e2, iter_run L e2, Except.toOption, Option.getD_some]
      rw [← e3.iter]
      rfl

end World.Has
end DictHeap
end Verif
