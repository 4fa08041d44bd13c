import Verif.Proofs.InterruptSS
import Verif.Proofs.SortedDict
/-!
# Interrupted calls on sorted dicts, call by call
-/

namespace Verif
variable {κ ν σ β γ δ : Type}

theorem Trace.mapEach {like : σ → σ → Prop} {P : σ → Prop} (hr : ∀ s, like s s) {ft : β → IPy σ γ} {f : β → Py σ γ} (h : ∀ a s, Trace like P (ft a) (f a) s) (l : List β) :
    ∀ s, Trace like P (IPy.mapEach ft l) (Py.mapEach f l) s := by
  induction l with
  | nil => exact fun s => Trace.pure hr []
  | cons a l ih => exact fun s => Trace.bind (h a s) fun b s1 _ _ => Trace.bind (ih s1) fun bs _ _ _ => Trace.pure hr (b :: bs)

theorem PyDict.mem_ofPairs {eqv : κ → κ → Bool} (he : IsEquiv eqv) (items : List (κ × ν)) : ∀ p ∈ PyDict.ofPairs eqv items, ∃ q ∈ items, eqv q.1 p.1 = true ∧ q.2 = p.2 := by
  have key : ∀ (ps d : List (κ × ν)), (∀ p ∈ d, ∃ q ∈ items, eqv q.1 p.1 = true ∧ q.2 = p.2) → (∀ p ∈ ps, p ∈ items) →
      ∀ p ∈ PyDict.update eqv d ps, ∃ q ∈ items, eqv q.1 p.1 = true ∧ q.2 = p.2 := by
    intro ps
    induction ps with
    | nil => exact fun d hd _ => hd
    | cons a ps ih =>
      intro d hd hps
      refine ih _ ?_ fun p hp => hps p (List.mem_cons_of_mem _ hp)
      intro p hp
      have hp : p ∈ PyDict.set eqv d a.1 a.2 := hp
      unfold PyDict.set at hp
      split at hp
      · obtain ⟨q, hq, rfl⟩ := List.mem_map.1 hp
        by_cases hqa : eqv q.1 a.1
        · rw [if_pos hqa]
          exact ⟨a, hps a (List.mem_cons_self ..), by rw [he.symm]; exact hqa, rfl⟩
        · rw [if_neg hqa]; exact hd q hq
      · rcases List.mem_append.1 hp with hp | hp
        · exact hd p hp
        · rw [List.mem_singleton.1 hp]
          exact ⟨a, hps a (List.mem_cons_self ..), he.refl _, rfl⟩
  exact key items [] (by simp) fun p hp => hp

namespace Interrupt.SD
open Verif.SD (Good Alike iter)
open PyDict DictSpec
variable {IL : IListAPI σ κ} {L : ListAPI σ κ} {O : Spec.Order κ} {eqv : κ → κ → Bool} {I : σ → Prop}
  {load : σ → Nat} {like : σ → σ → Prop} {s : SD κ ν σ} {P : SD κ ν σ → Prop}

theorem alike_refl (hr : ∀ l, like l l) (s : SD κ ν σ) : Alike like s s := ⟨rfl, hr _⟩

theorem out_snd (f : β → DOut κ ν) (m : Py σ β) (s : σ) : (Verif.SD.out f m s).2 = (m s).2 := by
  unfold Verif.SD.out
  rcases e : m s with ⟨r, s'⟩
  cases r with
  | ok b => rw [Py.bind_ok e]; rfl
  | error x => rw [Py.bind_error e]

theorem onDict_bind (hr : ∀ l, like l l) {g : List (κ × ν) → List (κ × ν)} {ft : Unit → IPy (SD κ ν σ) γ} {f : Unit → Py (SD κ ν σ) γ} (hP : P s → P { s with dict := g s.dict })
    (h : Trace (Alike like) P (ft ()) (f ()) { s with dict := g s.dict }) : Trace (Alike like) P (onDict g >>= ft) (Verif.SD.onDict g >>= f) s :=
  Trace.write_bind (alike_refl hr) hP h

theorem onDict_trace (hr : ∀ l, like l l) {g : List (κ × ν) → List (κ × ν)} (hP : P s → P { s with dict := g s.dict }) :
    Trace (Alike like) P (onDict g) (Verif.SD.onDict g) s := Trace.write (alike_refl hr) hP

theorem sdList2 {Q : σ → Prop} {mt : IPy σ β} {m : Py σ β} {t : List (κ × ν)} {l : σ} (h : Trace like Q mt m l) (hs : Q l) (hP : ∀ l', Q l' → P { dict := t, list := l' }) :
    Trace (Alike like) P (onList mt) (Verif.SD.onList m) { dict := t, list := l } := h.sdList (s := { dict := t, list := l }) hs hP

theorem getitem_trace (hr : ∀ l, like l l) (k : κ) : Trace (Alike like) P (getitem eqv k) (Verif.SD.getitem eqv k) s :=
  Trace.of_still (alike_refl hr) rfl

theorem dictDelitem_trace (hr : ∀ l, like l l) {k : κ} (hP : has eqv s.dict k = true → P { s with dict := erase eqv s.dict k }) :
    Trace (Alike like) P (dictDelitem eqv k) (Verif.SD.dictDelitem eqv k) s := by
  refine Trace.get_bind ?_
  by_cases hk : has eqv s.dict k
  · rw [if_pos hk, if_pos hk]; exact onDict_trace hr fun _ => hP hk
  · rw [if_neg hk, if_neg hk]; exact Trace.raise (alike_refl hr) _

theorem dictPop_trace (hr : ∀ l, like l l) {k : κ} (hP : P { s with dict := erase eqv s.dict k }) :
    Trace (Alike like) P (dictPop eqv k) (Verif.SD.dictPop eqv k) s :=
  Trace.get_bind <| Trace.lift_bind (alike_refl hr) fun v _ => onDict_bind hr (fun _ => hP) (Trace.pure (alike_refl hr) v)

theorem dictUpdate_run {arg : DictArg κ ν} (hf : arg.fail = none) :
    Verif.SD.dictUpdate eqv arg s = (.ok (), { s with dict := PyDict.update eqv s.dict arg.items }) := by
  unfold Verif.SD.dictUpdate
  simp only [Verif.SD.onDict, Py.modify_bind, hf]
  rfl

theorem forEach_set_run (ps : List (κ × ν)) : ∀ s : SD κ ν σ, Py.forEach (fun p => Verif.SD.onDict fun d => PyDict.set eqv d p.1 p.2) ps s =
    (.ok (), { s with dict := PyDict.update eqv s.dict ps }) := by
  induction ps with
  | nil => exact fun _ => rfl
  | cons p ps ih => exact fun s => ih { s with dict := PyDict.set eqv s.dict p.1 p.2 }

theorem forEach_set_trace (hr : ∀ l, like l l) (ps : List (κ × ν)) : ∀ {s : SD κ ν σ}, (∀ pre suf, ps = pre ++ suf → P { s with dict := PyDict.update eqv s.dict pre }) →
    Trace (Alike like) P (IPy.forEach (fun p => onDict fun d => PyDict.set eqv d p.1 p.2) ps) (Py.forEach (fun p => Verif.SD.onDict fun d => PyDict.set eqv d p.1 p.2) ps) s := by
  induction ps with
  | nil => exact fun _ => Trace.pure (alike_refl hr) ()
  | cons p ps ih =>
    intro s hP
    refine onDict_bind hr (fun _ => hP [p] ps rfl) (ih fun pre suf e => ?_)
    exact hP (p :: pre) suf (by rw [e]; rfl)

theorem dictUpdate_trace (hr : ∀ l, like l l) {arg : DictArg κ ν} (hf : arg.fail = none)
    (hP : ∀ pre suf, arg.items = pre ++ suf → P { s with dict := PyDict.update eqv s.dict pre }) :
    Trace (Alike like) P (dictUpdate eqv arg) (Verif.SD.dictUpdate eqv arg) s := by
  cases arg with
  | dict items =>
    have e : (Verif.SD.dictUpdate eqv (.dict items) : Py (SD κ ν σ) Unit) = Verif.SD.onDict fun d => PyDict.update eqv d items := by
      funext s; rw [dictUpdate_run rfl]; rfl
    rw [e]
    exact onDict_trace hr fun _ => hP items [] (by simp [DictArg.items])
  | pairs items fail =>
    cases hf
    have e : (Verif.SD.dictUpdate eqv (.pairs items none) : Py (SD κ ν σ) Unit) = (Py.forEach (fun p => Verif.SD.onDict fun d => PyDict.set eqv d p.1 p.2) items >>= fun _ => pure ()) := by
      funext s
      rw [dictUpdate_run rfl, Py.bind_ok (forEach_set_run items s)]; rfl
    rw [e]
    exact Trace.bind (forEach_set_trace hr items hP) fun _ _ _ _ => Trace.pure (alike_refl hr) ()

theorem forEach_dictDelitem_trace (hr : ∀ l, like l l) (ks : List κ) : ∀ {s : SD κ ν σ}, (∀ pre suf, ks = pre ++ suf → P { s with dict := eraseAll eqv pre s.dict }) →
    Trace (Alike like) P (IPy.forEach (dictDelitem eqv) ks) (Py.forEach (Verif.SD.dictDelitem eqv) ks) s := by
  induction ks with
  | nil => exact fun _ => Trace.pure (alike_refl hr) ()
  | cons k ks ih =>
    intro s hP
    refine Trace.bind (dictDelitem_trace hr fun _ => hP [k] ks rfl) fun _ s1 e _ => ?_
    by_cases hk : has eqv s.dict k
    · rw [Verif.SD.dictDelitem_run hk] at e
      cases e
      exact ih fun pre suf e => hP (k :: pre) suf (by rw [e]; rfl)
    · unfold Verif.SD.dictDelitem at e
      rw [Py.get_bind, if_neg hk] at e
      cases e

/-- A query of the list. -/
theorem onList_like {mt : IPy σ β} {m : Py σ β} (hr : ∀ l, like l l) (h : Trace like (like s.list) mt m s.list) (hP : ∀ l, like s.list l → P { s with list := l }) :
    Trace (Alike like) P (onList mt) (Verif.SD.onList m) s := h.sdList (hr _) hP

theorem onList_ok {mt : IPy σ β} {m : Py σ β} (hr : ∀ l, like l l) (h : Trace like (like s.list) mt m s.list) {b : β} {s1 : SD κ ν σ}
    (e : Verif.SD.onList m s = (.ok b, s1)) : s1.dict = s.dict ∧ like s.list s1.list := by
  obtain ⟨d, -, -, e3, -, -, e6⟩ := h (hr _) []
  unfold Verif.SD.onList at e
  rcases hm : m s.list with ⟨r, l⟩
  rw [hm] at e
  cases e
  refine ⟨rfl, ?_⟩
  have := e6 b (by rw [hm])
  rw [this, hm] at e3
  exact e3

/-- What an interrupted call leaves behind. -/
def Left (eqv : κ → κ → Bool) (L : ListAPI σ κ) (load : σ → Nat) (op : SDOp κ ν) (s s1 x : SD κ ν σ) : Prop :=
  op.Aftermath (load s.list) (iter L s) (iter L s1) (iter L x) ∧
    op.Progress (fun k d => lookup eqv d k) eqv s.dict s1.dict x.dict (iter L s) (iter L s1) (iter L x)

variable (h : Good L O eqv I) (hc : IL.Cuts L I load like) (ha : IL.Asks L like)
include h hc

theorem setitem_trace (hs : Verif.SD.Inv L O eqv I s) (k : κ) (v : ν) :
    Trace (Alike like) (Left eqv L load (.setitem k v) s (Verif.SD.setitem eqv L k v s).2) (setitem eqv IL k v) (Verif.SD.setitem eqv L k v) s := by
  by_cases hk : Verif.SD.contains eqv k s
  · have e : (Verif.SD.setitem eqv L k v s).2 = { s with dict := PyDict.set eqv s.dict k v } := by
      unfold Verif.SD.setitem
      simp only [Py.get_bind, hk, if_true]; rfl
    rw [e]
    refine Trace.get_bind ?_
    simp only [hk, if_true]
    exact onDict_trace hc.refl fun _ => ⟨.inl rfl, .inr ⟨rfl, rfl⟩⟩
  · obtain ⟨l', e1, h1, h2⟩ := Verif.SD.onList_run (s := s) (h.list.add k) hs.list rfl
    have e : (Verif.SD.setitem eqv L k v s).2 = { dict := PyDict.set eqv s.dict k v, list := (L.add k s.list).2 } := by
      unfold Verif.SD.setitem
      simp only [Py.get_bind, hk]
      simp only [Bool.false_eq_true, if_false]
      rw [Py.bind_ok e1]
      have : (L.add k s.list).2 = l' := congrArg (fun r => r.2.list) e1
      rw [this]; rfl
    rw [e]
    refine Trace.get_bind ?_
    simp only [hk]
    simp only [Bool.false_eq_true, if_false]
    refine Trace.bind ((hc.add hs.list k).sdList (.inl rfl) fun l hl => ⟨hl, .inl rfl⟩) fun _ s1 e1' _ => ?_
    have e2 : s1 = { s with list := (L.add k s.list).2 } := (congrArg Prod.snd e1').symm
    rw [e2]
    exact onDict_trace hc.refl fun _ => ⟨.inr (.refl _ _), .inr ⟨rfl, rfl⟩⟩

omit h in
theorem clear_trace (s : SD κ ν σ) :
    Trace (Alike like) (Left eqv L load .clear s (Verif.SD.clear L s).2) (clear IL) (Verif.SD.clear L) s := by
  have e : (Verif.SD.clear L s).2 = { dict := [], list := (L.clear s.list).2 } := rfl
  rw [e]
  refine onDict_bind hc.refl (fun _ => ⟨.inl rfl, .inr rfl⟩) ?_
  exact sdList2 (hc.clear s.list) (.inl rfl) fun l hl => ⟨hl, .inr rfl⟩

omit h in
theorem delitem_trace (hs : Verif.SD.Inv L O eqv I s) (k : κ) :
    Trace (Alike like) (Left eqv L load (.delitem k) s (Verif.SD.delitem eqv L k s).2) (delitem eqv IL k) (Verif.SD.delitem eqv L k) s := by
  have e : has eqv s.dict k = true → (Verif.SD.delitem eqv L k s).2 = { dict := erase eqv s.dict k, list := (L.remove k s.list).2 } := fun hk => by
    unfold Verif.SD.delitem
    rw [Py.bind_ok (Verif.SD.dictDelitem_run hk)]
    rfl
  refine Trace.bind (dictDelitem_trace hc.refl fun hk => ⟨.inl rfl, .inr (by rw [e hk])⟩) fun _ s1 e1 _ => ?_
  by_cases hk : has eqv s.dict k
  · rw [Verif.SD.dictDelitem_run hk] at e1
    cases e1
    rw [e hk]
    exact sdList2 (hc.remove hs.list k) (.inl rfl) fun l hl => ⟨hl, .inr rfl⟩
  · unfold Verif.SD.dictDelitem at e1
    rw [Py.get_bind, if_neg hk] at e1
    cases e1

theorem pop_trace (hs : Verif.SD.Inv L O eqv I s) (k : κ) (default : Option ν) :
    Trace (Alike like) (Left eqv L load (.pop k default) s (Verif.SD.pop eqv L k default s).2) (pop eqv IL k default) (Verif.SD.pop eqv L k default) s := by
  refine Trace.get_bind ?_
  by_cases hk : Verif.SD.contains eqv k s
  · obtain ⟨v, hv⟩ := lookup_some hk
    obtain ⟨l', e1, h1, h2⟩ := Verif.SD.onList_run (h.list.remove k) hs.list (Verif.SD.list_remove h hs k hk)
    have e : (Verif.SD.pop eqv L k default s).2 = { dict := erase eqv s.dict k, list := l' } := by
      unfold Verif.SD.pop
      simp only [Py.get_bind, hk, if_true]
      rw [Py.bind_ok e1, Verif.SD.dictPop_run (s := { s with list := l' }) hv]
    have e2 : (L.remove k s.list).2 = l' := congrArg (fun r => r.2.list) e1
    rw [e]
    simp only [hk, if_true]
    refine Trace.bind ((hc.remove hs.list k).sdList (.inl rfl) fun l hl => ⟨?_, .inl rfl⟩) fun _ s1 e1' _ => ?_
    · rw [e2] at hl; exact hl
    rw [e1] at e1'
    cases e1'
    exact dictPop_trace hc.refl ⟨.inr (.refl _ _), .inr ⟨rfl, rfl⟩⟩
  · simp only [hk]
    simp only [Bool.false_eq_true, if_false]
    cases default with
    | none => exact Trace.raise (alike_refl hc.refl) _
    | some v => exact Trace.pure (alike_refl hc.refl) v

theorem popitem_trace (hs : Verif.SD.Inv L O eqv I s) (i : Int) :
    Trace (Alike like) (Left eqv L load (.popitem i) s (Verif.SD.popitem eqv L i s).2) (popitem eqv IL i) (Verif.SD.popitem eqv L i) s := by
  refine Trace.get_bind ?_
  by_cases h0 : s.dict.length = 0
  · simp only [h0, if_true]; exact Trace.raise (alike_refl hc.refl) _
  simp only [h0, if_false]
  rcases Verif.SD.list_pop h hs i with ⟨k, v, l', h1, hv, h2, e1, hi⟩ | ⟨l', h1, h2, e1, hi⟩
  · have e : (Verif.SD.popitem eqv L i s).2 = { dict := erase eqv s.dict k, list := l' } := by
      unfold Verif.SD.popitem
      simp only [Py.get_bind, h0, if_false]
      rw [Py.bind_ok e1, Py.bind_ok (Verif.SD.dictPop_run (s := { s with list := l' }) hv)]
      rfl
    have e2 : (L.pop i s.list).2 = l' := congrArg (fun r => r.2.list) e1
    rw [e]
    refine Trace.bind ((hc.pop hs.list i).sdList (.inl rfl) fun l hl => ⟨?_, .inl rfl⟩) fun _ s1 e1' _ => ?_
    · rw [e2] at hl; exact hl
    rw [e1] at e1'
    cases e1'
    exact Trace.bind (dictPop_trace hc.refl ⟨.inr (.refl _ _), .inr ⟨rfl, rfl⟩⟩) fun w _ _ _ => Trace.pure (alike_refl hc.refl) _
  · have e : (Verif.SD.popitem eqv L i s).2 = { s with list := l' } := by
      unfold Verif.SD.popitem
      simp only [Py.get_bind, h0, if_false]
      rw [Py.bind_error e1]
    have e2 : (L.pop i s.list).2 = l' := congrArg (fun r => r.2.list) e1
    rw [e]
    refine Trace.bind ((hc.pop hs.list i).sdList (.inl rfl) fun l hl => ⟨?_, .inl rfl⟩) fun _ s1 e1' _ => ?_
    · rw [e2] at hl; exact hl
    rw [e1] at e1'
    cases e1'

theorem viewDelInt_trace (hs : Verif.SD.Inv L O eqv I s) (i : Int) :
    Trace (Alike like) (Left eqv L load (.viewDelInt i) s (Verif.SD.viewDelInt eqv L i s).2) (viewDelInt eqv IL i) (Verif.SD.viewDelInt eqv L i) s := by
  rcases Verif.SD.list_pop h hs i with ⟨k, v, l', h1, hv, h2, e1, hi⟩ | ⟨l', h1, h2, e1, hi⟩
  · have e : (Verif.SD.viewDelInt eqv L i s).2 = { dict := erase eqv s.dict k, list := l' } := by
      unfold Verif.SD.viewDelInt
      rw [Py.bind_ok e1, Verif.SD.dictDelitem_run (s := { s with list := l' }) (by rw [has_eq_lookup, hv]; rfl)]
    have e2 : (L.pop i s.list).2 = l' := congrArg (fun r => r.2.list) e1
    rw [e]
    refine Trace.bind ((hc.pop hs.list i).sdList (.inl rfl) fun l hl => ⟨?_, .inl rfl⟩) fun _ s1 e1' _ => ?_
    · rw [e2] at hl; exact hl
    rw [e1] at e1'
    cases e1'
    exact dictDelitem_trace hc.refl fun _ => ⟨.inr (.refl _ _), .inr ⟨rfl, rfl⟩⟩
  · have e : (Verif.SD.viewDelInt eqv L i s).2 = { s with list := l' } := by
      unfold Verif.SD.viewDelInt
      rw [Py.bind_error e1]
    have e2 : (L.pop i s.list).2 = l' := congrArg (fun r => r.2.list) e1
    rw [e]
    refine Trace.bind ((hc.pop hs.list i).sdList (.inl rfl) fun l hl => ⟨?_, .inl rfl⟩) fun _ s1 e1' _ => ?_
    · rw [e2] at hl; exact hl
    rw [e1] at e1'
    cases e1'

theorem setdefault_trace (hs : Verif.SD.Inv L O eqv I s) (k : κ) (v : ν) :
    Trace (Alike like) (Left eqv L load (.setdefault k v) s (Verif.SD.setdefault eqv L k v s).2) (setdefault eqv IL k v) (Verif.SD.setdefault eqv L k v) s := by
  refine Trace.get_bind ?_
  by_cases hk : Verif.SD.contains eqv k s
  · simp only [hk, if_true]; exact getitem_trace hc.refl k
  · obtain ⟨l', e1, h1, h2⟩ := Verif.SD.onList_run (s := { s with dict := PyDict.set eqv s.dict k v }) (h.list.add k) hs.list rfl
    have e2 : (L.add k s.list).2 = l' := congrArg (fun r => r.2.list) e1
    have e : (Verif.SD.setdefault eqv L k v s).2 = { dict := PyDict.set eqv s.dict k v, list := (L.add k s.list).2 } := by
      unfold Verif.SD.setdefault
      simp only [Py.get_bind, hk]
      simp only [Bool.false_eq_true, if_false, Verif.SD.onDict, Py.modify_bind]
      rw [Py.bind_ok e1, e2]; rfl
    rw [e]
    simp only [hk]
    simp only [Bool.false_eq_true, if_false]
    refine onDict_bind hc.refl (fun _ => ⟨.inl rfl, .inr rfl⟩) ?_
    refine Trace.bind (sdList2 (hc.add hs.list k) (.inl rfl) fun l hl => ⟨hl, .inr rfl⟩) fun _ s1 _ _ => Trace.pure (alike_refl hc.refl) v

include ha in
theorem viewDelSlice_trace (hs : Verif.SD.Inv L O eqv I s) (sl : PySlice) :
    Trace (Alike like) (Left eqv L load (.viewDelSlice sl) s (Verif.SD.viewDelSlice eqv L sl s).2) (viewDelSlice eqv IL sl) (Verif.SD.viewDelSlice eqv L sl) s := by
  refine Trace.bind (onList_like hc.refl (ha.getSlice s.list sl) fun l hl => ⟨⟨L.iter l, by rw [hc.iter hl]; exact .refl _, .refl _ _⟩, .inl rfl⟩) fun ks s1 e1 _ => ?_
  obtain ⟨g1, g2⟩ := onList_ok hc.refl (ha.getSlice s.list sl) e1
  obtain ⟨l', e, hs'⟩ := Verif.SD.onList_query (h.list.getSlice sl) hs (Verif.SD.spec_getSlice_snd sl)
  have hdist := sortedKeys_distinct h.order h.equiv hs.keyed
  rw [e1] at e
  cases hp : Spec.slicePositions sl (sortedKeys O s.dict).length with
  | error x =>
    have e2 : (Spec.getSlice sl (sortedKeys O s.dict)).1 = .error x := by unfold Spec.getSlice; rw [hp]
    rw [e2] at e
    cases e
  | ok ps =>
    have e2 : (Spec.getSlice sl (sortedKeys O s.dict)).1 = .ok (ps.filterMap ((sortedKeys O s.dict)[·]?)) := by
      unfold Spec.getSlice; rw [hp]
    rw [e2] at e
    cases e
    generalize hks : ps.filterMap ((sortedKeys O s.dict)[·]?) = ks at *
    obtain ⟨l2, e3, h1, h2⟩ := Verif.SD.onList_run (s := { s with list := l' }) (h.list.delSlice sl) hs'.list
      (r := .ok ()) (l := Spec.deletePositions ps (sortedKeys O s.dict))
      (by rw [hs'.iter]; unfold Spec.delSlice; simp only [hp])
    have hd : Py.forEach (Verif.SD.dictDelitem eqv) ks ({ dict := s.dict, list := l2 } : SD κ ν σ) = (.ok (), { dict := eraseAll eqv ks s.dict, list := l2 }) := by
      rw [← hks, Verif.SD.forEach_dictDelitem (s := { dict := s.dict, list := l2 })
        (Verif.SD.distinct_filterMap_positions h.equiv hdist (Verif.SD.slicePositions_nodup hp)) h.equiv]
      intro k hk
      obtain ⟨i, _, hi⟩ := List.mem_filterMap.1 hk
      show has eqv s.dict k = true
      rw [← sortedKeys_any h.order]
      exact any_self h.equiv (List.mem_of_getElem? hi)
    have e : (Verif.SD.viewDelSlice eqv L sl s).2 = { dict := eraseAll eqv ks s.dict, list := l2 } := by
      unfold Verif.SD.viewDelSlice
      rw [Py.bind_ok e1, Py.bind_ok e3, hd]
    rw [e]
    have g2 : like s.list l' := g2
    have q := hc.delSlice (s := l') hs'.list sl
    rw [hc.iter g2, hc.load_like g2] at q
    refine Trace.bind (sdList2 q ⟨_, .refl _, by rw [hc.iter g2]; exact .refl _ _⟩ fun l hl => ⟨hl, .inl rfl⟩) fun _ s2 e3' hs2 => ?_
    rw [e3] at e3'
    cases e3'
    refine forEach_dictDelitem_trace hc.refl ks fun pre suf hpre => ⟨hs2.1, .inr ⟨rfl, fun k => ?_⟩⟩
    show lookup eqv (eraseAll eqv pre s.dict) k = lookup eqv s.dict k ∨ lookup eqv (eraseAll eqv pre s.dict) k = lookup eqv (eraseAll eqv ks s.dict) k
    rw [lookup_eraseAll h.equiv, lookup_eraseAll h.equiv, hpre, List.any_append]
    cases pre.any (eqv · k) with
    | false => exact .inl rfl
    | true => exact .inr rfl

/-- `l` has for every key the value of `d` or one of `items`. -/
def Mixed (eqv : κ → κ → Bool) (items d l : List (κ × ν)) : Prop :=
  ∀ k, lookup eqv l k = lookup eqv d k ∨ ∃ p ∈ items, eqv p.1 k = true ∧ lookup eqv l k = some p.2

omit h hc in
theorem Mixed.refl (items d : List (κ × ν)) : Mixed eqv items d d := fun _ => .inl rfl

omit h hc in
theorem Mixed.trans {items a b c : List (κ × ν)} (h1 : Mixed eqv items a b) (h2 : Mixed eqv items b c) : Mixed eqv items a c := fun k => by
  rcases h2 k with h | h
  · rw [h]; exact h1 k
  · exact .inr h

omit h hc in
theorem Mixed.set (he : IsEquiv eqv) {items : List (κ × ν)} (d : List (κ × ν)) {p : κ × ν} (hp : ∃ q ∈ items, eqv q.1 p.1 = true ∧ q.2 = p.2) :
    Mixed eqv items d (PyDict.set eqv d p.1 p.2) := fun k => by
  rw [lookup_set he]
  obtain ⟨q, hq, hqp, hq2⟩ := hp
  by_cases hk : eqv p.1 k = true
  · rw [if_pos hk]; exact .inr ⟨q, hq, he.trans _ _ _ hqp hk, by rw [hq2]⟩
  · rw [if_neg hk]; exact .inl rfl

omit h hc in
theorem Mixed.update (he : IsEquiv eqv) {items : List (κ × ν)} (ps : List (κ × ν)) : ∀ (d : List (κ × ν)), (∀ p ∈ ps, ∃ q ∈ items, eqv q.1 p.1 = true ∧ q.2 = p.2) →
    Mixed eqv items d (PyDict.update eqv d ps) := by
  induction ps with
  | nil => exact fun d _ => .refl _ _
  | cons p ps ih =>
    intro d hp
    exact Mixed.trans (.set he d (hp p (List.mem_cons_self ..))) (ih _ fun q hq => hp q (List.mem_cons_of_mem _ hq))

omit hc in
theorem partOf_update (d ps : List (κ × ν)) : PartOf (sortedKeys O (PyDict.update eqv d ps)) (sortedKeys O d) := by
  refine .trans (.of_perm (sortedKeys_sort h.order _).perm.symm) (.trans ?_ (.of_perm (sortedKeys_sort h.order _).perm))
  rw [keys_update]
  exact .foldl_addNew eqv _ _

theorem forEach_setitem_trace {items : List (κ × ν)} (ps : List (κ × ν)) : (∀ p ∈ ps, ∃ q ∈ items, eqv q.1 p.1 = true ∧ q.2 = p.2) → ∀ {s : SD κ ν σ}, Verif.SD.Inv L O eqv I s →
    Trace (Alike like) (fun x => PartOf (iter L (Py.forEach (fun p => Verif.SD.setitem eqv L p.1 p.2) ps s).2) (iter L x) ∧ Mixed eqv items s.dict x.dict)
      (IPy.forEach (fun p => setitem eqv IL p.1 p.2) ps) (Py.forEach (fun p => Verif.SD.setitem eqv L p.1 p.2) ps) s := by
  induction ps with
  | nil => intro _ s hs; exact Trace.pure (alike_refl hc.refl) ()
  | cons p ps ih =>
    intro hp s hs
    obtain ⟨s1, e1, h1, h2⟩ := (Verif.SD.setitem_refines h p.1 p.2).eq_of hs rfl
    obtain ⟨s2, e2, h3, h4⟩ := (Verif.SD.forEach_setitem h ps).eq_of h2 rfl
    have e0 : Py.forEach (fun p => Verif.SD.setitem eqv L p.1 p.2) (p :: ps) s = (.ok (), s2) := (Py.bind_ok e1).trans e2
    have e : (Py.forEach (fun p => Verif.SD.setitem eqv L p.1 p.2) (p :: ps) s).2 = s2 := congrArg Prod.snd e0
    have p2 : PartOf (iter L s2) (iter L s1) := by
      unfold iter
      rw [h4.iter, h2.iter, h3]
      exact partOf_update h _ _
    have p1 : PartOf (iter L s1) (iter L s) := by
      unfold iter
      rw [h2.iter, hs.iter, h1]
      exact partOf_update h _ [p]
    have m1 : Mixed eqv items s.dict s1.dict := by rw [h1]; exact .set h.equiv _ (hp p (List.mem_cons_self ..))
    rw [e]
    refine Trace.bind ((setitem_trace h hc hs p.1 p.2).weaken ⟨.inl rfl, .inl rfl⟩ fun x hx => ?_) fun _ s1' e1' _ => ?_
    · rw [e1] at hx
      obtain ⟨hx1, hx2⟩ := hx
      refine ⟨p2.trans ?_, ?_⟩
      · rcases hx1 with hx1 | hx1
        · rw [hx1]; exact p1
        · exact hx1.within
      · rcases hx2 with hx2 | ⟨hx2, -⟩
        · rw [hx2]; exact .refl _ _
        · rw [hx2]; exact m1
    · have e1' := e1.symm.trans e1'
      cases e1'
      have := ih (fun q hq => hp q (List.mem_cons_of_mem _ hq)) h2
      rw [e2] at this
      exact this.weaken ⟨p2, .refl _ _⟩ fun x ⟨a, b⟩ => ⟨a, m1.trans b⟩

theorem update_trace (hs : Verif.SD.Inv L O eqv I s) {arg : DictArg κ ν} (hf : arg.fail = none) :
    Trace (Alike like) (Left eqv L load (.update arg) s (Verif.SD.update eqv L arg s).2) (update eqv IL arg) (Verif.SD.update eqv L arg) s := by
  obtain ⟨s1, e1, h1, h2⟩ := (Verif.SD.update_refines h hf).eq_of hs rfl
  have h1 : s1.dict = PyDict.update eqv s.dict arg.items := h1
  have p1 : PartOf (iter L s1) (iter L s) := by
    unfold iter
    rw [h2.iter, hs.iter, h1]
    exact partOf_update h _ _
  have m1 : Mixed eqv arg.items s.dict s1.dict := by rw [h1]; exact .update h.equiv _ _ fun p hp => ⟨p, hp, h.equiv.refl _, rfl⟩
  have pk : PartOf (iter L s1) (keys s1.dict) := by unfold iter; rw [h2.iter]; exact .of_perm (sortedKeys_sort h.order _).perm.symm
  rw [e1]
  refine Trace.get_bind ?_
  by_cases h0 : s.dict.length = 0
  · simp only [h0, if_true]
    refine Trace.bind (dictUpdate_trace hc.refl hf fun pre suf e => ⟨p1, Mixed.update h.equiv _ _ fun p hp => ⟨p, by rw [e]; simp [hp], h.equiv.refl _, rfl⟩⟩) fun _ s2 e2 _ => ?_
    rw [dictUpdate_run hf, ← h1] at e2
    cases e2
    refine Trace.get_bind ?_
    have hz : L.iter s.list = [] := by rw [hs.iter, List.length_eq_zero_iff.1 h0]; rfl
    refine sdList2 (hc.update hs.list (keys s1.dict)) .of_prefix fun l hl => ⟨?_, m1⟩
    rw [hz] at hl
    exact pk.trans hl
  · simp only [h0, if_false]
    obtain ⟨pairs, hp, hu, hi⟩ : ∃ pairs, Verif.SD.pairsOf eqv arg = .ok pairs ∧ PyDict.update eqv s.dict pairs = PyDict.update eqv s.dict arg.items ∧
        ∀ p ∈ pairs, ∃ q ∈ arg.items, eqv q.1 p.1 = true ∧ q.2 = p.2 := by
      cases arg with
      | dict items => exact ⟨items, rfl, rfl, fun p hp => ⟨p, hp, h.equiv.refl _, rfl⟩⟩
      | pairs items fail =>
        cases hf
        exact ⟨_, rfl, update_ofPairs h.equiv _ items, mem_ofPairs h.equiv items⟩
    refine Trace.lift_bind (alike_refl hc.refl) fun pairs' hp' => ?_
    rw [hp] at hp'
    cases hp'
    by_cases hb : 10 * pairs.length > s.dict.length
    · simp only [if_pos hb]
      refine Trace.bind (dictUpdate_trace hc.refl rfl fun pre suf e => ⟨p1, Mixed.update h.equiv _ _ fun p hp => hi p ?_⟩) fun _ s2 e2 _ => ?_
      · rw [show pairs = pre ++ suf from e]; simp [hp]
      rw [dictUpdate_run rfl] at e2
      have e2 : s2 = { s with dict := PyDict.update eqv s.dict pairs } := (congrArg Prod.snd e2).symm
      rw [hu, ← h1] at e2
      cases e2
      obtain ⟨l2, e3, g1, g2⟩ := Verif.SD.onList_run (s := { s with dict := s1.dict }) h.list.clear hs.list rfl
      refine Trace.bind (sdList2 (hc.clear s.list) (.inl rfl) fun l hl => ⟨?_, m1⟩) fun _ s3 e3' _ => ?_
      · show PartOf _ (L.iter l)
        rcases hl with hl | hl
        · rw [hl]; exact p1
        · rw [hl]; exact .nil _
      rw [e3] at e3'
      cases e3'
      refine Trace.get_bind ?_
      refine sdList2 (hc.update g2 (keys s1.dict)) .of_prefix fun l hl => ⟨?_, m1⟩
      rw [g1] at hl
      exact pk.trans hl
    · simp only [if_neg hb]
      have e3 : Verif.SD.update eqv L arg s = Py.forEach (fun p => Verif.SD.setitem eqv L p.1 p.2) pairs s := by
        unfold Verif.SD.update
        simp only [Py.get_bind, h0, if_false, hp, Py.lift_ok_bind, if_neg hb]
      have e4 : (Py.forEach (fun p => Verif.SD.setitem eqv L p.1 p.2) pairs s).2 = s1 := by rw [← e3, e1]
      have := forEach_setitem_trace h hc pairs hi hs
      rw [e4] at this
      exact this

include ha in
/-- Every call. -/
theorem step_trace (hs : Verif.SD.Inv L O eqv I s) (op : SDOp κ ν) (hv : op.Valid) :
    Trace (Alike like) (Left eqv L load op s (Verif.SD.step eqv L op s).2) (step eqv IL L op) (Verif.SD.step eqv L op) s := by
  have o : ∀ {β : Type} {mt : IPy (SD κ ν σ) β} {m : Py (SD κ ν σ) β} (f : β → DOut κ ν), Trace (Alike like) (Left eqv L load op s (m s).2) mt m s →
      Trace (Alike like) (Left eqv L load op s (Verif.SD.out f m s).2) (out f mt) (Verif.SD.out f m) s := fun f ht => by
    rw [out_snd]; exact ht.dout (alike_refl hc.refl) f
  have r : ∀ {β : Type} {m : Py (SD κ ν σ) β}, (m s).2 = s → Trace (Alike like) (Left eqv L load op s (m s).2) (IPy.still m) m s := fun hm =>
    Trace.of_still (alike_refl hc.refl) hm
  have io : ∀ f, (Verif.SD.itemsOf eqv L f s).2 = s := fun f => by unfold Verif.SD.itemsOf; split <;> rfl
  cases op with
  | setitem k v => exact o _ (setitem_trace h hc hs k v)
  | delitem k => exact o _ (delitem_trace hc hs k)
  | clear => exact o _ (clear_trace hc s)
  | pop k d => exact o _ (pop_trace h hc hs k d)
  | popitem i => exact o _ (popitem_trace h hc hs i)
  | setdefault k v => exact o _ (setdefault_trace h hc hs k v)
  | update arg => exact o _ (update_trace h hc hs hv)
  | viewDelInt i => exact o _ (viewDelInt_trace h hc hs i)
  | viewDelSlice sl => exact o _ (viewDelSlice_trace h hc ha hs sl)
  | peekitem i | itemsAt i =>
    exact o _ (Trace.bind (onList_like hc.refl (ha.getInt _ i) fun l hl => ⟨hc.iter hl, rfl⟩) fun k _ _ _ =>
      Trace.bind (getitem_trace hc.refl k) fun v _ _ _ => Trace.pure (alike_refl hc.refl) _)
  | valuesAt i =>
    exact o _ (Trace.bind (onList_like hc.refl (ha.getInt _ i) fun l hl => ⟨hc.iter hl, rfl⟩) fun k _ _ _ => getitem_trace hc.refl k)
  | itemsSlice sl =>
    exact o _ (Trace.bind (onList_like hc.refl (ha.getSlice _ sl) fun l hl => ⟨hc.iter hl, rfl⟩) fun ks s1 _ _ =>
      Trace.mapEach (alike_refl hc.refl) (fun k s => Trace.bind (getitem_trace hc.refl k) fun v _ _ _ => Trace.pure (alike_refl hc.refl) _) ks s1)
  | valuesSlice sl =>
    exact o _ (Trace.bind (onList_like hc.refl (ha.getSlice _ sl) fun l hl => ⟨hc.iter hl, rfl⟩) fun ks s1 _ _ =>
      Trace.mapEach (alike_refl hc.refl) (fun k s => getitem_trace hc.refl k) ks s1)
  | keysAt i => exact o _ (onList_like hc.refl (ha.getInt _ i) fun l hl => ⟨hc.iter hl, rfl⟩)
  | keysSlice sl => exact o _ (onList_like hc.refl (ha.getSlice _ sl) fun l hl => ⟨hc.iter hl, rfl⟩)
  | bisectLeft k => exact o _ (onList_like hc.refl (ha.bisectLeft _ k) fun l hl => ⟨hc.iter hl, rfl⟩)
  | bisectRight k => exact o _ (onList_like hc.refl (ha.bisectRight _ k) fun l hl => ⟨hc.iter hl, rfl⟩)
  | index k a b => exact o _ (onList_like hc.refl (ha.index _ k a b) fun l hl => ⟨hc.iter hl, rfl⟩)
  | islice a b c => exact o _ (onList_like hc.refl (ha.islice _ a b c) fun l hl => ⟨hc.iter hl, rfl⟩)
  | reset n => exact o _ ((hc.reset hs.list hv).sdList (.refl _) fun l hl => ⟨hl, rfl⟩)
  | irange lo hi a b c => exact r (by rw [Verif.SD.step, out_snd]; exact congrArg (fun l => ({ s with list := l } : SD κ ν σ)) (ha.irange s.list lo hi a b c))
  | copy => exact r (by rw [Verif.SD.step, out_snd, io])
  | or d => exact r (by rw [Verif.SD.step, out_snd, io])
  | ror d => exact r (by rw [Verif.SD.step, out_snd, io])
  | items => exact r (by rw [Verif.SD.step, out_snd]; rfl)
  | values => exact r (by rw [Verif.SD.step, out_snd]; rfl)
  | getitem k => exact r (by rw [Verif.SD.step, out_snd]; rfl)
  | _ => exact r rfl

end Interrupt.SD
end Verif
