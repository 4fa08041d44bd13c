import Verif.Proofs.Owners
import Verif.Proofs.SortedDict
/-!
# Threads that change one sorted dict: proofs
-/

namespace Verif
variable {κ ν σ : Type} {eqv : κ → κ → Bool}

theorem DictSpec.query_stays {O : Spec.Order κ} (op : SDOp κ ν) (hq : op.isQuery = true) (d : List (κ × ν)) : (DictSpec.step eqv O op d).2 = d := by
  have out_snd : ∀ {β : Type} (f : β → DOut κ ν) (m : Py (List (κ × ν)) β), (m d).2 = d → (DictSpec.out f m d).2 = d := by
    intro β f m h
    unfold DictSpec.out
    rw [Py.bind_apply]
    rcases e : m d with ⟨_ | b, t⟩ <;> rw [e] at h <;> cases h <;> rfl
  cases op <;> first | cases hq; done | exact out_snd _ _ rfl

namespace Threads.SD
open PyDict
variable {W : WListAPI σ κ} {know mine : κ → Prop} {errs : PyErr → Prop}

/-- What the thread knows of the dict. -/
def View (eqv : κ → κ → Bool) (know : κ → Prop) (s : SD κ ν σ) (d : List (κ × ν)) : Prop := ∀ k, know k → lookup eqv s.dict k = lookup eqv d k

/-- What the thread may write. -/
def Mine (eqv : κ → κ → Bool) (mine : κ → Prop) (f : SD κ ν σ → SD κ ν σ) : Prop := ∀ s k, ¬ mine k → lookup eqv (f s).dict k = lookup eqv s.dict k

theorem onList_own {m : Prog σ Unit} (h : m.MayRaise errs) (d : List (κ × ν)) :
    (onList m).Own (View eqv know) (Mine eqv mine) (fun d' x => d' = d ∧ (x = .ok () ∨ ∃ e, errs e ∧ x = .error e)) d := by
  induction m with
  | ret x =>
    rcases x with e | u
    · exact ⟨rfl, .inr ⟨e, h e rfl, rfl⟩⟩
    · exact ⟨rfl, .inl rfl⟩
  | read k ih => exact .read fun s _ => ih _ (h _)
  | write f k ih => exact ⟨d, fun s hs => hs, fun s v _ => rfl, ih h⟩

theorem dictSetitem_own (he : IsEquiv eqv) (hmine : ∀ k k', mine k → eqv k k' = true → mine k') {k : κ} (hk : mine k) (v : ν) (d : List (κ × ν)) :
    (dictSetitem (σ := σ) eqv k v).Own (View eqv know) (Mine eqv mine) (fun d' x => d' = PyDict.set eqv d k v ∧ x = .ok ()) d := by
  refine ⟨_, fun s hs k' hk' => ?_, fun s k' hk' => ?_, rfl, rfl⟩
  · show lookup eqv (PyDict.set eqv s.dict k v) k' = _
    rw [lookup_set he, lookup_set he, hs k' hk']
  · show lookup eqv (PyDict.set eqv s.dict k v) k' = _
    rw [lookup_set he, if_neg fun e => hk' (hmine k k' hk e)]

theorem dictPop_own (he : IsEquiv eqv) (hmine : ∀ k k', mine k → eqv k k' = true → mine k') {k : κ} (hk : mine k) (hn : know k) (d : List (κ × ν)) :
    (dictPop (σ := σ) eqv k).Own (View eqv know) (Mine eqv mine) (fun d' x => (∃ v, lookup eqv d k = some v ∧ d' = erase eqv d k ∧ x = .ok v) ∨
      (lookup eqv d k = none ∧ d' = d ∧ x = .error .keyError)) d := by
  refine .read fun s hs => ?_
  show Prog.Own _ _ (Prog.bind (.ret (PyDict.getitem eqv s.dict k)) _) _ _
  have hl := hs k hn
  rcases e : lookup eqv d k with _ | v
  · rw [show PyDict.getitem eqv s.dict k = .error .keyError by unfold PyDict.getitem; rw [hl, e]]
    exact .inr ⟨rfl, rfl, rfl⟩
  · rw [show PyDict.getitem eqv s.dict k = .ok v by unfold PyDict.getitem; rw [hl, e]]
    refine ⟨erase eqv d k, fun s hs k' hk' => ?_, fun s k' hk' => ?_, .inl ⟨v, rfl, rfl, rfl⟩⟩
    · show lookup eqv (erase eqv s.dict k) k' = _
      rw [lookup_erase he, lookup_erase he, hs k' hk']
    · show lookup eqv (erase eqv s.dict k) k' = _
      rw [lookup_erase he, if_neg fun e => hk' (hmine k k' hk e)]

/-- The calls of a thread. -/
theorem change_own {Q : QListAPI σ κ} {L : ListAPI σ κ} {R : σ → σ → Prop} {I : σ → Prop} (hQ : Q.Sound L R I)
    (he : IsEquiv eqv) (hmine : ∀ k k', mine k → eqv k k' = true → mine k') (hknow : ∀ k k', know k → eqv k k' = true → know k') (hW : ∀ v, (W.add v).MayRaise errs ∧ (W.remove v).MayRaise errs) {O : Spec.Order κ}
    (op : SDOp κ ν) (hop : op.isQuery = true ∨ ∃ k, op.changed = some k ∧ mine k) (d : List (κ × ν)) :
    (change eqv W Q L op).Own (View eqv know) (Mine eqv mine) (fun d' x =>
      (((∃ k, op.about = some k ∧ know k) → x = (DictSpec.step eqv O op d).1) ∧ d' = (DictSpec.step eqv O op d).2) ∨
      (∃ e, op.listFirst ∧ errs e ∧ x = .error e ∧ d' = d) ∨
      ∃ e, op.dictFirst ∧ errs e ∧ x = .error e ∧ d' = (DictSpec.step eqv O op d).2) d := by
  have fin : ∀ {β : Type} {m : Prog (SD κ ν σ) β} {f : β → DOut κ ν} {x0 : Except PyErr β} {d0 : List (κ × ν)}, DictSpec.step eqv O op d = (x0.map f, d0) →
      m.Own (View eqv know) (Mine eqv mine) (fun d' x => (d' = d0 ∧ x = x0) ∨ (∃ e, op.listFirst ∧ errs e ∧ x = .error e ∧ d' = d) ∨ ∃ e, op.dictFirst ∧ errs e ∧ x = .error e ∧ d' = d0) d →
      (f <$> m : Prog (SD κ ν σ) (DOut κ ν)).Own (View eqv know) (Mine eqv mine) (fun d' x =>
      (((∃ k, op.about = some k ∧ know k) → x = (DictSpec.step eqv O op d).1) ∧ d' = (DictSpec.step eqv O op d).2) ∨
      (∃ e, op.listFirst ∧ errs e ∧ x = .error e ∧ d' = d) ∨
      ∃ e, op.dictFirst ∧ errs e ∧ x = .error e ∧ d' = (DictSpec.step eqv O op d).2) d := by
    intro β m f x0 d0 e hm
    refine hm.map.mono ?_
    rintro d' _ ⟨y, hy, rfl⟩
    rw [e]
    rcases hy with ⟨rfl, rfl⟩ | ⟨e', h1, h2, rfl, rfl⟩ | ⟨e', h1, h2, rfl, rfl⟩
    · exact .inl ⟨fun _ => rfl, rfl⟩
    · exact .inr (.inl ⟨e', h1, h2, rfl, rfl⟩)
    · exact .inr (.inr ⟨e', h1, h2, rfl, rfl⟩)
  have rest : op.isQuery = true → op.about = none → change eqv W Q L op = query eqv Q L op → (change eqv W Q L op).Own (View eqv know) (Mine eqv mine) (fun d' x =>
      (((∃ k, op.about = some k ∧ know k) → x = (DictSpec.step eqv O op d).1) ∧ d' = (DictSpec.step eqv O op d).2) ∨
      (∃ e, op.listFirst ∧ errs e ∧ x = .error e ∧ d' = d) ∨
      ∃ e, op.dictFirst ∧ errs e ∧ x = .error e ∧ d' = (DictSpec.step eqv O op d).2) d := by
    intro hq ha e
    rw [e]
    refine (Prog.Own.of_writes (query_asks (eqv := eqv) hQ hq).writes fun f hf => ⟨fun s v _ => by rw [(hf s).1], fun s hs k hk => by rw [(hf s).1]; exact hs k hk⟩).mono ?_
    rintro d' x rfl
    refine .inl ⟨fun ⟨v, hv, _⟩ => ?_, (DictSpec.query_stays op hq d').symm⟩
    rw [ha] at hv; cases hv
  have hasEq : ∀ {s : SD κ ν σ} {k : κ}, View eqv know s d → know k → has eqv s.dict k = has eqv d k := fun hs hk => by
    rw [has_eq_lookup, has_eq_lookup, hs _ hk]
  have other : ∀ k, ¬ know k → op.about = some k → mine k → (∃ f, change eqv W Q L op = .read f) →
      (change eqv W Q L op).Writes (fun s s' => ∀ k', eqv k k' ≠ true → lookup eqv s'.dict k' = lookup eqv s.dict k') →
      (∀ k', eqv k k' ≠ true → lookup eqv (DictSpec.step eqv O op d).2 k' = lookup eqv d k') → (change eqv W Q L op).Own (View eqv know) (Mine eqv mine) (fun d' x =>
      (((∃ k, op.about = some k ∧ know k) → x = (DictSpec.step eqv O op d).1) ∧ d' = (DictSpec.step eqv O op d).2) ∨
      (∃ e, op.listFirst ∧ errs e ∧ x = .error e ∧ d' = d) ∨
      ∃ e, op.dictFirst ∧ errs e ∧ x = .error e ∧ d' = (DictSpec.step eqv O op d).2) d := by
    rintro k hn ha hm ⟨f, e⟩ hw h2
    rw [e] at hw ⊢
    have ne : ∀ k', know k' → eqv k k' ≠ true := fun k' hk' e => hn (hknow k' k hk' (he.symm _ _ ▸ e))
    have k1 : ∀ s, View (σ := σ) eqv know s d → View eqv know s (DictSpec.step eqv O op d).2 := fun s hs k' hk' => by rw [hs k' hk', h2 k' (ne k' hk')]
    have k2 : ∀ f : SD κ ν σ → SD κ ν σ, (∀ s k', eqv k k' ≠ true → lookup eqv (f s).dict k' = lookup eqv s.dict k') →
        Mine eqv mine f ∧ ∀ s, View eqv know s (DictSpec.step eqv O op d).2 → View eqv know (f s) (DictSpec.step eqv O op d).2 :=
      fun f hf => ⟨fun s k' hk' => hf s k' fun e => hk' (hmine k k' hm e), fun s hs k' hk' => by rw [hf s k' (ne k' hk')]; exact hs k' hk'⟩
    refine (Prog.Own.of_writes_read hw k1 k2).mono ?_
    rintro d' x rfl
    refine .inl ⟨fun ⟨w, e, hw⟩ => ?_, rfl⟩
    rw [ha] at e; cases e; exact absurd hw hn
  have lookup_set_ne : ∀ {d : List (κ × ν)} {k} k' v, eqv k k' ≠ true → lookup eqv (PyDict.set eqv d k v) k' = lookup eqv d k' := fun k' v h => by
    rw [lookup_set he, if_neg h]
  have lookup_erase_ne : ∀ {d : List (κ × ν)} {k} k', eqv k k' ≠ true → lookup eqv (erase eqv d k) k' = lookup eqv d k' := fun k' h => by
    rw [lookup_erase he, if_neg h]
  have listW : ∀ k (m : Prog σ Unit), (onList (κ := κ) (ν := ν) m).Writes (fun s s' => ∀ k', eqv k k' ≠ true → lookup eqv s'.dict k' = lookup eqv s.dict k') := by
    intro v m
    induction m with
    | ret x => trivial
    | read k ih => exact fun s => ih _
    | write f k ih => exact ⟨fun s w _ => rfl, ih⟩
  have setW : ∀ k (v : ν), (dictSetitem (σ := σ) eqv k v).Writes (fun s s' => ∀ k', eqv k k' ≠ true → lookup eqv s'.dict k' = lookup eqv s.dict k') :=
    fun k v => ⟨fun s k' h => lookup_set_ne k' v h, trivial⟩
  have popW : ∀ k, (dictPop (ν := ν) (σ := σ) eqv k).Writes (fun s s' => ∀ k', eqv k k' ≠ true → lookup eqv s'.dict k' = lookup eqv s.dict k') := by
    intro k s
    show Prog.Writes _ (Prog.bind (.ret (PyDict.getitem eqv s.dict k)) _)
    rcases PyDict.getitem eqv s.dict k with e | t
    · trivial
    · exact ⟨fun s k' h => lookup_erase_ne k' h, trivial⟩
  cases op with
  | setitem k v =>
    have hk : mine k := by
      rcases hop with h | ⟨w, h, hw⟩
      · cases h
      · cases h; exact hw
    by_cases hn : know k
    case neg =>
      refine other k hn rfl hk ⟨_, rfl⟩ (Prog.Writes.bind (m := setitem eqv W k v) (fun s => ?_) fun _ => trivial) fun k' hk' => lookup_set_ne k' v hk'
      show Prog.Writes _ (ite _ _ _)
      split
      · exact setW k v
      · exact Prog.Writes.bind (listW k _) fun _ => setW k v
    refine fin (x0 := .ok ()) (d0 := PyDict.set eqv d k v) rfl (.read fun s hs => ?_)
    show Prog.Own _ _ (ite _ _ _) _ _
    have last : (dictSetitem (σ := σ) eqv k v).Own (View eqv know) (Mine eqv mine) (fun d' x => (d' = PyDict.set eqv d k v ∧ x = .ok ()) ∨
        (∃ e, SDOp.listFirst (.setitem k v) ∧ errs e ∧ x = .error e ∧ d' = d) ∨ ∃ e, SDOp.dictFirst (.setitem k v) ∧ errs e ∧ x = .error e ∧ d' = PyDict.set eqv d k v) d :=
      (dictSetitem_own he hmine hk v d).mono fun _ _ h => .inl h
    split
    · exact last
    · refine Prog.Own.bind (onList_own (hW k).1 d) (fun d' _ h => ?_) fun d' e h => ?_
      · rw [h.1]; exact last
      · rcases h.2 with h' | ⟨e', h', e2⟩
        · cases h'
        · cases e2; exact .inr (.inl ⟨_, trivial, h', rfl, h.1⟩)
  | delitem k =>
    have hk : mine k := by
      rcases hop with h | ⟨w, h, hw⟩
      · cases h
      · cases h; exact hw
    by_cases hn : know k
    case neg =>
      refine other k hn rfl hk ⟨_, rfl⟩ (Prog.Writes.bind (m := delitem eqv W k) (Prog.Writes.bind (popW k) fun _ => listW k _) fun _ => trivial) fun k' hk' => ?_
      show lookup eqv (DictSpec.step eqv O (.delitem k) d).2 k' = _
      have e : (DictSpec.step eqv O (.delitem k) d).2 = if has eqv d k then erase eqv d k else d := by
        rcases h : has eqv d k <;> simp only [DictSpec.step, DictSpec.out, DictSpec.delitem, Py.bind_apply, h] <;> rfl
      rw [e]
      split
      · exact lookup_erase_ne k' hk'
      · rfl
    rcases el : lookup eqv d k with _ | v
    · refine fin (x0 := .error .keyError) (d0 := d) ?_ ?_
      · simp only [DictSpec.step, DictSpec.out, DictSpec.delitem, Py.bind_apply, has_eq_lookup, el]; rfl
      · refine Prog.Own.bind (dictPop_own he hmine hk hn d) (fun d' _ h => ?_) fun d' e h => ?_
        · rcases h with ⟨v, h, _⟩ | ⟨_, _, h⟩
          · rw [el] at h; cases h
          · cases h
        · rcases h with ⟨v, h, _⟩ | ⟨_, rfl, h⟩
          · rw [el] at h; cases h
          · cases h; exact .inl ⟨rfl, rfl⟩
    · refine fin (x0 := .ok ()) (d0 := erase eqv d k) ?_ ?_
      · simp only [DictSpec.step, DictSpec.out, DictSpec.delitem, Py.bind_apply, has_eq_lookup, el]; rfl
      · refine Prog.Own.bind (dictPop_own he hmine hk hn d) (fun d' _ h => ?_) fun d' e h => ?_
        · rcases h with ⟨v, _, rfl, _⟩ | ⟨h, _⟩
          · refine (onList_own (hW k).2 _).mono ?_
            rintro d' x ⟨rfl, rfl | ⟨e, h, rfl⟩⟩
            · exact .inl ⟨rfl, rfl⟩
            · exact .inr (.inr ⟨e, trivial, h, rfl, rfl⟩)
          · rw [el] at h; cases h
        · rcases h with ⟨v, _, _, h⟩ | ⟨h, _⟩
          · cases h
          · rw [el] at h; cases h
  | pop k default =>
    have hk : mine k := by
      rcases hop with h | ⟨w, h, hw⟩
      · cases h
      · cases h; exact hw
    by_cases hn : know k
    case neg =>
      refine other k hn rfl hk ⟨_, rfl⟩ (Prog.Writes.bind (m := pop eqv W k default) (fun s => ?_) fun _ => trivial) fun k' hk' => ?_
      · show Prog.Writes _ (ite _ _ _)
        split
        · exact Prog.Writes.bind (listW k _) fun _ => popW k
        · rcases default with _ | v <;> trivial
      · have e : (DictSpec.step eqv O (.pop k default) d).2 = if (lookup eqv d k).isSome then erase eqv d k else d := by
          simp only [DictSpec.step, DictSpec.out, DictSpec.pop, Py.bind_apply]
          rcases lookup eqv d k with _ | v
          · rcases default with _ | v <;> rfl
          · rfl
        rw [e]
        split
        · exact lookup_erase_ne k' hk'
        · rfl
    rcases el : lookup eqv d k with _ | v
    · have hno : ∀ s : SD κ ν σ, View eqv know s d → has eqv s.dict k = false := fun s hs => by rw [hasEq hs hn, has_eq_lookup, el]; rfl
      rcases default with _ | v
      · refine fin (x0 := .error .keyError) (d0 := d) ?_ (.read fun s hs => ?_)
        · simp only [DictSpec.step, DictSpec.out, DictSpec.pop, Py.bind_apply, el]; rfl
        · show Prog.Own _ _ (ite _ _ _) _ _
          rw [if_neg (by rw [hno s hs]; exact Bool.false_ne_true)]
          exact .inl ⟨rfl, rfl⟩
      · refine fin (x0 := .ok v) (d0 := d) ?_ (.read fun s hs => ?_)
        · simp only [DictSpec.step, DictSpec.out, DictSpec.pop, Py.bind_apply, el]; rfl
        · show Prog.Own _ _ (ite _ _ _) _ _
          rw [if_neg (by rw [hno s hs]; exact Bool.false_ne_true)]
          exact .inl ⟨rfl, rfl⟩
    · refine fin (x0 := .ok v) (d0 := erase eqv d k) ?_ (.read fun s hs => ?_)
      · simp only [DictSpec.step, DictSpec.out, DictSpec.pop, Py.bind_apply, el]; rfl
      · show Prog.Own _ _ (ite _ _ _) _ _
        rw [if_pos (by rw [hasEq hs hn, has_eq_lookup, el]; rfl)]
        refine Prog.Own.bind (onList_own (hW k).2 d) (fun d' _ h => ?_) fun d' e h => ?_
        · rw [h.1]
          refine (dictPop_own he hmine hk hn d).mono ?_
          rintro d' x (⟨v', h1, rfl, rfl⟩ | ⟨h1, _⟩)
          · rw [el] at h1; cases h1; exact .inl ⟨rfl, rfl⟩
          · rw [el] at h1; cases h1
        · rcases h.2 with h' | ⟨e', h', e2⟩
          · cases h'
          · cases e2; exact .inr (.inl ⟨_, trivial, h', rfl, h.1⟩)
  | setdefault k v =>
    have hk : mine k := by
      rcases hop with h | ⟨w, h, hw⟩
      · cases h
      · cases h; exact hw
    by_cases hn : know k
    case neg =>
      refine other k hn rfl hk ⟨_, rfl⟩ (Prog.Writes.bind (m := setdefault eqv W k v) (fun s => ?_) fun _ => trivial) fun k' hk' => ?_
      · show Prog.Writes _ (ite _ _ _)
        split
        · exact fun s => trivial
        · exact Prog.Writes.bind (setW k v) fun _ => Prog.Writes.bind (listW k _) fun _ => trivial
      · have e : (DictSpec.step eqv O (.setdefault k v) d).2 = if (lookup eqv d k).isSome then d else PyDict.set eqv d k v := by
          simp only [DictSpec.step, DictSpec.out, DictSpec.setdefault, Py.bind_apply]
          rcases lookup eqv d k with _ | v <;> rfl
        rw [e]
        split
        · rfl
        · exact lookup_set_ne k' v hk'
    rcases el : lookup eqv d k with _ | w
    · refine fin (x0 := .ok v) (d0 := PyDict.set eqv d k v) ?_ (.read fun s hs => ?_)
      · simp only [DictSpec.step, DictSpec.out, DictSpec.setdefault, Py.bind_apply, el]; rfl
      · show Prog.Own _ _ (ite _ _ _) _ _
        rw [if_neg (by rw [hasEq hs hn, has_eq_lookup, el]; exact Bool.false_ne_true)]
        refine Prog.Own.bind (dictSetitem_own he hmine hk v d) (fun d' _ h => ?_) fun d' e h => by cases h.2
        rw [h.1]
        refine Prog.Own.bind (onList_own (hW k).1 _) (fun d' _ h => .inl ⟨h.1, rfl⟩) fun d' e h => ?_
        rcases h.2 with h' | ⟨e', h', e2⟩
        · cases h'
        · cases e2; exact .inr (.inr ⟨_, trivial, h', rfl, h.1⟩)
    · refine fin (x0 := .ok w) (d0 := d) ?_ (.read fun s hs => ?_)
      · simp only [DictSpec.step, DictSpec.out, DictSpec.setdefault, Py.bind_apply, el]; rfl
      · show Prog.Own _ _ (ite _ _ _) _ _
        rw [if_pos (by rw [hasEq hs hn, has_eq_lookup, el]; rfl)]
        refine .read fun s hs => .inl ⟨rfl, ?_⟩
        show PyDict.getitem eqv s.dict k = _
        unfold PyDict.getitem
        rw [hs k hn, el]
  | contains k =>
    refine .read fun s hs => .inl ⟨?_, rfl⟩
    rintro ⟨w, e, hw⟩
    cases e
    show Except.ok (DOut.bool (has eqv s.dict k)) = .ok (.bool (has eqv d k))
    rw [hasEq hs hw]
  | get k =>
    refine .read fun s hs => .inl ⟨?_, rfl⟩
    rintro ⟨w, e, hw⟩
    cases e
    show Except.ok ((lookup eqv s.dict k).elim DOut.none DOut.val) = .ok ((lookup eqv d k).elim DOut.none DOut.val)
    rw [hs k hw]
  | getitem k =>
    refine .read fun s hs => .inl ⟨?_, (DictSpec.query_stays (.getitem k) rfl d).symm⟩
    rintro ⟨w, e, hw⟩
    cases e
    have e1 : PyDict.getitem eqv s.dict k = PyDict.getitem eqv d k := by unfold PyDict.getitem; rw [hs k hw]
    have e2 : (Verif.SD.step eqv L (.getitem k) s).1 = (PyDict.getitem eqv s.dict k).map DOut.val := by
      show (Verif.SD.out DOut.val (Verif.SD.getitem eqv k) s).1 = _
      unfold Verif.SD.out Verif.SD.getitem
      rw [Py.bind_apply, Py.get_bind]
      rcases PyDict.getitem eqv s.dict k with _ | _ <;> rfl
    rw [e2, e1]
    show _ = (DictSpec.out DOut.val (DictSpec.query fun d => PyDict.getitem eqv d k) d).1
    unfold DictSpec.out
    rw [Py.bind_apply]
    dsimp only [DictSpec.query]
    rcases PyDict.getitem eqv d k with _ | _ <;> rfl
  | _ => first | exact rest rfl rfl rfl | (rcases hop with h | ⟨_, h, _⟩ <;> cases h)

end Threads.SD
end Verif
