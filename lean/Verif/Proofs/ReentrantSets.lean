import Verif.Proofs.ReentrantAPI
import Verif.Proofs.SetHistory
/-!
# Sorted sets whose comparisons and key function query them
-/

namespace Verif
namespace Reent
variable {τ σ W α κ β Q R : Type}

/-! ## The client's code, on any object -/

section
variable {T : Type} {P : T → Prop} {ans : Q → Except PyErr R} {old : List (Q × Except PyErr R)} {query : Q → RPy (Seen Q R) T R}

/-- Right code, if the queries are answered as by `ans` and keep `P`. -/
theorem exec_holds (hq : ∀ q p, P p.1 → Answered ans old p.2 → (query q p).1 = ans q ∧ P (query q p).2.1 ∧ Answered ans old (query q p).2.2)
    (c : Client Q R β) : ∀ p, P p.1 → Answered ans old p.2 →
      (exec query c p).1 = c.says ans ∧ P (exec query c p).2.1 ∧ Answered ans old (exec query c p).2.2 := by
  induction c with
  | done r => exact fun p h h' => ⟨rfl, h, h'⟩
  | ask q k ih =>
    intro p hp ha
    obtain ⟨e, h, ha⟩ := hq q p hp ha
    rcases hp' : query q p with ⟨r, s, w⟩
    have he : exec query (.ask q k) p = exec query (k r) (s, { w with answers := (q, r) :: w.answers }) := by
      show (match query q p with
        | (r, s, w) => exec query (k r) (s, { w with answers := (q, r) :: w.answers })) = _
      rw [hp']
    rw [hp'] at e h ha
    simp only at e h ha
    subst e
    rw [he]
    refine ih (ans q) (s, { w with answers := (q, ans q) :: w.answers }) h ?_
    obtain ⟨new, hn, ha⟩ := ha
    refine ⟨(q, ans q) :: new, by rw [show w.answers = new ++ old from hn]; rfl, fun e he => ?_⟩
    rcases List.mem_cons.1 he with rfl | he
    · rfl
    · exact ha e he

theorem calling_holds (hq : ∀ q p, P p.1 → Answered ans old p.2 → (query q p).1 = ans q ∧ P (query q p).2.1 ∧ Answered ans old (query q p).2.2)
    {code : Seen Q R → Client Q R β} {x : Except PyErr β} (hc : ∀ w, (code w).says ans = x) (p : T × Seen Q R) (hp : P p.1)
    (ha : Answered ans old p.2) :
    (calling query code p).1 = x ∧ P (calling query code p).2.1 ∧ Answered ans old (calling query code p).2.2 := by
  have := exec_holds hq (code p.2) (p.1, { p.2 with calls := p.2.calls + 1 }) hp ha
  rw [hc] at this
  exact this

/-- Right code that does not ask. -/
theorem calling_silent {code : Seen Q R → Client Q R β} {x : Except PyErr β} (hc : ∀ w, (code w).says ans = x)
    (hd : ∀ w, ∃ r, code w = .done r) (p : T × Seen Q R) (hp : P p.1) (ha : Answered ans old p.2) :
    (calling query code p).1 = x ∧ P (calling query code p).2.1 ∧ Answered ans old (calling query code p).2.2 := by
  obtain ⟨r, hr⟩ := hd p.2
  have := hc p.2
  rw [hr] at this
  unfold calling
  rw [hr]
  exact ⟨this, hp, ha⟩

end

/-- Lists that differ in the positional index only give the same answers. -/
theorem same_answer {L : ListAPI σ α} {I : σ → Prop} {R : σ → σ → Prop} (hs : L.Settled R) {f : Py σ β} {g : Py (List α) β}
    (hf : Refines I L.iter f g) {s0 s : σ} (h0 : I s0) (hi : I s) (hr : R s0 s) : (f s).1 = (f s0).1 := by
  rw [(hf s hi).1, (hf s0 h0).1, hs.iter hr]

namespace SS
variable {S : SetOps τ α} {L : ListAPI σ α} {O : Spec.Order α} {eqv : α → α → Bool} {I : σ → Prop} {Re : σ → σ → Prop}
  {L' : RListAPI (τ × W) σ α} {t0 : τ} {s0 : σ} {J : W → Prop}

/-- The built-in set is `t0`, and the list is `s0` but for the positional index. -/
structure Same (Re : σ → σ → Prop) (I : σ → Prop) (t0 : τ) (s0 : σ) (s : SS τ σ) : Prop where
  set : s.set = t0
  re : Re s0 s.list
  inv : I s.list

theorem onList_reads {m : RPy (τ × W) σ β} {f : Py σ β} (hm : Reads Re I (fun w => w.1 = t0 ∧ J w.2) s0 m f) {p : SS τ σ × W}
    (hp : Same Re I t0 s0 p.1) (hJ : J p.2) :
    (onList m p).1 = (f p.1.list).1 ∧ Same Re I t0 s0 (onList m p).2.1 ∧ J (onList m p).2.2 := by
  obtain ⟨e, h⟩ := hm (p.1.list, p.1.set, p.2) ⟨hp.re, hp.inv, hp.set, hJ⟩
  exact ⟨e, ⟨h.world.1, h.re, h.inv⟩, h.world.2⟩

/-- The values of `SortedSet(xs, key)`. -/
theorem new_values (h : Verif.SS.Good S L O eqv I) (xs : List α) :
    (Verif.SS.new S L (some xs)).map (Verif.SS.iter L) =
      if 4 * S.len (S.ofList xs) > S.len S.empty then L.newValues (S.toList (S.update (S.toList (S.ofList xs)) S.empty))
      else L.newValues (S.toList S.empty) := by
  obtain ⟨l, el, hl, hi⟩ := h.list.new (some (S.toList S.empty))
  have hi' : L.iter l = [] := by rw [hi, h.set.empty]; rfl
  have hx : [xs].flatten = xs := by simp
  unfold Verif.SS.new
  rw [el]
  simp only
  unfold Verif.SS.update
  rw [Py.get_bind, hx]
  by_cases hc : 4 * S.len (S.ofList xs) > S.len S.empty
  · rw [if_pos hc, if_pos hc]
    obtain ⟨c1, c2, c3⟩ := h.list.clear l hl
    obtain ⟨l1, ec⟩ : ∃ l1, L.clear l = (.ok (), l1) := ⟨_, Prod.ext c1 rfl⟩
    rw [ec] at c2 c3
    obtain ⟨u1, u2, -⟩ := h.list.update (S.toList (S.update (S.toList (S.ofList xs)) S.empty)) l1 c3
    obtain ⟨l2, eu⟩ : ∃ l2, L.update (S.toList (S.update (S.toList (S.ofList xs)) S.empty)) l1 = (.ok (), l2) := ⟨_, Prod.ext u1 rfl⟩
    rw [eu] at u2
    obtain ⟨n, en, -, hn⟩ := h.list.new (some (S.toList (S.update (S.toList (S.ofList xs)) S.empty)))
    rw [ListAPI.newValues, en]
    have : (Verif.SS.onSet (S.update (S.toList (S.ofList xs))) >>= fun _ => Verif.SS.rebuild S L) (⟨S.empty, l⟩ : SS τ σ) =
        (.ok (), { set := S.update (S.toList (S.ofList xs)) S.empty, list := l2 }) := by
      rw [Verif.SS.onSet, Py.modify_bind]
      unfold Verif.SS.rebuild
      rw [Py.bind_apply]
      simp only [Verif.SS.onList, ec, Py.get_bind, eu]
    rw [this]
    show Except.ok _ = Except.ok _
    simp only [Verif.SS.iter, hn]
    rw [u2, c2]
    rfl
  · rw [if_neg hc, if_neg hc]
    have h0 : S.toList (S.ofList xs) = [] := by
      have : S.len S.empty = 0 := by rw [h.set.len, h.set.empty]; rfl
      have : (S.toList (S.ofList xs)).length = 0 := by rw [← h.set.len]; omega
      exact List.length_eq_zero_iff.1 this
    rw [h0, ListAPI.newValues, el]
    rfl

variable (h : Verif.SS.Good S L O eqv I) (hs : L.Settled Re) (hL : L'.Mimics L Re I (fun w => w.1 = t0 ∧ J w.2) s0) (h0 : I s0)
include h hs hL h0

theorem fromset_same (f : τ → τ) (g : SS τ σ → Except PyErr (SS τ σ)) (hg : ∀ s, g s = Verif.SS.fromset S L (f s.set)) {p : SS τ σ × W}
    (hp : Same Re I t0 s0 p.1) (hJ : J p.2) :
    (fromset S L' f p).1 = (Verif.SS.valuesOf L g ⟨t0, s0⟩).1 ∧ Same Re I t0 s0 (fromset S L' f p).2.1 ∧ J (fromset S L' f p).2.2 := by
  have e : (Verif.SS.valuesOf L g ⟨t0, s0⟩).1 = L.newValues (S.toList (f t0)) := by
    simp only [Verif.SS.valuesOf, hg, Verif.SS.fromset, ListAPI.newValues]
    cases L.new (some (S.toList (f t0))) <;> rfl
  obtain ⟨e1, h1, h2⟩ := onList_reads (hL.newValues (S.toList (f p.1.set))) hp hJ
  rw [e]
  refine ⟨e1.trans ?_, h1, h2⟩
  rw [hp.set]; rfl

theorem union_same (xss : List (List α)) {p : SS τ σ × W} (hp : Same Re I t0 s0 p.1) (hJ : J p.2) :
    (union S L L' xss p).1 = (Verif.SS.valuesOf L (Verif.SS.union S L xss) ⟨t0, s0⟩).1 ∧ Same Re I t0 s0 (union S L L' xss p).2.1 ∧
      J (union S L L' xss p).2.2 := by
  have e : (Verif.SS.valuesOf L (Verif.SS.union S L xss) ⟨t0, s0⟩).1 = (Verif.SS.new S L (some (L.iter s0 ++ xss.flatten))).map (Verif.SS.iter L) := by
    simp only [Verif.SS.valuesOf, Verif.SS.union, Verif.SS.iter]
    cases Verif.SS.new S L (some (L.iter s0 ++ xss.flatten)) <;> rfl
  rw [e, new_values h]
  obtain ⟨e1, h1, h2⟩ := onList_reads (hL.newValues (S.toList S.empty)) hp hJ
  obtain ⟨n, en, -, hn⟩ := h.list.new (some (S.toList S.empty))
  have hu : union S L L' xss p = (do
      let none ← onList (L'.newValues (S.toList S.empty))
      if 4 * S.len (S.ofList (L.iter s0 ++ xss.flatten)) > S.len S.empty then
        onList (L'.newValues (S.toList (S.update (S.toList (S.ofList (L.iter s0 ++ xss.flatten))) S.empty)))
      else pure none) p := by
    show (do
      let none ← onList (L'.newValues (S.toList S.empty))
      if 4 * S.len (S.ofList (L.iter p.1.list ++ xss.flatten)) > S.len S.empty then
        onList (L'.newValues (S.toList (S.update (S.toList (S.ofList (L.iter p.1.list ++ xss.flatten))) S.empty)))
      else pure none : RPy W (SS τ σ) (List α)) p = _
    rw [hs.iter hp.re]
  rw [hu, Py.bind_apply]
  rcases hm : onList (L'.newValues (S.toList S.empty)) p with ⟨r, p'⟩
  rw [hm] at e1 h1 h2
  simp only [Py.lift_apply, ListAPI.newValues, en] at e1 h1 h2
  subst e1
  simp only [Except.map]
  split
  · exact onList_reads (hL.newValues _) h1 h2
  · refine ⟨?_, h1, h2⟩
    show Except.ok _ = ListAPI.newValues _ _
    rw [ListAPI.newValues, en]; rfl

/-- A query, asked in the middle of a call: the built-in set is `t0` and the list is `s0`. -/
theorem query_same (op : SSOp α) (hq : op.isQuery = true) {p : SS τ σ × W} (hp : Same Re I t0 s0 p.1) (hJ : J p.2) :
    (step S L L' op p).1 = (Verif.SS.step S L op ⟨t0, s0⟩).1 ∧ Same Re I t0 s0 (step S L L' op p).2.1 ∧ J (step S L L' op p).2.2 := by
  have out : ∀ {β : Type} (f : β → Out α) {m : RPy W (SS τ σ) β} {g : Py (SS τ σ) β},
      ((m p).1 = (g ⟨t0, s0⟩).1 ∧ Same Re I t0 s0 (m p).2.1 ∧ J (m p).2.2) →
      (Spec.out f m p).1 = (Spec.out f g ⟨t0, s0⟩).1 ∧ Same Re I t0 s0 (Spec.out f m p).2.1 ∧ J (Spec.out f m p).2.2 := by
    intro β f m g
    rintro ⟨e, h1, h2⟩
    unfold Spec.out
    rcases hm : m p with ⟨r, p'⟩
    rcases hf : g ⟨t0, s0⟩ with ⟨r', s'⟩
    rw [hm] at e h1 h2
    rw [hf] at e
    simp only at e h1 h2
    subst e
    cases r <;> exact ⟨rfl, h1, h2⟩
  have list : ∀ {β : Type} {m : RPy (τ × W) σ β} {f : Py σ β} {g : Py (List α) β}, Reads Re I (fun w => w.1 = t0 ∧ J w.2) s0 m f →
      Refines I L.iter f g →
      (onList m p).1 = (Verif.SS.onList f (⟨t0, s0⟩ : SS τ σ)).1 ∧ Same Re I t0 s0 (onList m p).2.1 ∧ J (onList m p).2.2 := by
    intro β m f g hm hf
    obtain ⟨e, h1, h2⟩ := onList_reads hm hp hJ
    exact ⟨e.trans (same_answer hs hf h0 hp.inv hp.re), h1, h2⟩
  have quiet : ∀ {β : Type} (f' : β → Out α) {f : Py σ β} {g : Py (List α) β}, Refines I L.iter f g → (∀ s, Re s (f s).2) →
      (free (Spec.out f' (Verif.SS.onList f)) p).1 = (Spec.out f' (Verif.SS.onList f) (⟨t0, s0⟩ : SS τ σ)).1 ∧
        Same Re I t0 s0 (free (Spec.out f' (Verif.SS.onList f)) p).2.1 ∧ J (free (W := W) (Spec.out f' (Verif.SS.onList (τ := τ) f)) p).2.2 := by
    intro β f' f g hf hr
    have e := same_answer hs hf h0 hp.inv hp.re
    have hs2 : Same Re I t0 s0 ⟨p.1.set, (f p.1.list).2⟩ := ⟨hp.set, hs.trans hp.re (hr _), (hf _ hp.inv).2.2⟩
    unfold free Spec.out Verif.SS.onList
    rcases hm : f p.1.list with ⟨r, p'⟩
    rcases hf : f s0 with ⟨r', s'⟩
    rw [hm] at e hs2
    rw [hf] at e
    simp only at e
    subst e
    cases r <;> exact ⟨rfl, hs2, hJ⟩
  have rd : ∀ {β : Type} (f' : β → Out α) (f : SS τ σ → β), f p.1 = f ⟨t0, s0⟩ →
      (free (Spec.out f' (Verif.SS.read f)) p).1 = (Spec.out f' (Verif.SS.read f) (⟨t0, s0⟩ : SS τ σ)).1 ∧
        Same Re I t0 s0 (free (Spec.out f' (Verif.SS.read f)) p).2.1 ∧ J (free (Spec.out f' (Verif.SS.read f)) p).2.2 := by
    intro β f' f e
    refine ⟨?_, hp, hJ⟩
    show Except.ok _ = Except.ok _
    rw [e]
  have hset : p.1 = ⟨t0, p.1.list⟩ := by obtain ⟨⟨a, b⟩, w⟩ := p; cases hp.set; rfl
  cases op with
  | bisectLeft v => exact out _ (list (hL.bisectLeft v) (h.list.bisectLeft v))
  | bisectRight v => exact out _ (list (hL.bisectRight v) (h.list.bisectRight v))
  | index v a b => exact out _ (list (hL.index v a b) (h.list.index v a b))
  | irange lo hi a b r => exact out _ (list (hL.irange lo hi a b r) (h.list.irange lo hi a b r))
  | getInt i => exact quiet _ (h.list.getInt i) (hs.getInt i)
  | getSlice sl => exact quiet _ (h.list.getSlice sl) (hs.getSlice sl)
  | islice a b r => exact quiet _ (h.list.islice a b r) (hs.islice a b r)
  | iter => exact rd _ _ (hs.iter hp.re)
  | reversed =>
    refine rd _ _ ?_
    have := same_answer hs h.list.reversed h0 hp.inv hp.re
    exact Except.ok.inj this
  | contains v => exact rd _ _ (by rw [hset]; rfl)
  | len => exact rd _ _ (by rw [hset]; rfl)
  | count v => exact rd _ _ (by rw [hset]; rfl)
  | isdisjoint xs => exact rd _ _ (by rw [hset]; rfl)
  | issubset xs => exact rd _ _ (by rw [hset]; rfl)
  | issuperset xs => exact rd _ _ (by rw [hset]; rfl)
  | compare op xs => exact rd _ _ (by rw [hset]; rfl)
  | copy => exact out _ (fromset_same h hs hL h0 S.copy _ (fun _ => rfl) hp hJ)
  | intersection xss => exact out _ (fromset_same h hs hL h0 (S.intersection xss) _ (fun _ => rfl) hp hJ)
  | difference xss => exact out _ (fromset_same h hs hL h0 (S.difference xss) _ (fun _ => rfl) hp hJ)
  | symmetricDifference xs => exact out _ (fromset_same h hs hL h0 (S.symmetricDifference xs) _ (fun _ => rfl) hp hJ)
  | union xss => exact out _ (union_same h hs hL h0 xss hp hJ)
  | _ => cases hq

omit hL h0 in
/-- A call that does not rebuild the list, when the client's code changes nothing: it is the call without client, from a list that differs in the
positional index only.  `hL`: how `_list` behaves while the built-in set is as the call leaves it. -/
theorem call_ends (op : SSOp α) (hq : op.isQuery = false) (hb : op.bulk = false) {s : SS τ σ} (hi : Verif.SS.Inv S L I s) {w : W} (hJ : J w)
    (hL : ∀ t, t = (Verif.SS.step S L op s).2.set → L'.Mimics L Re I (fun w => w.1 = t ∧ J w.2) s.list) :
    ∃ l w', Re s.list l ∧ I l ∧ J w' ∧
      step S L L' op (s, w) = ((Verif.SS.step S L op ⟨s.set, l⟩).1, (Verif.SS.step S L op ⟨s.set, l⟩).2, w') := by
  have same : ∀ {m : RPy W (SS τ σ) (Out α)}, m (s, w) = ((Verif.SS.step S L op s).1, (Verif.SS.step S L op s).2, w) →
      ∃ l w', Re s.list l ∧ I l ∧ J w' ∧ m (s, w) = ((Verif.SS.step S L op ⟨s.set, l⟩).1, (Verif.SS.step S L op ⟨s.set, l⟩).2, w') :=
    fun e => ⟨s.list, w, hs.refl _, hi.list, hJ, e⟩
  cases op with
  | add v =>
    by_cases hm : S.mem v s.set = true
    · refine same ?_
      simp only [step, Verif.SS.step, add, Verif.SS.add, Spec.out, Py.bind_apply, free, Py.get, hm, if_true]
      rfl
    · simp only [Verif.SS.step, Verif.SS.add, Spec.out, Py.bind_apply, Py.get, hm, if_false, Bool.false_eq_true] at hL
      obtain ⟨p', hp', e⟩ := (hL (S.add v s.set) (by
        simp only [Verif.SS.onSet, Verif.SS.onList, Py.modify]
        cases (L.add v s.list).1 <;> rfl)).add v (s.list, S.add v s.set, w) ⟨hs.refl _, hi.list, rfl, hJ⟩
      refine ⟨p'.1, p'.2.2, hp'.re, hp'.inv, hp'.world.2, ?_⟩
      simp only [step, Verif.SS.step, add, Verif.SS.add, Spec.out, Py.bind_apply, free, Py.get, hm, if_false, Bool.false_eq_true, Verif.SS.onSet, Py.modify, onList,
        Verif.SS.onList, e, hp'.world.1]
      cases (L.add v p'.1).1 <;> rfl
  | discard v =>
    by_cases hm : S.mem v s.set = true
    · obtain ⟨t, et, -⟩ := h.set.remove v s.set (by rw [← h.set.mem]; exact hm)
      simp only [Verif.SS.step, Verif.SS.discard, Verif.SS.setRemove, Spec.out, Py.bind_apply, Py.get, hm, if_true, et] at hL
      obtain ⟨p', hp', e⟩ := (hL t (by
        simp only [Verif.SS.onList]
        cases (L.remove v s.list).1 <;> rfl)).remove v (s.list, t, w) ⟨hs.refl _, hi.list, rfl, hJ⟩
      refine ⟨p'.1, p'.2.2, hp'.re, hp'.inv, hp'.world.2, ?_⟩
      simp only [step, Verif.SS.step, discard, Verif.SS.discard, Verif.SS.setRemove, Spec.out, Py.bind_apply, free, Py.get, hm, if_true, onList, et,
        Verif.SS.onList, e, hp'.world.1]
      cases (L.remove v p'.1).1 <;> rfl
    · refine same ?_
      simp only [step, Verif.SS.step, discard, Verif.SS.discard, Spec.out, Py.bind_apply, free, Py.get, hm, if_false, Bool.false_eq_true]
      rfl
  | remove v =>
    cases et : S.remove v s.set with
    | ok t =>
      simp only [Verif.SS.step, Verif.SS.remove, Verif.SS.setRemove, Spec.out, Py.bind_apply, et] at hL
      obtain ⟨p', hp', e⟩ := (hL t (by
        simp only [Verif.SS.onList]
        cases (L.remove v s.list).1 <;> rfl)).remove v (s.list, t, w) ⟨hs.refl _, hi.list, rfl, hJ⟩
      refine ⟨p'.1, p'.2.2, hp'.re, hp'.inv, hp'.world.2, ?_⟩
      simp only [step, Verif.SS.step, remove, Verif.SS.remove, Verif.SS.setRemove, Spec.out, Py.bind_apply, free, onList, et, Verif.SS.onList, e, hp'.world.1]
      cases (L.remove v p'.1).1 <;> rfl
    | error e =>
      refine same ?_
      simp only [step, Verif.SS.step, remove, Verif.SS.remove, Verif.SS.setRemove, Spec.out, Py.bind_apply, free, et]
  | pop i => exact same rfl
  | delInt i => exact same rfl
  | clear => exact same rfl
  | delSlice | update | differenceUpdate | intersectionUpdate | symmetricDifferenceUpdate | reset => cases hb
  | _ => cases hq

end SS
end Reent
end Verif
