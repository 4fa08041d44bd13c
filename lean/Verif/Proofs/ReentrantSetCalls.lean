import Verif.Proofs.ReentrantSets
import Verif.Props.SortedSet
import Verif.Proofs.Owners
/-!
# Calls on a sorted set whose comparisons and key function query it
-/

namespace Verif
namespace Reent
variable {τ σ W α κ β Q R : Type}

namespace SS
variable {S : SetOps τ α} {c : ListClass α} {C : c.Code (SSQuery α) (Out α)} {O : Spec.Order α} {eqv : α → α → Bool} {I : c.State → Prop}
  {t0 : τ} {s0 : c.State} {D : Nat}

/-- A list whose client's code is right, as run, does what the list without client does. -/
def Copies (c : ListClass α) (I : c.State → Prop) : Prop :=
  ∀ {Q R W : Type} (C : c.Code Q R) (ans : Q → Except PyErr R) (D : Nat) (J : W → Prop) (s0 : c.State) (d : Nat)
    (run : {β : Type} → (Seen Q R → Client Q R β) → RPy W c.State β), c.Right C ans → c.Quiet C D →
    (∀ {β : Type} (code : Seen Q R → Client Q R β) (x : Except PyErr β), (∀ w, (code w).says ans = x) →
      (d = D → ∀ w, ∃ r, code w = .done r) → Yields c.Reindexed I J s0 (run code) x) →
    (c.calling C d run).Mimics c.api c.Reindexed I J s0

theorem inner_yields {J : W → Prop} {m : RPy W (SS τ c.State) β} {x : Except PyErr β}
    (h : ∀ p, Same c.Reindexed I t0 s0 p.1 → J p.2 → (m p).1 = x ∧ Same c.Reindexed I t0 s0 (m p).2.1 ∧ J (m p).2.2) :
    Yields c.Reindexed I (fun w => w.1 = t0 ∧ J w.2) s0 (inner m) x := by
  intro p hp
  obtain ⟨e, h1, h2⟩ := h (⟨p.2.1, p.1⟩, p.2.2) ⟨hp.world.1, hp.re, hp.inv⟩ hp.world.2
  exact ⟨e, h1.re, h1.inv, h1.set, h2⟩

/-- The methods of `_list`, at any depth, in the middle of a call: the built-in set is `t0` and the list is `s0`. -/
theorem list_mimics (h : Verif.SS.Good S c.api O eqv I) (hs : c.api.Settled c.Reindexed) (hc : Copies c I) (h0 : I s0)
    (hr : c.Right C fun q => (Verif.SS.step S c.api q.1 ⟨t0, s0⟩).1) (hq : c.Quiet C D) (old : List (SSQuery α × Except PyErr (Out α))) :
    ∀ n d, n + d = D → (list S c C n d).Mimics c.api c.Reindexed I
      (fun w => w.1 = t0 ∧ Answered (fun q : SSQuery α => (Verif.SS.step S c.api q.1 ⟨t0, s0⟩).1) old w.2) s0 := by
  intro n
  induction n with
  | zero =>
    intro d hd
    refine hc C _ D _ s0 d _ hr hq fun code x hx hdone => inner_yields fun p hp hJ => ?_
    exact calling_silent (P := Same c.Reindexed I t0 s0) hx (hdone (by omega)) p hp hJ
  | succ n ih =>
    intro d hd
    refine hc C _ D _ s0 d _ hr hq fun code x hx _ => inner_yields fun p hp hJ => ?_
    exact calling_holds (P := Same c.Reindexed I t0 s0) (fun q p hp hJ => query_same h hs (ih (d + 1) (by omega)) h0 q.1 q.2 hp hJ) hx p hp hJ

variable [DecidableEq α]

omit [DecidableEq α] in
theorem store_only {L : ListAPI σ α} (op : SSOp α) (ha : op.asksStore = true) (t : τ) (l l' : σ) :
    (Verif.SS.step S L op ⟨t, l⟩).1 = (Verif.SS.step S L op ⟨t, l'⟩).1 := by
  have hv : ∀ (f : SS τ σ → Except PyErr (SS τ σ)) (_ : f ⟨t, l⟩ = f ⟨t, l'⟩),
      (Spec.out .vals (Verif.SS.valuesOf L f) ⟨t, l⟩).1 = (Spec.out .vals (Verif.SS.valuesOf L f) ⟨t, l'⟩).1 := by
    intro f e
    unfold Spec.out Verif.SS.valuesOf
    rw [e]
    cases f ⟨t, l'⟩ <;> rfl
  cases op with
  | copy => exact hv _ rfl
  | intersection xss => exact hv _ rfl
  | difference xss => exact hv _ rfl
  | symmetricDifference xs => exact hv _ rfl
  | _ => first | rfl | (cases ha; done)

omit [DecidableEq α] in
theorem list_only {L : ListAPI σ α} (op : SSOp α) (hq : op.isQuery = true) (ha : op.asksStore = false) (t t' : τ) (l : σ) :
    (Verif.SS.step S L op ⟨t, l⟩).1 = (Verif.SS.step S L op ⟨t', l⟩).1 := by
  have hl : ∀ {β : Type} (f : β → Out α) (m : Py σ β),
      (Spec.out f (Verif.SS.onList m) (⟨t, l⟩ : SS τ σ)).1 = (Spec.out f (Verif.SS.onList m) (⟨t', l⟩ : SS τ σ)).1 := by
    intro β f m
    unfold Spec.out Verif.SS.onList
    rcases m l with ⟨_ | _, _⟩ <;> rfl
  cases op with
  | getInt | getSlice | bisectLeft | bisectRight | index | irange | islice => exact hl _ _
  | union xss =>
    show (Spec.out .vals (Verif.SS.valuesOf L (Verif.SS.union S L xss)) _).1 = (Spec.out .vals (Verif.SS.valuesOf L (Verif.SS.union S L xss)) _).1
    unfold Spec.out Verif.SS.valuesOf
    rw [show Verif.SS.union S L xss ⟨t, l⟩ = Verif.SS.union S L xss ⟨t', l⟩ from rfl]
    cases Verif.SS.union S L xss ⟨t', l⟩ <;> rfl
  | iter | reversed => rfl
  | _ => first | (cases hq; done) | (cases ha; done)

theorem query_valid {op : SSOp α} (hq : op.isQuery = true) : op.Valid := by
  cases op <;> first | trivial | (cases hq; done)

omit [DecidableEq α] in
theorem query_set (op : SSOp α) (hq : op.isQuery = true) (s : SS τ c.State) : (Verif.SS.step S c.api op s).2.set = s.set := by
  have hl : ∀ {β : Type} (f : β → Out α) (m : Py c.State β), (Spec.out f (Verif.SS.onList m) s).2.set = s.set := fun f m =>
    (congrArg SS.set (Spec.out_snd f (Verif.SS.onList m) s)).trans rfl
  have hv : ∀ g, (Spec.out .vals (Verif.SS.valuesOf c.api g) s).2.set = s.set := fun g =>
    congrArg SS.set ((Spec.out_snd ..).trans (Verif.SS.valuesOf_snd _ s))
  cases op with
  | getInt | getSlice | bisectLeft | bisectRight | index | irange | islice => exact hl _ _
  | union | copy | intersection | difference | symmetricDifference => exact hv _
  | _ => first | rfl | (cases hq; done)

/-- One call that does not rebuild the list. -/
theorem call_ok (h : Verif.SS.Good S c.api O eqv I) (ht : Verif.SS.Total O eqv) (hs : c.api.Settled c.Reindexed) (hc : Copies c I)
    (hC : c.HonestSet C O) (hq : c.Quiet C D) (op : SSOp α) (hb : op.bulk = false) (hv : op.Valid)
    (p : SS τ c.State × Seen (SSQuery α) (Out α)) (hi : Verif.SS.Inv S c.api I p.1) :
    let call := step S c.api (list S c C D 0) op p
    call.1 = (SetSpec.step O op (Verif.SS.iter c.api p.1)).1 ∧
    Verif.SS.iter c.api call.2.1 = (SetSpec.step O op (Verif.SS.iter c.api p.1)).2 ∧
    Verif.SS.Inv S c.api I call.2.1 ∧
    Answered (SetSpec.during O op (Verif.SS.iter c.api p.1)) p.2.answers call.2.2 := by
  intro call
  obtain ⟨r1, r2, r3⟩ := Verif.SS.step_refines h ht op hv p.1 hi
  have hright := hC op (Verif.SS.iter c.api p.1) hb (hi.sorted h) (ht.nodup (hi.distinct h))
  have htorn : ∀ t, t = (Verif.SS.step S c.api op p.1).2.set →
      (fun q : SSQuery α => (Verif.SS.step S c.api q.1 ⟨t, p.1.list⟩).1) = SetSpec.during O op (Verif.SS.iter c.api p.1) := by
    intro t e
    funext q
    unfold SetSpec.during
    split
    · next ha =>
      rw [store_only q.1 ha t p.1.list (Verif.SS.step S c.api op p.1).2.list, e, ← r2]
      exact (Verif.SS.step_refines h ht q.1 (query_valid q.2) _ r3).1
    · next ha =>
      rw [list_only q.1 q.2 (by simpa using ha) t p.1.set p.1.list]
      exact (Verif.SS.step_refines h ht q.1 (query_valid q.2) _ hi).1
  have hL : ∀ t, t = (Verif.SS.step S c.api op p.1).2.set → (list S c C D 0).Mimics c.api c.Reindexed I
      (fun w => w.1 = t ∧ Answered (SetSpec.during O op (Verif.SS.iter c.api p.1)) p.2.answers w.2) p.1.list := by
    intro t e
    have := list_mimics (D := D) (t0 := t) h hs hc hi.list (by rw [htorn t e]; exact hright) hq p.2.answers D 0 rfl
    rw [htorn t e] at this
    exact this
  have hold : Answered (SetSpec.during O op (Verif.SS.iter c.api p.1)) p.2.answers p.2 := ⟨[], rfl, nofun⟩
  by_cases ho : op.isQuery = true
  · have hset : p.1.set = (Verif.SS.step S c.api op p.1).2.set := (query_set op ho _).symm
    obtain ⟨e, h1, h2⟩ := query_same h hs (hL _ hset) hi.list op ho ⟨rfl, hs.refl _, hi.list⟩ hold
    have hit : Verif.SS.iter c.api call.2.1 = Verif.SS.iter c.api p.1 := hs.iter h1.re
    refine ⟨e.trans r1, hit.trans (SetSpec.query_stays op ho _).symm, ⟨h1.inv, ?_⟩, h2⟩
    rw [h1.set]
    exact hi.perm.trans (.of_eq hit.symm)
  · obtain ⟨l, w', hre, hI, hJ, e⟩ := call_ends (W := Seen (SSQuery α) (Out α)) h hs op (by simpa using ho) hb hi hold hL
    have hi' : Verif.SS.Inv S c.api I ⟨p.1.set, l⟩ := ⟨hI, by rw [hs.iter hre]; exact hi.perm⟩
    obtain ⟨q1, q2, q3⟩ := Verif.SS.step_refines h ht op hv _ hi'
    have hit : Verif.SS.iter c.api ⟨p.1.set, l⟩ = Verif.SS.iter c.api p.1 := hs.iter hre
    rw [hit] at q1 q2
    have e : call = _ := e
    rw [e]
    exact ⟨q1, q2, q3, hJ⟩

end SS
end Reent
end Verif
