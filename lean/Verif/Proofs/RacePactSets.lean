import Verif.Proofs.RacePact
import Verif.Proofs.SortedSet
import Verif.Proofs.SortedDict
/-!
# Threads that change one sorted set or dict keep to a pact
-/

namespace Verif
variable {α β κ ν σ τ : Type}

theorem of_mem_addNew {eqv : α → α → Bool} {l : List α} {x v : α} (h : v ∈ addNew eqv l x) : v ∈ l ∨ v = x := by
  unfold addNew at h
  split at h
  · exact .inl h
  · simpa using h

/-- What new sorted sets show was given to them; and what their construction may raise. -/
structure SS.Makes (S : SetOps τ α) (L : ListAPI σ α) (err : PyErr → Prop) : Prop where
  fromset : ∀ {t s}, SS.fromset S L t = .ok s → ∀ v ∈ SS.iter L s, v ∈ S.toList t
  fromset_err : ∀ {t e}, SS.fromset S L t = .error e → err e
  new : ∀ {xs s}, SS.new S L (some xs) = .ok s → ∀ v ∈ SS.iter L s, v ∈ xs
  new_err : ∀ {xs e}, SS.new S L xs = .error e → err e

theorem SS.Good.makes {S : SetOps τ α} {L : ListAPI σ α} {O : Spec.Order α} {eqv : α → α → Bool} {I : σ → Prop} (hL : SS.Good S L O eqv I) (err : PyErr → Prop) : SS.Makes S L err where
  fromset {t s} h := by
    obtain ⟨s', e, hi, rfl⟩ := SS.fromset_ok hL t
    rw [e] at h; cases h
    exact fun v hv => hi.perm.mem_iff.2 hv
  fromset_err {t e} h := by
    obtain ⟨s', e, -⟩ := SS.fromset_ok hL t
    rw [e] at h; cases h
  new {xs s} h := by
    obtain ⟨s', e, hi, hp⟩ := SS.new_ok hL (some xs)
    rw [e] at h; cases h
    intro v hv
    rcases of_mem_foldl_addNew (hp.mem_iff.1 hv) with h | h
    · cases h
    · exact h
  new_err {xs e} h := by
    obtain ⟨s', e, -⟩ := SS.new_ok hL xs
    rw [e] at h; cases h

namespace Race.SS
open Pact
variable {S : SetOps τ α} {W : RaceAPI σ α} {P : Pact σ} {val : α → Prop} {eqv : α → α → Bool}

/-- The values of the set are in `val`, and its list keeps to `P`. -/
def pact (S : SetOps τ α) (val : α → Prop) (P : Pact σ) : Pact (Verif.SS τ σ) :=
  { inv := fun s => (∀ v ∈ S.toList s.set, val v) ∧ P.inv s.list, err := fun e => e = .keyError ∨ P.err e }

theorem safe_onList {Q : β → Prop} {m : Task σ β} (h : P.Safe Q m) : (pact S val P).Safe Q (onList m) := by
  induction m with
  | ret x =>
    match x, h with
    | .ok b, h => exact h
    | .error e, h => exact .inr h
  | act f k ih => exact fun s hs => ⟨⟨hs.1, (h _ hs.2).1⟩, ih _ (h _ hs.2).2⟩
  | spin => trivial

theorem safe_seeSet {Q : β → Prop} {f : τ → β} (h : ∀ t, (∀ v ∈ S.toList t, val v) → Q (f t)) : (pact S val P).Safe Q (seeSet f) :=
  Safe.see (fun _ _ _ h => by cases h) fun s b hs e => by cases e; exact h _ hs.1

theorem safe_onSet {f : τ → τ} (h : ∀ t, (∀ v ∈ S.toList t, val v) → ∀ v ∈ S.toList (f t), val v) : (pact S val P).Safe (fun _ => True) (onSet f) :=
  Safe.change (fun _ _ _ h => by cases h) fun s s' hs e => by cases e; exact ⟨h _ hs.1, hs.2⟩

section
variable (hS : S.Lawful eqv) {load : Nat → Prop} (hW : W.Keeps P val load)
include hS

theorem safe_setRemove (v : α) : (pact S val P).Safe (fun _ => True) (setRemove S v) := by
  refine Safe.change (fun s e hs h => ?_) fun s s' hs h => ?_
  · cases hm : (S.toList s.set).any (eqv · v) with
    | true => obtain ⟨t, e', -⟩ := hS.remove v _ hm; rw [e'] at h; cases h
    | false => rw [hS.remove_absent v _ hm] at h; cases h; exact .inl rfl
  · cases hm : (S.toList s.set).any (eqv · v) with
    | true =>
      obtain ⟨t, e', hp⟩ := hS.remove v _ hm
      rw [e'] at h; cases h
      exact ⟨fun w hw => hs.1 w (List.mem_filter.1 (hp.mem_iff.1 hw)).1, hs.2⟩
    | false => rw [hS.remove_absent v _ hm] at h; cases h

theorem mem_ofList {xs : List α} {v : α} (h : v ∈ S.toList (S.ofList xs)) : v ∈ xs := by
  rcases of_mem_foldl_addNew ((hS.ofList xs).mem_iff.1 h) with h | h
  · cases h
  · exact h

include hW

theorem safe_discard (v : α) : (pact S val P).Safe (fun _ => True) (discard S W v) :=
  Safe.bind (Q := fun _ => True) (safe_seeSet fun _ _ => trivial) fun b _ => by
    cases b
    · exact trivial
    · exact Safe.bind (safe_setRemove hS v) fun _ _ => safe_onList (hW.remove v)

theorem safe_add {v : α} (hv : val v) : (pact S val P).Safe (fun _ => True) (add S W v) :=
  Safe.bind (Q := fun _ => True) (safe_seeSet fun _ _ => trivial) fun b _ => by
    cases b
    · exact Safe.bind (safe_onSet fun t ht w hw => by
        rcases of_mem_addNew ((hS.add v t).mem_iff.1 hw) with h | rfl
        · exact ht _ h
        · exact hv) fun _ _ => safe_onList (hW.add hv)
    · exact trivial

omit hS in
theorem safe_rebuild : (pact S val P).Safe (fun _ => True) (rebuild S W) :=
  Safe.bind (safe_onList hW.clear) fun _ _ => Safe.bind (Q := fun l => ∀ v ∈ l, val v) (safe_seeSet fun _ h => h) fun _ h => safe_onList (hW.update h)

variable (hval : ∀ a b, eqv a b = true → val a → val b)
include hval

theorem safe_call (op : SSOp α) (ho : ∀ n, op = .reset n → load n) {L : ListAPI σ' α} (hL : Verif.SS.Makes S L P.err) (hg : ∀ v ∈ op.given, val v) :
    (pact S val P).Safe (fun out => ∀ v ∈ out.shown, val v ∨ ∃ x ∈ op.operands, eqv x v = true) (step S W L op) := by
  have any : ∀ {l : List α} {v : α}, l.any (eqv · v) = true → (∀ w ∈ l, val w) → val v := fun h hl => by
    obtain ⟨w, h1, h2⟩ := List.any_eq_true.1 h
    exact hval w _ h2 (hl w h1)
  have self : ∀ {l : List α} {v : α}, v ∈ l → l.any (eqv · v) = true := fun h => List.any_eq_true.2 ⟨_, h, hS.refl _⟩
  have quiet : ∀ {β} {Q : β → Prop} {m : Task (Verif.SS τ σ) β} {f : β → Out α}, (pact S val P).Safe Q m → (∀ b, (f b).shown = []) →
      (pact S val P).Safe (fun out => ∀ v ∈ out.shown, val v ∨ ∃ x ∈ op.operands, eqv x v = true) (f <$> m) := fun h hf =>
    Safe.map h fun b _ v hv => by rw [hf] at hv; cases hv
  have made : ∀ t : τ, (∀ v ∈ S.toList t, val v ∨ ∃ x ∈ op.operands, eqv x v = true) →
      (pact S val P).Safe (fun out => ∀ v ∈ out.shown, val v ∨ ∃ x ∈ op.operands, eqv x v = true) (Out.vals <$> made S L t : Task (Verif.SS τ σ) (Out α)) := fun t ht => by
    refine Safe.map (Q := fun l => ∀ v ∈ l, val v ∨ ∃ x ∈ op.operands, eqv x v = true) (Safe.lift (fun e' h => ?_) fun l h => ?_) fun l h => h
    · cases e : Verif.SS.fromset S L t with
      | ok s' => rw [e] at h; cases h
      | error e1 => rw [e] at h; cases h; exact .inr (hL.fromset_err e)
    · cases e : Verif.SS.fromset S L t with
      | ok s' => rw [e] at h; cases h; exact fun v hv => ht v (hL.fromset e v hv)
      | error e1 => rw [e] at h; cases h
  cases op with
  | add v => exact quiet (safe_add hS hW (hg v (by simp [SSOp.given]))) fun _ => rfl
  | discard v => exact quiet (safe_discard hS hW v) fun _ => rfl
  | remove v => exact quiet (Safe.bind (safe_setRemove hS v) fun _ _ => safe_onList (hW.remove v)) fun _ => rfl
  | pop i =>
    exact Safe.map (Q := val) (Safe.bind (safe_onList (hW.pop i)) fun v hv => Safe.bind (safe_setRemove hS v) fun _ _ => Safe.pure hv) fun v hv w hw => by
      cases List.mem_singleton.1 hw; exact .inl hv
  | delInt i => exact quiet (Safe.bind (safe_onList (hW.getInt i)) fun v hv => Safe.bind (safe_setRemove hS v) fun _ _ => safe_onList (hW.delInt i)) fun _ => rfl
  | clear => exact quiet (Safe.bind (safe_onSet fun t _ v hv => by rw [hS.empty] at hv; cases hv) fun _ _ => safe_onList hW.clear) fun _ => rfl
  | update xss =>
    have hx : ∀ v ∈ S.toList (S.ofList xss.flatten), val v := fun v hv => hg v (mem_ofList hS hv)
    refine quiet (Q := fun _ => True) (Safe.bind (Q := fun _ => True) (safe_seeSet fun _ _ => trivial) fun n _ => ?_) fun _ => rfl
    split
    · refine Safe.bind (safe_onSet fun t ht v hv => ?_) fun _ _ => safe_rebuild hW
      rcases of_mem_foldl_addNew ((hS.update _ t).mem_iff.1 hv) with h | h
      · exact ht v h
      · exact hx v h
    · exact Safe.forEach fun v hv => safe_add hS hW (hx v hv)
  | differenceUpdate xss =>
    refine quiet (Q := fun _ => True) (Safe.bind (Q := fun _ => True) (safe_seeSet fun _ _ => trivial) fun n _ => ?_) fun _ => rfl
    split
    · exact Safe.bind (safe_onSet fun t ht v hv => ht v (List.mem_filter.1 ((hS.differenceUpdate _ t).mem_iff.1 hv)).1) fun _ _ => safe_rebuild hW
    · exact Safe.forEach fun v hv => safe_discard hS hW v
  | intersectionUpdate xss =>
    refine quiet (Safe.bind (safe_onSet fun t ht v hv => ?_) fun _ _ => safe_rebuild hW) fun _ => rfl
    have := hS.intersectionUpdate xss t v
    rw [self hv, eq_comm, Bool.and_eq_true] at this
    exact any this.1 ht
  | symmetricDifferenceUpdate xs =>
    refine quiet (Safe.bind (safe_onSet fun t ht v hv => ?_) fun _ _ => safe_rebuild hW) fun _ => rfl
    have := hS.symmetricDifferenceUpdate xs t v
    rw [self hv] at this
    cases h : (S.toList t).any (eqv · v) with
    | true => exact any h ht
    | false =>
      rw [h] at this
      exact any (l := xs) (by simpa using this) hg
  | getInt i => exact Safe.map (safe_onList (hW.getInt i)) fun v hv w hw => by cases List.mem_singleton.1 hw; exact .inl hv
  | bisectLeft v => exact quiet (safe_onList (hW.bisectLeft v)) fun _ => rfl
  | bisectRight v => exact quiet (safe_onList (hW.bisectRight v)) fun _ => rfl
  | contains v => exact quiet (Q := fun _ => True) (safe_seeSet fun _ _ => trivial) fun _ => rfl
  | len => exact quiet (Q := fun _ => True) (safe_seeSet fun _ _ => trivial) fun _ => rfl
  | count v => exact quiet (Q := fun _ => True) (safe_seeSet fun _ _ => trivial) fun _ => rfl
  | isdisjoint xs => exact quiet (Q := fun _ => True) (safe_seeSet fun _ _ => trivial) fun _ => rfl
  | issubset xs => exact quiet (Q := fun _ => True) (safe_seeSet fun _ _ => trivial) fun _ => rfl
  | issuperset xs => exact quiet (Q := fun _ => True) (safe_seeSet fun _ _ => trivial) fun _ => rfl
  | compare op xs => exact quiet (Q := fun _ => True) (safe_seeSet fun _ _ => trivial) fun _ => rfl
  | iter => exact Safe.map (safe_onList hW.toList) fun l hl v hv => .inl (hl v hv)
  | reversed => exact Safe.map (safe_onList hW.toList) fun l hl v hv => .inl (hl v (List.mem_reverse.1 hv))
  | copy => exact Safe.bind (Q := fun t => ∀ v ∈ S.toList t, val v) (safe_seeSet fun t ht v hv => ht v ((hS.copy t).mem_iff.1 hv)) fun t ht => made t fun v hv => .inl (ht v hv)
  | intersection xss =>
    refine Safe.bind (Q := fun t => ∀ v ∈ S.toList t, val v) (safe_seeSet fun t ht v hv => ?_) fun t ht => made t fun v hv => .inl (ht v hv)
    have := hS.intersection xss t v
    rw [self hv, eq_comm, Bool.and_eq_true] at this
    exact any this.1 ht
  | difference xss =>
    exact Safe.bind (Q := fun t => ∀ v ∈ S.toList t, val v) (safe_seeSet fun t ht v hv => ht v (List.mem_filter.1 ((hS.difference xss t).mem_iff.1 hv)).1) fun t ht => made t fun v hv => .inl (ht v hv)
  | symmetricDifference xs =>
    refine Safe.bind (Q := fun t => ∀ v ∈ S.toList t, val v ∨ ∃ x ∈ xs, eqv x v = true) (safe_seeSet fun t ht v hv => ?_) fun t ht => made t ht
    have := hS.symmetricDifference xs t v
    rw [self hv] at this
    cases h : (S.toList t).any (eqv · v) with
    | true => exact .inl (any h ht)
    | false =>
      rw [h] at this
      exact .inr (List.any_eq_true.1 (by simpa using this))
  | union xss =>
    refine Safe.bind (safe_onList hW.toList) fun own ho => ?_
    refine Safe.map (Q := fun l => ∀ v ∈ l, val v ∨ ∃ x ∈ xss.flatten, eqv x v = true) (Safe.lift (fun e' h => ?_) fun l h => ?_) fun l h => h
    · cases e : Verif.SS.new S L (some (own ++ xss.flatten)) with
      | ok s' => rw [e] at h; cases h
      | error e1 => rw [e] at h; cases h; exact .inr (hL.new_err e)
    · cases e : Verif.SS.new S L (some (own ++ xss.flatten)) with
      | error e1 => rw [e] at h; cases h
      | ok s' =>
        rw [e] at h; cases h
        intro v hv
        rcases List.mem_append.1 (hL.new e v hv) with h | h
        · exact .inl (ho v h)
        · exact .inr ⟨v, h, hS.refl v⟩
  | delSlice sl =>
    exact quiet (Safe.bind (safe_onList (hW.getSlice sl)) fun _ _ =>
      Safe.bind (safe_onSet fun t ht v hv => ht v (List.mem_filter.1 ((hS.differenceUpdate _ t).mem_iff.1 hv)).1) fun _ _ => safe_onList (hW.delSlice sl)) fun _ => rfl
  | getSlice sl => exact Safe.map (safe_onList (hW.getSlice sl)) fun l hl v hv => .inl (hl v hv)
  | index v i j => exact quiet (safe_onList (hW.index v i j)) fun _ => rfl
  | irange lo hi a b r => exact Safe.map (safe_onList (hW.irange lo hi a b r)) fun l hl v hv => .inl (hl v hv)
  | islice i j r => exact Safe.map (safe_onList (hW.islice i j r)) fun l hl v hv => .inl (hl v hv)
  | reset n => exact quiet (safe_onList (hW.reset (ho n rfl))) fun _ => rfl

end
end Race.SS

/-! ## SortedDict -/

/-- The key of `p` is that of an item of `known`, and its value that of one with an equal key. -/
def FromItems (eqv : κ → κ → Bool) (known : κ × ν → Prop) (p : κ × ν) : Prop := (∃ w, known (p.1, w)) ∧ ∃ k', known (k', p.2) ∧ eqv k' p.1 = true

namespace FromItems
variable {eqv : κ → κ → Bool} {known : κ × ν → Prop} (he : IsEquiv eqv)
include he

theorem of {p : κ × ν} (h : known p) : FromItems eqv known p := ⟨⟨_, h⟩, _, h, he.refl _⟩

theorem lookup {d : List (κ × ν)} (hd : ∀ p ∈ d, FromItems eqv known p) {k : κ} {v : ν} (h : PyDict.lookup eqv d k = some v) : ∃ k', known (k', v) ∧ eqv k' k = true := by
  obtain ⟨k1, h1, h2⟩ := PyDict.mem_of_lookup h
  obtain ⟨-, k2, h3, h4⟩ := hd _ h2
  exact ⟨k2, h3, he.trans _ _ _ h4 h1⟩

theorem set {d : List (κ × ν)} (hd : ∀ p ∈ d, FromItems eqv known p) {q : κ × ν} (hq : FromItems eqv known q) : ∀ p ∈ PyDict.set eqv d q.1 q.2, FromItems eqv known p := by
  intro p hp
  unfold PyDict.set at hp
  split at hp
  · obtain ⟨r, hr, rfl⟩ := List.mem_map.1 hp
    split
    · rename_i e
      obtain ⟨-, k', h1, h2⟩ := hq
      exact ⟨(hd r hr).1, k', h1, he.trans _ _ _ h2 (by rw [he.symm]; exact e)⟩
    · exact hd r hr
  · rcases List.mem_append.1 hp with h | h
    · exact hd p h
    · cases List.mem_singleton.1 h; exact hq

theorem update {qs : List (κ × ν)} : ∀ {d : List (κ × ν)}, (∀ p ∈ d, FromItems eqv known p) → (∀ q ∈ qs, FromItems eqv known q) → ∀ p ∈ PyDict.update eqv d qs, FromItems eqv known p := by
  induction qs with
  | nil => exact fun hd _ => hd
  | cons q qs ih => exact fun hd hq => ih (set he hd (hq q (by simp))) fun p hp => hq p (by simp [hp])

end FromItems

theorem FromItems.mono {eqv : κ → κ → Bool} {known known' : κ × ν → Prop} (h : ∀ p, known p → known' p) {p : κ × ν} (hp : FromItems eqv known p) : FromItems eqv known' p :=
  ⟨hp.1.imp fun _ => h _, hp.2.imp fun _ hk => ⟨h _ hk.1, hk.2⟩⟩

theorem FromItems.trans {eqv : κ → κ → Bool} (he : IsEquiv eqv) {known : κ × ν → Prop} {l : List (κ × ν)} (hl : ∀ p ∈ l, FromItems eqv known p) {p : κ × ν} (hp : FromItems eqv (· ∈ l) p) : FromItems eqv known p := by
  obtain ⟨⟨w, h1⟩, k', h2, h3⟩ := hp
  obtain ⟨k'', h4, h5⟩ := (hl _ h2).2
  exact ⟨(hl _ h1).1, k'', h4, he.trans _ _ _ h5 h3⟩

/-- What new sorted dicts show was given to them; and what their construction may raise. -/
structure SD.Makes (eqv : κ → κ → Bool) (L : ListAPI σ κ) (err : PyErr → Prop) : Prop where
  items : ∀ {l l' : List (κ × ν)}, (SD.new eqv L (.pairs l none) >>= SD.items eqv L) = .ok l' → ∀ p ∈ l', FromItems eqv (· ∈ l) p
  items_err : ∀ {l : List (κ × ν)} {e}, (SD.new eqv L (.pairs l none) >>= SD.items eqv L) = .error e → err e

theorem SD.Good.makes {eqv : κ → κ → Bool} {L : ListAPI σ κ} {O : Spec.Order κ} {I : σ → Prop} (hL : SD.Good L O eqv I) (he : IsEquiv eqv) (err : PyErr → Prop) : SD.Makes (ν := ν) eqv L err := by
  have ok : ∀ l : List (κ × ν), ∃ s' : SD κ ν σ, s'.dict = PyDict.update eqv [] l ∧ (SD.new eqv L (.pairs l none) >>= SD.items eqv L) = .ok (DictSpec.sortedItems eqv O s'.dict) := fun l => by
    obtain ⟨s', e, hd, hi⟩ := SD.new_ok hL (arg := .pairs l none) rfl
    exact ⟨s', hd, by rw [e]; exact SD.items_ok hL hi⟩
  refine ⟨fun {l l'} h => ?_, fun {l e} h => ?_⟩
  · obtain ⟨s', hd, e2⟩ := ok l
    rw [e2] at h; cases h
    have hall : ∀ p ∈ s'.dict, FromItems eqv (· ∈ l) p := by
      rw [hd]; exact FromItems.update he (fun p hp => by cases hp) fun p hp => FromItems.of he hp
    intro p hp
    obtain ⟨k, hk, hkv⟩ := List.mem_filterMap.1 hp
    obtain ⟨v, hv, rfl⟩ := Option.map_eq_some_iff.1 hkv
    have hk' : k ∈ PyDict.keys s'.dict := (DictSpec.sortedKeys_sort hL.list.order s'.dict).perm.mem_iff.1 hk
    obtain ⟨q, hq, rfl⟩ := List.mem_map.1 hk'
    exact ⟨(hall q hq).1, FromItems.lookup he hall hv⟩
  · obtain ⟨s', hd, e2⟩ := ok l
    rw [e2] at h; cases h

namespace Race.SD
open Pact
variable {W : RaceAPI σ κ} {P : Pact σ} {eqv : κ → κ → Bool} {known : κ × ν → Prop}

/-- The keys and values of the dict come from `known`, and its list keeps to `P`. -/
def pact (eqv : κ → κ → Bool) (known : κ × ν → Prop) (P : Pact σ) : Pact (Verif.SD κ ν σ) :=
  { inv := fun s => PyDict.Keyed eqv s.dict ∧ (∀ p ∈ s.dict, FromItems eqv known p) ∧ P.inv s.list, err := fun e => e = .keyError ∨ P.err e }

theorem safe_onList {Q : β → Prop} {m : Task σ β} (h : P.Safe Q m) : (pact eqv known P).Safe Q (onList m) := by
  induction m with
  | ret x =>
    match x, h with
    | .ok b, h => exact h
    | .error e, h => exact .inr h
  | act f k ih => exact fun s hs => ⟨⟨hs.1, hs.2.1, (h _ hs.2.2).1⟩, ih _ (h _ hs.2.2).2⟩
  | spin => trivial

theorem safe_seeDict {Q : β → Prop} {f : List (κ × ν) → Except PyErr β} (he : ∀ d e, f d = .error e → e = .keyError) (h : ∀ d b, (∀ p ∈ d, FromItems eqv known p) → f d = .ok b → Q b) :
    (pact eqv known P).Safe Q (seeDict f) :=
  Safe.see (fun _ _ _ h => .inl (he _ _ h)) fun s b hs e => h _ _ hs.2.1 e

theorem safe_onDict {f : List (κ × ν) → List (κ × ν)} (h : ∀ d, PyDict.Keyed eqv d → (∀ p ∈ d, FromItems eqv known p) → PyDict.Keyed eqv (f d) ∧ ∀ p ∈ f d, FromItems eqv known p) :
    (pact eqv known P).Safe (fun _ => True) (onDict f) :=
  Safe.change (fun _ _ _ h => by cases h) fun s s' hs e => by cases e; exact ⟨(h _ hs.1 hs.2.1).1, (h _ hs.1 hs.2.1).2, hs.2.2⟩

theorem getitem_error {d : List (κ × ν)} {k : κ} {e : PyErr} (h : PyDict.getitem eqv d k = .error e) : e = .keyError := by
  unfold PyDict.getitem at h
  split at h <;> cases h
  rfl

theorem getitem_lookup {d : List (κ × ν)} {k : κ} {v : ν} (h : PyDict.getitem eqv d k = .ok v) : PyDict.lookup eqv d k = some v := by
  unfold PyDict.getitem at h
  split at h <;> cases h
  assumption

section
variable (he : IsEquiv eqv)
include he

theorem safe_getitem (k : κ) : (pact eqv known P).Safe (fun v => ∃ k', known (k', v) ∧ eqv k' k = true) (getitem eqv k) :=
  safe_seeDict (fun _ _ => getitem_error) fun _ _ hd h => FromItems.lookup he hd (getitem_lookup h)

theorem safe_dictPop (k : κ) : (pact eqv known P).Safe (fun v => ∃ k', known (k', v) ∧ eqv k' k = true) (dictPop eqv k) := by
  intro s hs
  refine ⟨⟨hs.1.erase k, fun p hp => hs.2.1 p (List.mem_filter.1 hp).1, hs.2.2⟩, ?_⟩
  cases h : PyDict.getitem eqv s.dict k with
  | ok v => simp only [h]; exact FromItems.lookup he hs.2.1 (getitem_lookup h)
  | error e => simp only [h]; exact .inl (getitem_error h)

variable {load : Nat → Prop} (hW : W.Keeps P (fun k => ∃ v, known (k, v)) load)
include hW

theorem safe_has (k : κ) : (pact eqv known P).Safe (fun _ => True) (seeDict fun d => .ok (PyDict.has eqv d k)) := safe_seeDict (fun _ _ h => by cases h) fun _ _ _ _ => trivial
theorem safe_len : (pact eqv known P).Safe (fun _ => True) (seeDict fun d => .ok d.length) := safe_seeDict (fun _ _ h => by cases h) fun _ _ _ _ => trivial
theorem safe_keys : (pact eqv known P).Safe (fun l => ∀ k ∈ l, ∃ v, known (k, v)) (seeDict fun d => .ok (PyDict.keys d)) :=
  safe_seeDict (fun _ _ h => by cases h) fun d _ hd h k hk => by
    cases h
    obtain ⟨p, hp, rfl⟩ := List.mem_map.1 hk
    exact (hd p hp).1

theorem safe_setitem {p : κ × ν} (hp : FromItems eqv known p) : (pact eqv known P).Safe (fun _ => True) (setitem eqv W p.1 p.2) :=
  Safe.bind (safe_has he hW p.1) fun b _ => by
    have h : (pact eqv known P).Safe (fun _ => True) (onDict fun d => PyDict.set eqv d p.1 p.2) := safe_onDict fun d hk hd => ⟨hk.set _ _, FromItems.set he hd hp⟩
    cases b
    · exact Safe.bind (safe_onList (hW.add hp.1)) fun _ _ => h
    · exact h

omit he hW in
theorem safe_mapEach {f : κ → Task (Verif.SD κ ν σ) β} {Q : κ → β → Prop} : ∀ {ks : List κ}, (∀ k ∈ ks, (pact eqv known P).Safe (Q k) (f k)) →
    (pact eqv known P).Safe (fun l => ∀ b ∈ l, ∃ k ∈ ks, Q k b) (mapEach f ks)
  | [], _ => fun b hb => by cases hb
  | k :: ks, h => by
    refine Safe.bind (h k (by simp)) fun b hb => Safe.bind (safe_mapEach fun k hk => h k (by simp [hk])) fun bs hbs => Safe.pure fun b' hb' => ?_
    rcases List.mem_cons.1 hb' with rfl | h
    · exact ⟨k, by simp, hb⟩
    · obtain ⟨k', h1, h2⟩ := hbs b' h
      exact ⟨k', by simp [h1], h2⟩

omit hW in
theorem safe_itemsOf {m : Task (Verif.SD κ ν σ) (List κ)} (hm : (pact eqv known P).Safe (fun l => ∀ k ∈ l, ∃ v, known (k, v)) m) :
    (pact eqv known P).Safe (fun l => ∀ p ∈ l, FromItems eqv known p) (m >>= mapEach fun k => do let v ← getitem eqv k; pure (k, v)) :=
  Safe.bind hm fun ks hks => Safe.mono (safe_mapEach (Q := fun k p => p.1 = k ∧ ∃ k', known (k', p.2) ∧ eqv k' k = true)
    fun k hk => Safe.bind (safe_getitem he k) fun v hv => Safe.pure ⟨rfl, hv⟩) fun l hl p hp => by
      obtain ⟨k, hk, h1, h2⟩ := hl p hp
      exact ⟨by rw [h1]; exact hks k hk, by rw [h1]; exact h2⟩

omit hW in
theorem safe_valuesOf {m : Task (Verif.SD κ ν σ) (List κ)} (hm : (pact eqv known P).Safe (fun l => ∀ k ∈ l, ∃ v, known (k, v)) m) :
    (pact eqv known P).Safe (fun l => ∀ v ∈ l, ∃ k, known (k, v)) (m >>= mapEach (getitem eqv)) :=
  Safe.bind hm fun ks hks => Safe.mono (safe_mapEach fun k hk => safe_getitem he k) fun l hl v hv => by
    obtain ⟨k, -, k', h, -⟩ := hl v hv
    exact ⟨k', h⟩

theorem safe_items : (pact eqv known P).Safe (fun l => ∀ p ∈ l, FromItems eqv known p) (items eqv W) := safe_itemsOf he (safe_onList hW.toList)

theorem safe_values : (pact eqv known P).Safe (fun l => ∀ v ∈ l, ∃ k, known (k, v)) (values eqv W) := safe_valuesOf he (safe_onList hW.toList)

theorem safe_dictUpdate {arg : DictArg κ ν} (ha : arg.fail = none) (hi : ∀ p ∈ arg.items, FromItems eqv known p) : (pact eqv known P).Safe (fun _ => True) (dictUpdate eqv arg) :=
  Safe.bind (safe_onDict fun d hk hd => ⟨hk.update _, FromItems.update he hd hi⟩) fun _ _ => by rw [ha]; exact trivial

theorem safe_peekitem (i : Int) : (pact eqv known P).Safe (FromItems eqv known) (peekitem eqv W i) :=
  Safe.bind (safe_onList (hW.getInt i)) fun k hk => Safe.bind (safe_getitem he k) fun v hv => Safe.pure ⟨hk, hv⟩

theorem safe_call (op : SDOp κ ν) (hr : ∀ n, op = .reset n → load n) (hv : op.Valid) {L : ListAPI σ' κ} (hL : Verif.SD.Makes eqv (ν := ν) L P.err) (hg : ∀ p ∈ op.given, known p) :
    (pact eqv known P).Safe (DOut.From eqv (fun p => known p ∨ p ∈ op.operands) op.asks) (step eqv W L op) := by
  have up : ∀ {p : κ × ν}, FromItems eqv known p → FromItems eqv (fun p => known p ∨ p ∈ op.operands) p := FromItems.mono fun p h => .inl h
  have quiet : ∀ {β} {Q : β → Prop} {m : Task (Verif.SD κ ν σ) β} {f : β → DOut κ ν}, (pact eqv known P).Safe Q m → (∀ b, DOut.From eqv (fun p => known p ∨ p ∈ op.operands) op.asks (f b)) →
      (pact eqv known P).Safe (DOut.From eqv (fun p => known p ∨ p ∈ op.operands) op.asks) (f <$> m) := fun h hf => Safe.map h fun b _ => hf b
  have item : ∀ {m : Task (Verif.SD κ ν σ) (κ × ν)}, (pact eqv known P).Safe (FromItems eqv known) m →
      (pact eqv known P).Safe (DOut.From eqv (fun p => known p ∨ p ∈ op.operands) op.asks) ((fun p => DOut.item p.1 p.2) <$> m) := fun h => Safe.map h fun p hp => up hp
  have made : ∀ l : List (κ × ν), (∀ p ∈ l, FromItems eqv (fun p => known p ∨ p ∈ op.operands) p) →
      (pact eqv known P).Safe (DOut.From eqv (fun p => known p ∨ p ∈ op.operands) op.asks) (DOut.items <$> made eqv L l : Task (Verif.SD κ ν σ) (DOut κ ν)) := fun l hl => by
    refine Safe.map (Q := fun l => ∀ p ∈ l, FromItems eqv (fun p => known p ∨ p ∈ op.operands) p) (Safe.lift (fun e' h => .inr (hL.items_err h)) fun l' h => ?_) fun l h => h
    exact fun p hp => (hL.items h p hp).trans he hl
  have given : ∀ p ∈ op.given, FromItems eqv known p := fun p hp => FromItems.of he (hg p hp)
  cases op with
  | setitem k v => exact quiet (safe_setitem he hW (given (k, v) (by simp [SDOp.given]))) fun _ => trivial
  | delitem k => exact quiet (Safe.bind (safe_dictPop he k) fun _ _ => safe_onList (hW.remove k)) fun _ => trivial
  | clear => exact quiet (Safe.bind (safe_onDict fun _ _ _ => ⟨PyDict.Keyed.nil, fun p hp => by cases hp⟩) fun _ _ => safe_onList hW.clear) fun _ => trivial
  | pop k default =>
    refine Safe.map (Q := fun v => ∃ k', (known (k', v) ∨ (k', v) ∈ (SDOp.pop k default).operands) ∧ eqv k' k = true) (Safe.bind (safe_has he hW k) fun b _ => ?_)
      fun v ⟨k', h1, h2⟩ => ⟨k', h1, fun k'' e => by cases e; exact h2⟩
    cases b
    · cases default with
      | none => exact .inl rfl
      | some v => exact ⟨k, .inr (by simp [SDOp.operands]), he.refl k⟩
    · exact Safe.bind (safe_onList (hW.remove k)) fun _ _ => Safe.mono (safe_dictPop he k) fun v ⟨k', h1, h2⟩ => ⟨k', .inl h1, h2⟩
  | popitem i =>
    refine item (Safe.bind (safe_len he hW) fun n _ => ?_)
    split
    · exact .inl rfl
    · exact Safe.bind (safe_onList (hW.pop i)) fun k hk => Safe.bind (safe_dictPop he k) fun v hv => Safe.pure ⟨hk, hv⟩
  | peekitem i => exact item (safe_peekitem he hW i)
  | itemsAt i => exact item (safe_peekitem he hW i)
  | setdefault k v =>
    refine Safe.map (Q := fun v => ∃ k', known (k', v) ∧ eqv k' k = true) (Safe.bind (safe_has he hW k) fun b _ => ?_) fun v ⟨k', h1, h2⟩ => ⟨k', .inl h1, fun k'' e => by cases e; exact h2⟩
    have h := hg (k, v) (by simp [SDOp.given])
    cases b
    · exact Safe.bind (safe_onDict fun d hk hd => ⟨hk.set _ _, FromItems.set he (q := (k, v)) hd (FromItems.of he h)⟩) fun _ _ =>
        Safe.bind (safe_onList (hW.add ⟨v, h⟩)) fun _ _ => Safe.pure ⟨k, h, he.refl k⟩
    · exact safe_getitem he k
  | update arg =>
    refine quiet (Q := fun _ => True) (Safe.bind (safe_len he hW) fun n _ => ?_) fun _ => trivial
    split
    · exact Safe.bind (safe_dictUpdate he hW hv given) fun _ _ => Safe.bind (safe_keys he hW) fun ks hks => safe_onList (hW.update hks)
    · refine Safe.bind (Q := fun l => ∀ p ∈ l, FromItems eqv known p) (Safe.lift (fun e h => ?_) fun l h => ?_) fun pairs hp => Safe.bind (safe_len he hW) fun n _ => ?_
      · cases arg with
        | dict items => cases h
        | pairs items fail => cases (hv : fail = none); cases h
      · cases arg with
        | dict items => cases h; exact given
        | pairs items fail => cases (hv : fail = none); cases h; exact FromItems.update he (fun p hp => by cases hp) given
      · split
        · exact Safe.bind (safe_dictUpdate he hW (arg := .dict pairs) rfl hp) fun _ _ => Safe.bind (safe_onList hW.clear) fun _ _ => Safe.bind (safe_keys he hW) fun ks hks =>
            safe_onList (hW.update hks)
        · exact Safe.forEach fun p hp' => safe_setitem he hW (hp p hp')
  | getitem k => exact Safe.map (safe_getitem he k) fun v ⟨k', h1, h2⟩ => ⟨k', .inl h1, fun k'' e => by cases e; exact h2⟩
  | get k =>
    refine Safe.map (Q := fun o => ∀ v, o = some v → ∃ k', known (k', v) ∧ eqv k' k = true) (safe_seeDict (fun _ _ h => by cases h) fun d o hd h v hv => ?_) fun o ho => ?_
    · cases h; exact FromItems.lookup he hd hv
    · cases o with
      | none => trivial
      | some v =>
        obtain ⟨k', h1, h2⟩ := ho v rfl
        exact ⟨k', .inl h1, fun k'' e => by cases e; exact h2⟩
  | contains k => exact quiet (safe_has he hW k) fun _ => trivial
  | len => exact quiet (safe_len he hW) fun _ => trivial
  | iter => exact Safe.map (safe_onList hW.toList) fun l hl k hk => (hl k hk).imp fun _ => .inl
  | reversed => exact Safe.map (safe_onList hW.toList) fun l hl k hk => (hl k (List.mem_reverse.1 hk)).imp fun _ => .inl
  | items => exact Safe.map (safe_items he hW) fun l hl p hp => up (hl p hp)
  | values => exact Safe.map (safe_values he hW) fun l hl v hv => (hl v hv).imp fun _ => .inl
  | keysAt i => exact Safe.map (safe_onList (hW.getInt i)) fun k hk => hk.imp fun _ => .inl
  | valuesAt i =>
    exact Safe.map (Q := fun v => ∃ k, known (k, v)) (Safe.bind (safe_onList (hW.getInt i)) fun k hk => Safe.mono (safe_getitem he k) fun v ⟨k', h, _⟩ => ⟨k', h⟩)
      fun v ⟨k, h⟩ => ⟨k, .inl h, fun k' e => by cases e⟩
  | viewDelInt i => exact quiet (Q := fun _ => True) (Safe.bind (safe_onList (hW.pop i)) fun k hk => Safe.bind (safe_dictPop he k) fun v hv => Safe.pure trivial) fun _ => trivial
  | bisectLeft k => exact quiet (safe_onList (hW.bisectLeft k)) fun _ => trivial
  | bisectRight k => exact quiet (safe_onList (hW.bisectRight k)) fun _ => trivial
  | copy => exact Safe.bind (safe_items he hW) fun own ho => made own fun p hp => up (ho p hp)
  | or other =>
    refine Safe.bind (safe_items he hW) fun own ho => made _ fun p hp => ?_
    rcases List.mem_append.1 hp with h | h
    · exact up (ho p h)
    · exact FromItems.of he (.inr h)
  | ror other =>
    refine Safe.bind (safe_items he hW) fun own ho => made _ fun p hp => ?_
    rcases List.mem_append.1 hp with h | h
    · exact FromItems.of he (.inr h)
    · exact up (ho p h)
  | keysSlice sl => exact Safe.map (safe_onList (hW.getSlice sl)) fun l hl k hk => (hl k hk).imp fun _ => .inl
  | itemsSlice sl => exact Safe.map (safe_itemsOf he (safe_onList (hW.getSlice sl))) fun l hl p hp => up (hl p hp)
  | valuesSlice sl => exact Safe.map (safe_valuesOf he (safe_onList (hW.getSlice sl))) fun l hl v hv => (hl v hv).imp fun _ => .inl
  | viewDelSlice sl =>
    exact quiet (Q := fun _ => True) (Safe.bind (safe_onList (hW.getSlice sl)) fun ks _ => Safe.bind (safe_onList (hW.delSlice sl)) fun _ _ =>
      Safe.forEach fun k _ => Safe.bind (safe_dictPop he k) fun _ _ => Safe.pure trivial) fun _ => trivial
  | index k i j => exact quiet (safe_onList (hW.index k i j)) fun _ => trivial
  | irange lo hi a b r => exact Safe.map (safe_onList (hW.irange lo hi a b r)) fun l hl k hk => (hl k hk).imp fun _ => .inl
  | islice i j r => exact Safe.map (safe_onList (hW.islice i j r)) fun l hl k hk => (hl k hk).imp fun _ => .inl
  | reset n => exact quiet (safe_onList (hW.reset (hr n rfl))) fun _ => trivial

end
end Race.SD
end Verif
