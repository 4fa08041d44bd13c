import Verif.Proofs.RaceCrowd
import Verif.Model.RaceSets
import Verif.Costs
/-!
# Threads that only add to a shared sorted set or dict do not go round for ever
-/

namespace Verif
variable {α β γ σ τ κ ν : Type}

/-- Calls on a SortedSet that take nothing out of its list: `add` and the queries; `index` only without a key function (the loop over equal keys is not covered: others may lengthen it as it goes). -/
def SSOp.stays (keyed : Bool) : SSOp α → Bool
  | .add _ | .getInt _ | .getSlice _ | .bisectLeft _ | .bisectRight _ | .irange .. | .islice .. | .contains _ | .len | .iter | .reversed | .count _ | .isdisjoint _ | .issubset _
  | .issuperset _ | .compare .. | .copy | .union _ | .intersection _ | .difference _ | .symmetricDifference _ => true
  | .index .. => !keyed
  | _ => false

/-- Calls on a SortedDict that take nothing out of its list: `sd[key] = value`, `setdefault` and the queries. -/
def SDOp.stays (keyed : Bool) : SDOp κ ν → Bool
  | .setitem .. | .setdefault .. | .peekitem _ | .getitem _ | .get _ | .contains _ | .len | .iter | .reversed | .items | .values | .keysAt _ | .keysSlice _ | .itemsAt _ | .itemsSlice _
  | .valuesAt _ | .valuesSlice _ | .bisectLeft _ | .bisectRight _ | .irange .. | .islice .. | .copy | .or _ | .ror _ => true
  | .index .. => !keyed
  | _ => false

/-- What may come after what. -/
structure Course (σ : Type) where
  rel : σ → σ → Prop
  refl : ∀ s, rel s s
  trans : ∀ {s t u}, rel s t → rel t u → rel s u

namespace Course

/-- After the object was seen as `s`, the program keeps to `R`, provided that the other threads do, and does not go round for ever. -/
def Lasts (R : Course σ) : σ → Task σ β → Prop
  | _, .ret _ => True
  | s, .act f k => ∀ t, R.rel s t → R.rel t (f t) ∧ Lasts R (f t) (k t)
  | _, .spin => False

namespace Lasts
variable {R : Course σ}

theorem later {s t : σ} {m : Task σ β} (h : R.Lasts s m) (r : R.rel s t) : R.Lasts t m := by
  cases m with
  | ret x => trivial
  | act f k => exact fun u hu => h u (R.trans r hu)
  | spin => exact h

theorem bind {s : σ} {m : Task σ β} {f : β → Task σ γ} (h : R.Lasts s m) (hf : ∀ t b, R.Lasts t (f b)) : R.Lasts s (m >>= f) := by
  show R.Lasts s (Task.bind m f)
  induction m generalizing s with
  | ret x =>
    cases x with
    | ok b => exact hf s b
    | error e => trivial
  | act g k ih => exact fun t ht => ⟨(h t ht).1, ih t (h t ht).2⟩
  | spin => exact h

theorem pure {s : σ} (b : β) : R.Lasts s (Pure.pure b : Task σ β) := trivial
theorem lift {s : σ} (x : Except PyErr β) : R.Lasts s (Task.lift x : Task σ β) := trivial
theorem see {s : σ} (f : σ → Except PyErr β) : R.Lasts s (Task.see f) := fun t _ => ⟨R.refl t, trivial⟩
theorem map {s : σ} {m : Task σ β} (f : β → γ) (h : R.Lasts s m) : R.Lasts s (f <$> m) := bind h fun _ _ => trivial

theorem attempt {s : σ} {m : Task σ β} (h : R.Lasts s m) : R.Lasts s (Task.attempt m) := by
  induction m generalizing s with
  | ret x => trivial
  | act g k ih => exact fun t ht => ⟨(h t ht).1, ih t (h t ht).2⟩
  | spin => exact h

theorem calls {step : γ → Task σ β} : ∀ {cs : List γ}, (∀ c ∈ cs, ∀ s, R.Lasts s (step c)) → ∀ s, R.Lasts s (Task.calls step cs)
  | [], _, _ => trivial
  | c :: cs, h, s => by
    unfold Task.calls
    exact bind (attempt (h c (by simp) s)) fun t _ => bind (calls (fun c hc => h c (by simp [hc])) t) fun _ _ => trivial

theorem turn {p : Crowd σ β} (h : ∀ (j : Nat) m, p.threads[j]? = some m → R.Lasts p.shared m) (i : Nat) :
    ∀ (j : Nat) m, (p.turn i).threads[j]? = some m → R.Lasts (p.turn i).shared m := by
  unfold Crowd.turn
  split
  · rename_i f k hi
    have hm := h i _ hi p.shared (R.refl _)
    intro j m hj
    simp only [List.getElem?_set] at hj
    split at hj
    · split at hj
      · cases hj; exact hm.2
      · cases hj
    · exact (h j m hj).later hm.1
  · exact h

theorem run (schedule : List Nat) {p : Crowd σ β} (h : ∀ (j : Nat) m, p.threads[j]? = some m → R.Lasts p.shared m) :
    ∀ (j : Nat) m, (p.run schedule).threads[j]? = some m → R.Lasts (p.run schedule).shared m := by
  induction schedule generalizing p with
  | nil => exact h
  | cons i schedule ih => exact ih (turn h i)

/-- A thread that has turns again and again ends, if all calls of all threads keep to `R`. -/
theorem ends {step : γ → Task σ β} (threads : List (List γ)) (s : σ) (h : ∀ cs ∈ threads, ∀ c ∈ cs, ∀ s, R.Lasts s (step c)) (schedule : Nat → Nat) (i : Nat) (hi : i < threads.length)
    (fair : ∀ n, ∃ m, n ≤ m ∧ schedule m = i) :
    ∃ n x, ((Crowd.mk s (threads.map (Task.calls step))).run ((List.range n).map schedule)).result i = some x := by
  obtain ⟨n, m, hm, he⟩ := Crowd.gets_through (Crowd.mk s (threads.map (Task.calls step))) schedule i fair _ 0 (List.getElem?_eq_getElem (l := threads.map _) (by simpa using hi))
  have hl := run (R := R) ((List.range n).map schedule) (p := Crowd.mk s (threads.map (Task.calls step))) (fun j m hj => by
    rw [List.getElem?_map] at hj
    cases hcs : threads[j]? with
    | none => rw [hcs] at hj; cases hj
    | some cs =>
      rw [hcs] at hj
      cases hj
      exact calls (h cs (List.mem_of_getElem? hcs)) s) i m hm
  refine ⟨n, ?_⟩
  cases m with
  | ret x => exact ⟨x, by show (Crowd.first _ schedule n).result i = _; unfold Crowd.result; rw [hm]⟩
  | spin => exact hl.elim
  | act f k => cases he

end Lasts

/-- The list of an object takes this course. -/
def ofList (R : Course σ) (get : τ → σ) : Course τ := ⟨fun s t => R.rel (get s) (get t), fun _ => R.refl _, R.trans⟩

end Course

/-- The methods of a list that take nothing out of it keep to `R`. -/
structure RaceAPI.Lasts (W : RaceAPI σ α) (R : Course σ) (keyed : Bool) : Prop where
  add : ∀ v s, R.Lasts s (W.add v)
  getInt : ∀ i s, R.Lasts s (W.getInt i)
  bisectLeft : ∀ v s, R.Lasts s (W.bisectLeft v)
  bisectRight : ∀ v s, R.Lasts s (W.bisectRight v)
  toList : ∀ s, R.Lasts s W.toList
  getSlice : ∀ sl s, R.Lasts s (W.getSlice sl)
  irange : ∀ lo hi a b r s, R.Lasts s (W.irange lo hi a b r)
  islice : ∀ i j r s, R.Lasts s (W.islice i j r)
  index : keyed = false → ∀ v i j s, R.Lasts s (W.index v i j)

namespace Race

/-- Nothing is asked but that `_maxes` is never emptied. -/
def growing (α κ : Type) : Bounds α κ := { val := fun _ => True, load := fun _ => True, grow := True, err := fun _ => True, index := trivial, value := trivial }

/-- `_maxes` is never emptied. -/
def course (α κ : Type) : Course (Shared α κ) := ⟨fun s t => s.maxes ≠ [] → t.maxes ≠ [], fun _ => id, fun h h' n => h' (h n)⟩

theorem Bounds.Safe.lasts {Q : Shared α κ → β → Prop} {s : Shared α κ} {m : Run α κ β} (h : (growing α κ).Safe Q s m) : (course α κ).Lasts s m := by
  induction m generalizing s with
  | ret x => trivial
  | act f k ih =>
    intro t ht
    obtain ⟨h1, h2⟩ := h t ⟨⟨fun _ _ _ _ => trivial, trivial⟩, fun _ => ht⟩
    exact ⟨h1.2 trivial, ih t h2⟩
  | spin => exact h trivial

theorem lasts (c : ListClass α) (fuel : Nat) : ∃ R : Course c.Memory, (c.race fuel).Lasts R c.hasKey := by
  cases c with
  | plain E =>
    have hS : (growing α α).Suits E := ⟨fun _ _ _ _ _ => trivial, fun _ _ _ => trivial, fun _ _ _ _ _ _ => trivial⟩
    have hH : ∀ s, (growing α α).Holds s := fun s => ⟨fun _ _ _ _ => trivial, trivial⟩
    exact ⟨course α α, fun v s => (Bounds.Safe.SL_add hS fuel (v := v) trivial (hH s)).lasts, fun i s => (Bounds.Safe.getInt _ i (hH s)).lasts,
      fun v s => (Bounds.Safe.SL_bisect hS false v (hH s)).lasts, fun v s => (Bounds.Safe.SL_bisect hS true v (hH s)).lasts,
      fun s => (Bounds.Safe.toList (s := s)).lasts, fun sl s => (Bounds.Safe.getSlice _ sl (hH s)).lasts,
      fun lo hi a b r s => (Bounds.Safe.SL_irange hS lo hi a b r (hH s)).lasts, fun i j r s => (Bounds.Safe.islice _ i j r (hH s)).lasts,
      fun _ v i j s => (Bounds.Safe.SL_index hS v i j (hH s)).lasts⟩
  | @keyed κ K =>
    have hS : (growing α κ).KSuits K := ⟨fun _ _ _ => trivial, fun _ _ _ _ _ => trivial, fun _ _ _ _ => trivial, fun _ _ _ => trivial, fun _ _ _ _ _ _ => trivial⟩
    have hH : ∀ s, (growing α κ).Holds s := fun s => ⟨fun _ _ _ _ => trivial, trivial⟩
    exact ⟨course α κ, fun v s => (Bounds.Safe.SKL_add hS fuel (v := v) trivial (hH s)).lasts, fun i s => (Bounds.Safe.getInt _ i (hH s)).lasts,
      fun v s => (Bounds.Safe.SKL_bisect hS false v (hH s)).lasts, fun v s => (Bounds.Safe.SKL_bisect hS true v (hH s)).lasts,
      fun s => (Bounds.Safe.toList (s := s)).lasts, fun sl s => (Bounds.Safe.getSlice _ sl (hH s)).lasts,
      fun lo hi a b r s => (Bounds.Safe.SKL_irange hS lo hi a b r (hH s)).lasts, fun i j r s => (Bounds.Safe.islice _ i j r (hH s)).lasts,
      fun h => by cases h⟩

namespace SS
variable {S : SetOps τ α} {W : RaceAPI σ α} {R : Course σ} {σ' : Type} {L : ListAPI σ' α} {keyed : Bool}

/-- The course of the list of a set. -/
def course (R : Course σ) : Course (Verif.SS τ σ) := R.ofList fun s => s.list

theorem lasts_onList {s : Verif.SS τ σ} {m : Task σ β} (h : R.Lasts s.list m) : (course R).Lasts s (onList (τ := τ) m) := by
  induction m generalizing s with
  | ret x => trivial
  | act f k ih => exact fun t ht => ⟨(h t.list ht).1, ih t.list (s := { t with list := f t.list }) (h t.list ht).2⟩
  | spin => exact h

theorem lasts_seeSet {s : Verif.SS τ σ} (f : τ → β) : (course R).Lasts s (seeSet f) := Course.Lasts.see _

theorem lasts_call (hW : W.Lasts R keyed) (op : SSOp α) (hop : op.stays keyed = true) (s : Verif.SS τ σ) : (course R).Lasts s (step S W L op) := by
  cases op <;> try cases hop
  case add v =>
    refine .map _ (.bind (lasts_seeSet _) fun t there => ?_)
    cases there
    · exact .bind (fun u _ => ⟨R.refl _, trivial⟩) fun t _ => lasts_onList (hW.add v _)
    · trivial
  case getInt i => exact .map _ (lasts_onList (hW.getInt i _))
  case getSlice sl => exact .map _ (lasts_onList (hW.getSlice sl _))
  case bisectLeft v => exact .map _ (lasts_onList (hW.bisectLeft v _))
  case bisectRight v => exact .map _ (lasts_onList (hW.bisectRight v _))
  case index v i j => exact .map _ (lasts_onList (hW.index (by simpa [SSOp.stays] using hop) v i j _))
  case irange lo hi a b r => exact .map _ (lasts_onList (hW.irange lo hi a b r _))
  case islice i j r => exact .map _ (lasts_onList (hW.islice i j r _))
  case contains v => exact .map _ (lasts_seeSet _)
  case len => exact .map _ (lasts_seeSet _)
  case iter => exact .map _ (lasts_onList (hW.toList _))
  case reversed => exact .map _ (lasts_onList (hW.toList _))
  case count v => exact .map _ (lasts_seeSet _)
  case isdisjoint xs => exact .map _ (lasts_seeSet _)
  case issubset xs => exact .map _ (lasts_seeSet _)
  case issuperset xs => exact .map _ (lasts_seeSet _)
  case compare op values => exact .map _ (lasts_seeSet _)
  case copy => exact .bind (lasts_seeSet _) fun _ _ => .map _ (.lift _)
  case union xss => exact .bind (lasts_onList (hW.toList _)) fun _ _ => .map _ (.lift _)
  case intersection xss => exact .bind (lasts_seeSet _) fun _ _ => .map _ (.lift _)
  case difference xss => exact .bind (lasts_seeSet _) fun _ _ => .map _ (.lift _)
  case symmetricDifference xs => exact .bind (lasts_seeSet _) fun _ _ => .map _ (.lift _)

end SS

namespace SD
variable {eqv : κ → κ → Bool} {W : RaceAPI σ κ} {R : Course σ} {σ' : Type} {L : ListAPI σ' κ} {keyed : Bool}

/-- The course of the list of a dict. -/
def course (R : Course σ) : Course (Verif.SD κ ν σ) := R.ofList fun s => s.list

theorem lasts_onList {s : Verif.SD κ ν σ} {m : Task σ β} (h : R.Lasts s.list m) : (course R).Lasts s (onList (κ := κ) (ν := ν) m) := by
  induction m generalizing s with
  | ret x => trivial
  | act f k ih => exact fun t ht => ⟨(h t.list ht).1, ih t.list (s := { t with list := f t.list }) (h t.list ht).2⟩
  | spin => exact h

theorem lasts_seeDict {s : Verif.SD κ ν σ} (f : List (κ × ν) → Except PyErr β) : (course R).Lasts s (seeDict f) := Course.Lasts.see _
theorem lasts_onDict {s : Verif.SD κ ν σ} (f : List (κ × ν) → List (κ × ν)) : (course R).Lasts s (onDict f) := fun _ _ => ⟨R.refl _, trivial⟩

theorem lasts_mapEach {f : κ → Task (Verif.SD κ ν σ) β} (hf : ∀ k s, (course R).Lasts s (f k)) : ∀ ks s, (course R).Lasts s (mapEach f ks)
  | [], _ => trivial
  | k :: ks, s => .bind (hf k s) fun t _ => .bind (lasts_mapEach hf ks t) fun _ _ => trivial

theorem lasts_items (hW : W.Lasts R keyed) (s : Verif.SD κ ν σ) : (course R).Lasts s (items eqv W) :=
  .bind (lasts_onList (hW.toList _)) fun _ _ => lasts_mapEach (fun _ _ => .bind (lasts_seeDict _) fun _ _ => .pure _) _ _

theorem lasts_peekitem (hW : W.Lasts R keyed) (i : Int) (s : Verif.SD κ ν σ) : (course R).Lasts s (peekitem eqv W i) :=
  .bind (lasts_onList (hW.getInt i _)) fun _ _ => .bind (lasts_seeDict _) fun _ _ => trivial

theorem lasts_call (hW : W.Lasts R keyed) (op : SDOp κ ν) (hop : op.stays keyed = true) (s : Verif.SD κ ν σ) : (course R).Lasts s (step eqv W L op) := by
  cases op <;> try cases hop
  case setitem k v =>
    refine .map _ (.bind (lasts_seeDict _) fun t there => ?_)
    cases there
    · exact .bind (lasts_onList (hW.add k _)) fun _ _ => lasts_onDict _
    · exact lasts_onDict fun d => PyDict.set eqv d k v
  case setdefault k v =>
    refine .map _ (.bind (lasts_seeDict _) fun t there => ?_)
    cases there
    · exact .bind (lasts_onDict _) fun _ _ => .bind (lasts_onList (hW.add k _)) fun _ _ => trivial
    · exact lasts_seeDict fun d => PyDict.getitem eqv d k
  case peekitem i => exact .map _ (lasts_peekitem hW i _)
  case getitem k => exact .map _ (lasts_seeDict _)
  case get k => exact .map _ (lasts_seeDict _)
  case contains k => exact .map _ (lasts_seeDict _)
  case len => exact .map _ (lasts_seeDict _)
  case iter => exact .map _ (lasts_onList (hW.toList _))
  case reversed => exact .map _ (lasts_onList (hW.toList _))
  case items => exact .map _ (lasts_items hW _)
  case values => exact .map _ (.bind (lasts_onList (hW.toList _)) fun _ _ => lasts_mapEach (fun _ _ => lasts_seeDict _) _ _)
  case keysAt i => exact .map _ (lasts_onList (hW.getInt i _))
  case keysSlice sl => exact .map _ (lasts_onList (hW.getSlice sl _))
  case itemsAt i => exact .map _ (lasts_peekitem hW i _)
  case itemsSlice sl => exact .map _ (.bind (lasts_onList (hW.getSlice sl _)) fun _ _ => lasts_mapEach (fun _ _ => .bind (lasts_seeDict _) fun _ _ => .pure _) _ _)
  case valuesAt i => exact .map _ (.bind (lasts_onList (hW.getInt i _)) fun _ _ => lasts_seeDict _)
  case valuesSlice sl => exact .map _ (.bind (lasts_onList (hW.getSlice sl _)) fun _ _ => lasts_mapEach (fun _ _ => lasts_seeDict _) _ _)
  case bisectLeft k => exact .map _ (lasts_onList (hW.bisectLeft k _))
  case bisectRight k => exact .map _ (lasts_onList (hW.bisectRight k _))
  case index k i j => exact .map _ (lasts_onList (hW.index (by simpa [SDOp.stays] using hop) k i j _))
  case irange lo hi a b r => exact .map _ (lasts_onList (hW.irange lo hi a b r _))
  case islice i j r => exact .map _ (lasts_onList (hW.islice i j r _))
  case copy => exact .bind (lasts_items hW _) fun _ _ => .map _ (.lift _)
  case or other => exact .bind (lasts_items hW _) fun _ _ => .map _ (.lift _)
  case ror other => exact .bind (lasts_items hW _) fun _ _ => .map _ (.lift _)

end SD
end Race
end Verif
