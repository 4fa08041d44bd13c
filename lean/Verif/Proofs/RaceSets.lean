import Verif.Model.RaceSets
import Verif.Proofs.LockedSKL
/-!
# A thread that runs alone, on an object made of two stores

`Same R f m s p t`: the program `m`, run without interruption on the object `s`, does what the method `p` does to `t`.
-/

namespace Verif
variable {α β γ δ ε σ τ : Type}

def Same (R : σ → τ → Prop) (f : γ → β) (m : Task σ β) (s : σ) (p : Py τ γ) (t : τ) : Prop :=
  ∃ s', m.alone s = some ((p t).1.map f, s') ∧ R s' (p t).2

namespace Same
variable {R : σ → τ → Prop} {f : γ → β} {s : σ} {t : τ}

theorem bind {g : ε → δ} {m : Task σ β} {p : Py τ γ} {k : β → Task σ δ} {q : γ → Py τ ε} (h : Same R f m s p t)
    (hk : ∀ c s', p t = (.ok c, (p t).2) → R s' (p t).2 → Same R g (k (f c)) s' (q c) (p t).2) : Same R g (m >>= k) s (p >>= q) t := by
  unfold Same at *
  obtain ⟨s1, e1, h1⟩ := h
  rcases hp : p t with ⟨e | c, t'⟩
  · rw [Py.bind_error hp, Task.alone_bind', e1]
    rw [hp] at h1
    simp only [hp, Except.map]
    exact ⟨s1, rfl, h1⟩
  · rw [Py.bind_ok hp, Task.alone_bind', e1]
    rw [hp] at h1 hk
    simp only [hp, Except.map]
    exact hk c s1 rfl h1

theorem pure {b : β} {c : γ} (hR : R s t) (e : b = f c) : Same R f (Pure.pure b) s (Pure.pure c) t := ⟨s, by rw [e]; rfl, hR⟩

theorem raise {e : PyErr} (hR : R s t) : Same R f (Task.raise e) s (Py.raise e) t := ⟨s, rfl, hR⟩

theorem lift {x : Except PyErr β} (hR : R s t) : Same R id (Task.lift x) s (Py.lift x) t := ⟨s, by cases x <;> rfl, hR⟩

/-- The program looks at something that the method has looked at as part of the state. -/
theorem see {g : ε → δ} {h : σ → β} {k : β → Task σ δ} {q : Py τ ε} (hk : Same R g (k (h s)) s q t) : Same R g (Task.see (fun s => .ok (h s)) >>= k) s q t := hk

theorem get {g : ε → δ} {m : Task σ δ} {q : τ → Py τ ε} (hk : Same R g m s (q t) t) : Same R g m s (Py.get >>= q) t := hk

theorem ite {c c' : Prop} [Decidable c] [Decidable c'] {m1 m2 : Task σ β} {p1 p2 : Py τ γ} (hc : c ↔ c') (h1 : c' → Same R f m1 s p1 t) (h2 : ¬ c' → Same R f m2 s p2 t) :
    Same R f (if c then m1 else m2) s (if c' then p1 else p2) t := by
  by_cases h : c'
  · rw [if_pos h, if_pos (hc.2 h)]; exact h1 h
  · rw [if_neg h, if_neg (fun h' => h (hc.1 h'))]; exact h2 h

theorem out {m : Task σ β} {p : Py τ γ} (h : Same R f m s p t) {g : β → Out α} {g' : γ → Out α} (e : ∀ c, g (f c) = g' c) : Same R id (g <$> m) s (Spec.out g' p) t := by
  unfold Same Spec.out at *
  obtain ⟨s1, e1, h1⟩ := h
  refine ⟨s1, ?_, ?_⟩
  · rw [Task.alone_map, e1]
    rcases hp : p t with ⟨_ | _, _⟩ <;> simp [Except.map, e]
  · rcases hp : p t with ⟨_ | _, _⟩ <;> rw [hp] at h1 <;> exact h1

theorem forEach {I : τ → Prop} {size : τ → Nat} {room : Nat} {w : Nat} {m : β → Task σ Unit} {p : β → Py τ Unit}
    (hI : ∀ x s t, R s t → I t → size t + w < room → Same R id (m x) s (p x) t ∧ I (p x t).2 ∧ size (p x t).2 ≤ size t + w) :
    ∀ (xs : List β) (s : σ) (t : τ), R s t → I t → size t + xs.length * w < room → Same R id (Task.forEach m xs) s (Py.forEach p xs) t
  | [], s, t, hR, _, _ => pure hR rfl
  | x :: xs, s, t, hR, hi, hr => by
    rw [List.length_cons, Nat.add_mul, Nat.one_mul] at hr
    obtain ⟨h1, h2, h3⟩ := hI x s t hR hi (by omega)
    exact bind h1 fun c s' e hR' => forEach hI xs s' _ hR' h2 (by omega)

end Same

/-- The programs `W`, run alone, do what the methods `L` do, as long as there is room. -/
structure RaceAPI.Tracks (W : RaceAPI σ α) (L : ListAPI τ α) (R : σ → τ → Prop) (room : Nat) : Prop where
  add : ∀ {s t} v, R s t → (L.iter t).length + 1 < room → Same R id (W.add v) s (L.add v) t
  update : ∀ {s t} xs, R s t → (L.iter t).length + xs.length < room → Same R id (W.update xs) s (L.update xs) t
  remove : ∀ {s t} v, R s t → (L.iter t).length < room → Same R id (W.remove v) s (L.remove v) t
  clear : ∀ {s t}, R s t → Same R id W.clear s L.clear t
  delInt : ∀ {s t} i, R s t → Same R id (W.delInt i) s (L.delInt i) t
  pop : ∀ {s t} i, R s t → Same R id (W.pop i) s (L.pop i) t
  getInt : ∀ {s t} i, R s t → Same R id (W.getInt i) s (L.getInt i) t
  bisectLeft : ∀ {s t} v, R s t → Same R Int.ofNat (W.bisectLeft v) s (L.bisectLeft v) t
  bisectRight : ∀ {s t} v, R s t → Same R Int.ofNat (W.bisectRight v) s (L.bisectRight v) t
  toList : ∀ {s t}, R s t → W.toList.alone s = some (.ok (L.iter t), s)
  getSlice : ∀ {s t} sl, R s t → Same R id (W.getSlice sl) s (L.getSlice sl) t
  delSlice : ∀ {s t} sl, R s t → (L.iter t).length < room → Same R id (W.delSlice sl) s (L.delSlice sl) t
  index : ∀ {s t} v i j, R s t → (L.iter t).length < room → Same R id (W.index v i j) s (L.index v i j) t
  irange : ∀ {s t} lo hi a b r, R s t → Same R id (W.irange lo hi a b r) s (L.irange lo hi a b r) t
  islice : ∀ {s t} i j r, R s t → Same R id (W.islice i j r) s (L.islice i j r) t
  reset : ∀ {s t load}, 1 ≤ load → R s t → (L.iter t).length < room → Same R id (W.reset load) s (L.reset load) t

namespace Race
variable {κ : Type}

theorem Mirrors.view {s : Shared α κ} {t : St α κ} (h : Mirrors s t) : s.view = t := by
  rcases t with ⟨len, load, lists, keys, maxes, index, offset⟩
  have h1 := h.lists; have h2 := h.keys; have h3 := h.maxes; have h4 := h.index; have h5 := h.offset; have h6 := h.len; have h7 := h.load
  simp only at h1 h2 h3 h4 h5 h6 h7
  subst h1 h2 h3 h5 h7
  have e : ∀ l : List Nat, List.map (Int.toNat ∘ Int.ofNat) l = l := fun l => by
    induction l with
    | nil => rfl
    | cons x l ih => rw [List.map_cons, ih]; rfl
  simp [Shared.view, h4, h6, e]

theorem Agrees.same {I : St α κ → Prop} {L : ListAPI (St α κ) α} {f : Py (List α) γ} {p : Py (St α κ) γ} {m : Run α κ β} {g : γ → β} {s : Shared α κ} {t : St α κ} (ha : Agrees g m s p t)
    (hr : Refines I L.iter p f) (hI : I t) (hg : ∀ l, (f l).1 ≠ .error .modelGap) : Same (fun s t => Mirrors s t ∧ I t) g m s p t := by
  obtain ⟨h1, h2, h3⟩ := hr t hI
  rcases ha with ha | ⟨s', e, hM⟩
  · exact absurd (h1 ▸ ha) (hg _)
  · exact ⟨s', e, hM, h3⟩

theorem alone_toList {s : Shared α κ} {t : St α κ} (hM : Mirrors s t) : (Race.toList : Run α κ (List α)).alone s = some (.ok (Core.iter t), s) := by
  rw [Race.toList, alone_see, hM.contents]

theorem gap_add (O : Spec.Order α) (v : α) (l : List α) : (Spec.add O v l).1 ≠ .error .modelGap := by simp [Spec.add]
theorem gap_update (O : Spec.Order α) (v : List α) (l : List α) : (Spec.update O v l).1 ≠ .error .modelGap := by simp [Spec.update]
theorem gap_remove (O : Spec.Order α) (v : α) (l : List α) : (Spec.remove O v l).1 ≠ .error .modelGap := by unfold Spec.remove; split <;> simp
theorem gap_clear (l : List α) : (Spec.clear l).1 ≠ .error .modelGap := by simp [Spec.clear]
theorem gap_delInt (i : Int) (l : List α) : (Spec.delInt i l).1 ≠ .error .modelGap := by unfold Spec.delInt; split <;> simp
theorem gap_pop (i : Int) (l : List α) : (Spec.pop i l).1 ≠ .error .modelGap := by unfold Spec.pop; split <;> (try split) <;> simp
theorem gap_getInt (i : Int) (l : List α) : (Spec.getInt i l).1 ≠ .error .modelGap := by unfold Spec.getInt; split <;> simp
theorem gap_bisectLeft (O : Spec.Order α) (v : α) (l : List α) : (Spec.bisectLeft O v l).1 ≠ .error .modelGap := by simp [Spec.bisectLeft]
theorem gap_bisectRight (O : Spec.Order α) (v : α) (l : List α) : (Spec.bisectRight O v l).1 ≠ .error .modelGap := by simp [Spec.bisectRight]
theorem gap_getSlice (sl : PySlice) (l : List α) : (Spec.getSlice sl l).1 ≠ .error .modelGap := by
  unfold Spec.getSlice; split
  · rename_i e h; intro h'; cases h'; exact Spec.slicePositions_no_gap _ _ h
  · simp
theorem gap_delSlice (sl : PySlice) (l : List α) : (Spec.delSlice sl l).1 ≠ .error .modelGap := by
  unfold Spec.delSlice; split
  · rename_i e h; intro h'; cases h'; exact Spec.slicePositions_no_gap _ _ h
  · simp
theorem gap_index (O : Spec.Order α) (v : α) (i j : Option Int) (l : List α) : (Spec.index O v i j l).1 ≠ .error .modelGap := by unfold Spec.index; simp only; split <;> simp
theorem gap_irange (O : Spec.Order α) (lo hi : Option α) (a b r : Bool) (l : List α) : (Spec.irange O lo hi a b r l).1 ≠ .error .modelGap := by simp [Spec.irange]
theorem gap_islice (i j : Option Int) (r : Bool) (l : List α) : (Spec.islice i j r l).1 ≠ .error .modelGap := by
  unfold Spec.islice; split
  · simp
  · rename_i e h; intro h'; cases h'; exact gap_getSlice _ _ h

theorem gap_reset (load : Nat) (l : List α) : (Spec.reset load l).1 ≠ .error .modelGap := by simp [Spec.reset]

theorem SL.tracks {E : Env α} {lt : α → α → Bool} (hE : E.Lawful lt) (fuel : Nat) :
    (ListClass.race (.plain E) fuel).Tracks (Verif.SL.api E) (fun s t => Mirrors s t ∧ Inv id lt false t) (fuel - 1) where
  add v h _ := (Agrees.SL_add fuel v h.1 (Fits.of_inv h.2) h.2.maxes.length_eq).same ((Verif.SL.api_lawful hE).add v) h.2 (gap_add _ _)
  update xs h hf := (Agrees.SL_update hE h.1 h.2 (show _ < fuel by have : (Core.iter _).length + xs.length < fuel - 1 := hf; omega)).same ((Verif.SL.api_lawful hE).update xs) h.2 (gap_update _ _)
  remove v h _ := (Agrees.SL_remove fuel v h.1 (Fits.of_inv h.2)).same ((Verif.SL.api_lawful hE).remove v) h.2 (gap_remove _ _)
  clear h := (Agrees.SL_clear h.1).same (Verif.SL.api_lawful hE).clear h.2 gap_clear
  delInt i h := (Agrees.SL_delInt hE fuel i h.1 h.2).same ((Verif.SL.api_lawful hE).delInt i) h.2 (gap_delInt i)
  pop i h := (Agrees.SL_pop hE fuel i h.1 h.2).same ((Verif.SL.api_lawful hE).pop i) h.2 (gap_pop i)
  getInt i h := (Agrees.getInt E.ilog2 i h.1 h.2.lists_ne_nil).same ((Verif.SL.api_lawful hE).getInt i) h.2 (gap_getInt i)
  bisectLeft v h := (Agrees.SL_bisect_left v h.1 h.2).same ((Verif.SL.api_lawful hE).bisectLeft v) h.2 (gap_bisectLeft _ v)
  bisectRight v h := (Agrees.SL_bisect_right v h.1 h.2).same ((Verif.SL.api_lawful hE).bisectRight v) h.2 (gap_bisectRight _ v)
  toList h := alone_toList h.1
  getSlice sl h := (Agrees.getSlice E.ilog2 sl h.1 h.2.lists_ne_nil).same ((Verif.SL.api_lawful hE).getSlice sl) h.2 (gap_getSlice sl)
  delSlice sl h hf := (Agrees.SL_delSlice hE sl h.1 h.2 (show _ < fuel by have : (Core.iter _).length < fuel - 1 := hf; omega)).same ((Verif.SL.api_lawful hE).delSlice sl) h.2 (gap_delSlice sl)
  index v i j h _ := (Agrees.SL_index v i j h.1 h.2).same ((Verif.SL.api_lawful hE).index v i j) h.2 (gap_index _ v i j)
  irange lo hi a b r h := (Agrees.SL_irange lo hi a b r h.1).same ((Verif.SL.api_lawful hE).irange lo hi a b r) h.2 (gap_irange _ lo hi a b r)
  islice i j r h := (Agrees.islice E.ilog2 i j r h.1).same ((Verif.SL.api_lawful hE).islice i j r) h.2 (gap_islice i j r)
  reset hl h hf := (Agrees.SL_reset hE hl h.1 h.2 (show _ < fuel by have : (Core.iter _).length < fuel - 1 := hf; omega)).same ((Verif.SL.api_lawful hE).reset _ hl) h.2 (gap_reset _)

theorem SKL.tracks {K : KEnv α κ} {key : α → κ} {klt : κ → κ → Bool} {veq : α → α → Bool} (hK : K.Lawful key klt veq) (fuel : Nat) :
    (ListClass.race (.keyed K) fuel).Tracks (Verif.SKL.api K) (fun s t => Mirrors s t ∧ Inv key klt true t) (fuel - 1) where
  add v h _ := (Agrees.SKL_add fuel v h.1 (Fits.of_inv h.2) (Agrees.keys_length h.2) h.2.maxes.length_eq).same ((Verif.SKL.api_lawful hK).add v) h.2 (gap_add _ _)
  update xs h hf := (Agrees.SKL_update hK h.1 h.2 (by have : (Core.iter _).length + xs.length < fuel - 1 := hf; omega)).same ((Verif.SKL.api_lawful hK).update xs) h.2 (gap_update _ _)
  remove v h hf := (Agrees.SKL_remove v h.1 (Fits.of_inv h.2) (Agrees.keys_length h.2)
    (by have : (Core.iter _).length < fuel - 1 := hf; rw [Agrees.keys_flat h.2]; omega)).same ((Verif.SKL.api_lawful hK).remove v) h.2 (gap_remove _ _)
  clear h := (Agrees.SKL_clear h.1).same (Verif.SKL.api_lawful hK).clear h.2 gap_clear
  delInt i h := (Agrees.SKL_delInt hK fuel i h.1 h.2).same ((Verif.SKL.api_lawful hK).delInt i) h.2 (gap_delInt i)
  pop i h := (Agrees.SKL_pop hK fuel i h.1 h.2).same ((Verif.SKL.api_lawful hK).pop i) h.2 (gap_pop i)
  getInt i h := (Agrees.getInt K.ilog2 i h.1 h.2.lists_ne_nil).same ((Verif.SKL.api_lawful hK).getInt i) h.2 (gap_getInt i)
  bisectLeft v h := (Agrees.SKL_bisect_left v h.1 h.2).same ((Verif.SKL.api_lawful hK).bisectLeft v) h.2 (gap_bisectLeft _ v)
  bisectRight v h := (Agrees.SKL_bisect_right v h.1 h.2).same ((Verif.SKL.api_lawful hK).bisectRight v) h.2 (gap_bisectRight _ v)
  toList h := alone_toList h.1
  getSlice sl h := (Agrees.getSlice K.ilog2 sl h.1 h.2.lists_ne_nil).same ((Verif.SKL.api_lawful hK).getSlice sl) h.2 (gap_getSlice sl)
  delSlice sl h hf := (Agrees.SKL_delSlice hK sl h.1 h.2 hf).same ((Verif.SKL.api_lawful hK).delSlice sl) h.2 (gap_delSlice sl)
  index v i j h hf := (Agrees.SKL_index v i j h.1 h.2.lists_ne_nil
    (by have : (Core.iter _).length < fuel - 1 := hf; rw [Agrees.keys_flat h.2]; omega)).same ((Verif.SKL.api_lawful hK).index v i j) h.2 (gap_index _ v i j)
  irange lo hi a b r h := (Agrees.SKL_irange lo hi a b r h.1).same ((Verif.SKL.api_lawful hK).irange lo hi a b r) h.2 (gap_irange _ lo hi a b r)
  islice i j r h := (Agrees.islice K.ilog2 i j r h.1).same ((Verif.SKL.api_lawful hK).islice i j r) h.2 (gap_islice i j r)
  reset hl h hf := (Agrees.SKL_reset hK hl h.1 h.2 (show _ < fuel - 1 from hf)).same ((Verif.SKL.api_lawful hK).reset _ hl) h.2 (gap_reset _)

/-- All that the proofs about sets and dicts need to know of a class of lists. -/
theorem tracks {c : ListClass α} {lt eqv : α → α → Bool} (hc : c.Orders lt eqv) (fuel : Nat) :
    ∃ (O : Spec.Order α) (I : c.State → Prop) (R : c.Memory → c.State → Prop), (c.api.Lawful O I ∧ O.lt = lt ∧ ∀ a b, O.same a b = eqv a b) ∧ (c.race fuel).Tracks c.api R (fuel - 1) ∧
      (∀ t, I t → R (c.memory t) t) ∧ ∀ s t, R s t → I t ∧ c.contents s = c.api.iter t ∧ c.view s = t := by
  cases hc with
  | plain hE he =>
    exact ⟨_, _, _, ⟨Verif.SL.api_lawful hE, rfl, fun a b => (he a b).symm⟩, SL.tracks hE fuel, fun t h => ⟨.of t, h⟩, fun s t h => ⟨h.2, h.1.contents, h.1.view⟩⟩
  | keyed hK he =>
    refine ⟨_, _, _, ⟨Verif.SKL.api_lawful hK, rfl, fun a b => ?_⟩, SKL.tracks hK fuel, fun t h => ⟨.of t, h⟩, fun s t h => ⟨h.2, h.1.contents, h.1.view⟩⟩
    simp only [Spec.Order.ofKey]
    cases hv : eqv a b
    · simp
    · rw [he a b hv]; rfl

end Race
end Verif
