import Verif.Proofs.RobustKey
import Verif.Proofs.Keeps
import Verif.WildSets
/-!
# What remains of the sorted lists when nothing is known about comparisons, behind one interface
-/

namespace Verif
variable {α κ β σ : Type}

/-- The list keeps `W`; calls that go by position are those of a plain list; calls that compare change what they should
change, if they return. -/
structure ListAPI.Robust (L : ListAPI σ α) (eqv : α → α → Bool) (it : σ → List α) (W : σ → Prop) : Prop where
  iter : L.iter = it
  reversed : ∀ s, W s → L.reversed s = (it s).reverse
  new : ∀ {xs s}, L.new xs = .ok s → W s ∧ (it s).Perm (xs.getD [])
  add : ∀ {s} v, W s → (∃ e, L.add v s = (.error e, s)) ∨
    ∃ s', L.add v s = (.ok (), s') ∧ W s' ∧ (it s').Perm (v :: it s)
  remove : ∀ {s} v, W s → (∃ e, L.remove v s = (.error e, s)) ∨
    ∃ s', L.remove v s = (.ok (), s') ∧ W s' ∧ Removed (fun x => eqv x v = true) (it s) (it s')
  update : ∀ {s s' xs}, W s → L.update xs s = (.ok (), s') → W s' ∧ (it s').Perm (it s ++ xs)
  clear : Refines W it L.clear Spec.clear
  getInt : ∀ i, Refines W it (L.getInt i) (Spec.getInt i)
  getSlice : ∀ sl, Refines W it (L.getSlice sl) (Spec.getSlice sl)
  delInt : ∀ i, Refines W it (L.delInt i) (Spec.delInt i)
  pop : ∀ i, Refines W it (L.pop i) (Spec.pop i)
  islice : ∀ a b r, Refines W it (L.islice a b r) (Spec.islice a b r)
  delSlice : ∀ {s s' sl}, W s → L.delSlice sl s = (.ok (), s') → W s' ∧ (it s').Perm (Spec.delSlice sl (it s)).2
  reset : ∀ {s s' load}, W s → 1 ≤ load → L.reset load s = (.ok (), s') → W s' ∧ (it s').Perm (it s)
  bisectLeft : ∀ {s} v, W s → W (L.bisectLeft v s).2 ∧ it (L.bisectLeft v s).2 = it s
  bisectRight : ∀ {s} v, W s → W (L.bisectRight v s).2 ∧ it (L.bisectRight v s).2 = it s
  index : ∀ {s} v a b, W s → W (L.index v a b s).2 ∧ it (L.index v a b s).2 = it s
  irange : ∀ {s} lo hi a b r, W s → W (L.irange lo hi a b r s).2 ∧ it (L.irange lo hi a b r s).2 = it s
  keyCall : ∀ {s m}, L.keyCall m → W s → W (m s).2 ∧ it (m s).2 = it s

theorem Keeps.apply {k0 : α → κ} {κ' : Type} {keyed : Bool} {s : St α κ'} {m : Py (St α κ') β} (hm : Keeps k0 keyed s m)
    (h : Whole k0 keyed s) : Whole k0 keyed (m s).2 ∧ Core.iter (m s).2 = Core.iter s := by
  obtain ⟨h1, h2⟩ := hm s (Reindexed.refl s) h
  exact ⟨h2, by rw [Core.iter, h1.lists]; rfl⟩

theorem Core.reversed_eq (s : St α κ) : Core.reversed s = (Core.iter s).reverse := by
  simp [Core.reversed, Core.iter, List.reverse_flatten]

theorem Removed.imp {p q : α → Prop} {l l' : List α} (h : Removed p l l') (hpq : ∀ x, p x → q x) : Removed q l l' := by
  obtain ⟨X, x, Y, h1, h2, h3⟩ := h
  exact ⟨X, x, Y, h1, h2, hpq x h3⟩

theorem SL.api_robust {E : Env α} {eqv : α → α → Bool} (hE : E.Sane) (he : ∀ x y, E.cmp .eq x y = .ok true → eqv x y = true) :
    (SL.api E).Robust eqv Core.iter SL.W where
  iter := rfl
  reversed s _ := Core.reversed_eq s
  new e := SL.new_whole hE e
  add v h := (SL.add_whole E h v).imp id fun ⟨s', e, h1, h2⟩ => ⟨s', e, h1, h2.perm⟩
  remove v h := (SL.remove_whole E h v).imp id fun ⟨s', e, h1, h2⟩ => ⟨s', e, h1, h2.imp fun x => he x v⟩
  update h e := SL.update_whole hE h e
  clear := (SL.methods_robust hE).clear_refines
  getInt i := (getInt_refines hE.ilog2 i).whole (Core.getInt_sim _ _)
  getSlice sl := (getSlice_refines hE.ilog2 sl).whole (Core.getSlice_sim _ _)
  delInt i := (SL.methods_robust hE).delInt i
  pop i := (SL.methods_robust hE).pop i
  islice a b r := (islice_refines hE.ilog2 a b r).whole (Core.islice_sim _ _ _ _)
  delSlice h e := (SL.methods_robust hE).delSlice h e
  reset h hl e := (SL.methods_robust hE).reset h hl e
  bisectLeft v h := (SL.bisect_left_keeps hE v).apply h
  bisectRight v h := (SL.bisect_right_keeps hE v).apply h
  index v a b h := (SL.index_keeps hE v a b).apply h
  irange lo hi a b r h := (SL.irange_keeps lo hi a b r).apply h
  keyCall hm := hm.elim

theorem SKL.api_robust {K : KEnv α κ} {eqv : α → α → Bool} (hK : K.Sane) (he : ∀ x y, K.vcmp .eq x y = .ok true → eqv x y = true) :
    (SKL.api K).Robust eqv Core.iter SKL.W where
  iter := rfl
  reversed s _ := Core.reversed_eq s
  new e := SKL.new_whole hK e
  add v h := (SKL.add_whole K h v).imp id fun ⟨s', e, h1, h2⟩ => ⟨s', e, h1, h2.perm⟩
  remove v h := (SKL.remove_whole K h v).imp id fun ⟨s', e, h1, h2⟩ => ⟨s', e, h1, h2.imp fun x => he x v⟩
  update h e := SKL.update_whole hK h e
  clear := (SKL.methods_robust hK).clear_refines
  getInt i := (getInt_refines hK.ilog2 i).whole (Core.getInt_sim _ _)
  getSlice sl := (getSlice_refines hK.ilog2 sl).whole (Core.getSlice_sim _ _)
  delInt i := (SKL.methods_robust hK).delInt i
  pop i := (SKL.methods_robust hK).pop i
  islice a b r := (islice_refines hK.ilog2 a b r).whole (Core.islice_sim _ _ _ _)
  delSlice h e := (SKL.methods_robust hK).delSlice h e
  reset h hl e := (SKL.methods_robust hK).reset h hl e
  bisectLeft v h := (SKL.bisect_left_keeps hK v).apply h
  bisectRight v h := (SKL.bisect_right_keeps hK v).apply h
  index v a b h := (SKL.index_keeps hK v a b).apply h
  irange lo hi a b r h := (SKL.irange_keeps lo hi a b r).apply h
  keyCall {s m} hm h := by
    rcases hm with ⟨k, rfl⟩ | ⟨k, rfl⟩ | ⟨lo, hi, a, b, r, rfl⟩
    · exact ((SKL.bisect_key_left_keeps hK k).out).apply h
    · exact ((SKL.bisect_key_right_keeps hK k).out).apply h
    · exact ((SKL.irange_key_keeps lo hi a b r).out).apply h

/-- The values of a list of the class. -/
def ListClass.values : (c : ListClass α) → c.State → List α
  | .plain _ => Core.iter
  | .keyed _ => Core.iter

/-- The invariant that remains. -/
def ListClass.W : (c : ListClass α) → c.State → Prop
  | .plain _ => SL.W
  | .keyed _ => SKL.W

theorem ListClass.Erratic.robust {eqv : α → α → Bool} {c : ListClass α} {L : ListAPI c.State α} (h : c.Erratic eqv L) :
    L.Robust eqv c.values c.W := by
  cases c with
  | plain E => obtain ⟨E', h1, h2, rfl⟩ := h; exact SL.api_robust h1 h2
  | keyed K => obtain ⟨K', h1, h2, rfl⟩ := h; exact SKL.api_robust h1 h2

theorem ListClass.Erratic.any {eqv : α → α → Bool} {c : ListClass α} {L : ListAPI c.State α} (h : c.Erratic eqv L) : c.Any L := by
  cases c with
  | plain E => obtain ⟨E', _, _, rfl⟩ := h; exact ⟨E', rfl⟩
  | keyed K => obtain ⟨K', _, _, rfl⟩ := h; exact ⟨K', rfl⟩

/-! ## The load factor stays positive -/

theorem ListClass.Any.keeps_load {c : ListClass α} {L : ListAPI c.State α} (h : c.Any L) {lo : Nat} (hlo : lo ≤ 1000) :
    L.Preserves lo fun s => lo ≤ c.load s := by
  cases c with
  | plain E => obtain ⟨E', rfl⟩ := h; exact (ListClass.plain E').keeps_load hlo
  | keyed K => obtain ⟨K', rfl⟩ := h; exact (ListClass.keyed K').keeps_load hlo

theorem ListClass.Any.keyCall_load {c : ListClass α} {L : ListAPI c.State α} (h : c.Any L) {m : Py c.State (Out α)}
    (hm : L.keyCall m) (s : c.State) : c.load (m s).2 = c.load s := by
  cases c with
  | plain E => obtain ⟨E', rfl⟩ := h; exact hm.elim
  | keyed K =>
    obtain ⟨K', rfl⟩ := h
    rcases hm with ⟨k, rfl⟩ | ⟨k, rfl⟩ | ⟨lo, hi, a, b, r, rfl⟩
    · exact (SKL.bisect_key_left_load K' k).out _ s
    · exact (SKL.bisect_key_right_load K' k).out _ s
    · exact (SKL.irange_key_load K' lo hi a b r).out _ s

theorem ListClass.Ever.load_pos {c : ListClass α} {s : c.State} (h : c.Ever s) : 1 ≤ c.load s := by
  induction h with
  | new hL e => exact (hL.keeps_load (by decide)).new _ _ e
  | step op hL hv _ ih => exact (hL.keeps_load (by decide)).step op (fun l e => by subst e; exact hv) _ ih
  | keyCall hL hm _ ih => rw [hL.keyCall_load hm]; exact ih

theorem SS.Ever.load_pos {τ : Type} {S : SetOps τ α} {c : ListClass α} {s : SS τ c.State} (h : SS.Ever S c s) : 1 ≤ c.load s.list := by
  induction h with
  | new hL e => exact SS.new_keeps (hL.keeps_load (by decide)) e
  | fromset hL e =>
    unfold SS.fromset at e
    split at e
    · rename_i e'; cases e; exact (hL.keeps_load (by decide)).new _ _ e'
    · cases e
  | step op hL hv _ ih => exact SS.step_keeps (hL.keeps_load (by decide)) op (fun l e => by subst e; exact hv) _ ih
  | keyCall hL hm _ ih => exact Nat.le_trans ih (Nat.le_of_eq (hL.keyCall_load hm _).symm)

theorem SD.Ever.load_pos {ν : Type} {eqv : κ → κ → Bool} {c : ListClass κ} {s : SD κ ν c.State} (h : SD.Ever eqv c s) :
    1 ≤ c.load s.list := by
  induction h with
  | new hL e => exact SD.new_keeps (hL.keeps_load (by decide)) e
  | step op hL hv _ ih => exact SD.step_keeps (hL.keeps_load (by decide)) op hv _ ih
  | keyCall hL hm _ ih => exact Nat.le_trans ih (Nat.le_of_eq (hL.keyCall_load hm _).symm)

/-! ## After `clear` -/

theorem SL.clear_inv (lt : α → α → Bool) {s : St α α} (h : 1 ≤ s.load) :
    ∃ s', SL.clear s = (.ok (), s') ∧ Inv id lt false s' ∧ Core.iter s' = [] :=
  ⟨_, rfl, Inv.of_empty h rfl rfl rfl rfl (by simp), rfl⟩

theorem SKL.clear_inv (key : α → κ) (klt : κ → κ → Bool) {s : St α κ} (h : 1 ≤ s.load) :
    ∃ s', SKL.clear s = (.ok (), s') ∧ Inv key klt true s' ∧ Core.iter s' = [] :=
  ⟨_, rfl, Inv.of_empty h rfl rfl rfl rfl (fun _ => rfl), rfl⟩

theorem ListClass.Any.clear {c : ListClass α} {L : ListAPI c.State α} (h : c.Any L) {s : c.State} (hl : 1 ≤ c.load s) :
    ∃ s', L.clear s = (.ok (), s') ∧ c.W s' ∧ c.values s' = [] := by
  cases c with
  | plain E =>
    obtain ⟨E', rfl⟩ := h
    obtain ⟨s', e, h1, h2⟩ := SL.clear_inv noOrder hl
    exact ⟨s', e, h1.whole, h2⟩
  | keyed K =>
    obtain ⟨E', rfl⟩ := h
    obtain ⟨s', e, h1, h2⟩ := SKL.clear_inv (fun _ => ()) noOrder (κ := Unit) (s := s.erase) hl
    refine ⟨_, rfl, ⟨_, ?_, h1⟩, rfl⟩
    cases e
    exact ⟨rfl, rfl, rfl, rfl, rfl, rfl, rfl⟩

theorem ListClass.clear_sound {c : ListClass α} {lt eqv : α → α → Bool} (hc : c.Orders lt eqv) :
    ∃ O I, c.api.Lawful O I ∧ O.lt = lt ∧ (∀ a b, O.same a b = eqv a b) ∧
      ∀ s, 1 ≤ c.load s → ∃ s', c.api.clear s = (.ok (), s') ∧ I s' ∧ c.api.iter s' = [] := by
  cases hc with
  | plain hE he =>
    exact ⟨_, _, SL.api_lawful hE, rfl, fun a b => (he a b).symm, fun s hl => SL.clear_inv _ hl⟩
  | keyed hK heq =>
    exact ⟨_, _, SKL.api_lawful hK, rfl, fun a b => by
      show (equiv _ _ _ && _) = _
      rcases Bool.eq_false_or_eq_true (eqv a b) with h | h
      · rw [h, heq a b h]; rfl
      · rw [h]; simp, fun s hl => SKL.clear_inv _ _ hl⟩

end Verif
