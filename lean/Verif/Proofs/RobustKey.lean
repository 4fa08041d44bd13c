import Verif.Proofs.Robust
/-!
# SortedKeyList when the key function and the comparisons raise or contradict each other: shared methods, queries, histories
-/

namespace Verif
variable {α κ β : Type}
namespace SKL

/-- The constant key function. -/
def K0 (α : Type) (ilog2 : Nat → Nat) : KEnv α Unit :=
  { key := fun _ => .ok (), kcmp := fun op a b => .ok (op.ofLt noOrder a b), vcmp := fun op _ _ => .ok (op == .ne),
    sortedByKey := .ok, ilog2 := ilog2 }

theorem K0_lawful {ilog2 : Nat → Nat} (hlog : ∀ n, 1 ≤ n → n < 2 ^ (ilog2 n + 1)) :
    (K0 α ilog2).Lawful (fun _ => ()) noOrder (fun _ _ => false) where
  order := noOrder_swo
  key_ok := fun _ => rfl
  kcmp_ok := fun _ _ _ => rfl
  veq_ok := fun _ _ => rfl
  vne_ok := fun _ _ => rfl
  sorted := fun xs => ⟨xs, rfl, List.Perm.refl _, sorted_noOrder (k0 := fun _ => ()) _, fun _ => rfl⟩
  ilog2 := hlog

theorem clear_sim : Sim (clear : Py (St α κ) Unit) (clear : Py (St α Unit) Unit) :=
  Sim.modify fun _ _ h => ⟨rfl, h.load, rfl, rfl, h.offset, rfl, rfl⟩

theorem methods_robust {K : KEnv α κ} (hK : K.Sane) :
    RobustM (methods K) (methods (K0 α K.ilog2)) (Spec.Order.ofKey (fun _ => ()) noOrder (fun _ _ => false) (K0 α K.ilog2).vcmp)
      (fun _ => ()) true where
  log := rfl
  ok := methods_ok (K0_lawful hK.ilog2)
  clear := clear_sim
  delete := delete_sim
  update := fun h e => update_whole hK h e

section Queries
variable {K : KEnv α κ} {s0 : St α κ}

local notation "Keeps!" => Keeps (fun _ : α => ()) true s0

theorem find_keeps (v : α) : Keeps! (find K v) :=
  .of_eq fun s => by obtain ⟨r, e, _⟩ := find_snd K v s; rw [e]

theorem contains_keeps (v : α) : Keeps! (contains K v) :=
  .bind (find_keeps v) fun r => by cases r <;> exact .pure _

theorem bisect_key_left_keeps (hK : K.Sane) (k : κ) : Keeps! (bisect_key_left K k) :=
  .get_bind fun _ hr hw => .ite (fun _ => .pure _) fun _ => .lift_bind fun _ e => .ite (fun _ => .pure _) fun hne =>
    .lift_bind fun _ _ => .lift_bind fun _ _ => .loc hK.ilog2 (hw.pos_lt hr (bisectLeft_le e) hne) _

theorem bisect_key_right_keeps (hK : K.Sane) (k : κ) : Keeps! (bisect_key_right K k) :=
  .get_bind fun _ hr hw => .ite (fun _ => .pure _) fun _ => .lift_bind fun _ e => .ite (fun _ => .pure _) fun hne =>
    .lift_bind fun _ _ => .lift_bind fun _ _ => .loc hK.ilog2 (hw.pos_lt hr (bisectRight_le e) hne) _

theorem bisect_left_keeps (hK : K.Sane) (v : α) : Keeps! (bisect_left K v) :=
  .lift_bind fun _ _ => bisect_key_left_keeps hK _

theorem bisect_right_keeps (hK : K.Sane) (v : α) : Keeps! (bisect_right K v) :=
  .lift_bind fun _ _ => bisect_key_right_keeps hK _

theorem count_keeps (v : α) : Keeps! (count K v) :=
  .get_bind fun _ _ _ => .ite (fun _ => .pure _) fun _ => .lift_bind fun _ _ => .lift_bind fun _ _ =>
    .ite (fun _ => .pure _) fun _ => .lift_bind fun _ _ => .lift_bind fun _ _ => .lift _

theorem indexLoop_keeps (hK : K.Sane) (v : α) (k : κ) (a b : Int) (p i n : Nat) :
    Keeps! (indexLoop K s0.lists s0.keys v k a b p i n) := by
  fun_induction indexLoop K s0.lists s0.keys v k a b p i n
  all_goals try exact .raise _
  · rename_i p i n ks hks kk hkk hne l hl x hx jp hb ih1 ih2
    have hp : p < s0.lists.length := by
      rw [getItem_ok_iff] at hl
      exact (List.getElem?_eq_some_iff.1 hl).1
    have rest : ∀ r, Keeps! (jp r) := by
      intro r
      cases r with
      | some r => exact .pure _
      | none =>
        refine .ite (fun h1 => .ite (fun _ => .raise _) fun h2 => ?_) fun h1 => ih2
        cases e : getItem s0.keys (p + 1) with
        | error er => exact .raise _
        | ok ks' => exact ih1 ks'
    refine .bind (.loc hK.ilog2 hp _) fun loc => ?_
    exact .ite (fun _ => .bind (.pure _) rest) fun _ => .ite (fun _ => .bind (.raise _) rest) fun _ => .bind (.pure _) rest
  · rename_i p i n ks hks kk hkk hne l hl x hx b' hb' jp hb ih1 ih2
    have rest : ∀ r, Keeps! (jp r) := by
      intro r
      cases r with
      | some r => exact .pure _
      | none =>
        refine .ite (fun h1 => .ite (fun _ => .raise _) fun h2 => ?_) fun h1 => ih2
        cases e : getItem s0.keys (p + 1) with
        | error er => exact .raise _
        | ok ks' => exact ih1 ks'
    exact .bind (.pure _) rest

theorem index_keeps (hK : K.Sane) (v : α) (a b : Option Int) : Keeps! (index K v a b) := by
  refine .get_bind fun s hr hw => .ite (fun _ => .raise _) fun _ => .ite (fun _ => .raise _) fun _ =>
    .lift_bind fun _ _ => .lift_bind fun _ _ => .ite (fun _ => .raise _) fun hne => .lift_bind fun _ _ => .lift_bind fun _ _ => ?_
  rw [hr.lists, hr.keys]
  exact indexLoop_keeps hK _ _ _ _ _ _ _

theorem irange_key_keeps (lo hi : Option κ) (a b r : Bool) : Keeps! (irange_key K lo hi a b r) := by
  refine .get_bind fun s hr hw => .ite (fun _ => .pure _) fun _ => ?_
  have key : ∀ lo' : Option (Nat × Nat), Keeps! (match lo' with
    | none => (pure [] : Py (St α κ) (List α))
    | some (minPos, minIdx) => do
      let (maxPos, maxIdx) ←
        match hi with
        | none => do
          let l ← Py.lift (getItem s.keys (s.maxes.length - 1))
          pure (s.maxes.length - 1, l.length)
        | some m => do
          let maxPos ← Py.lift (if b then bisectRight K.lt s.maxes m else bisectLeft K.lt s.maxes m)
          if maxPos = s.maxes.length then
            let l ← Py.lift (getItem s.keys (maxPos - 1))
            pure (maxPos - 1, l.length)
          else
            let l ← Py.lift (getItem s.keys maxPos)
            let maxIdx ← Py.lift (if b then bisectRight K.lt l m else bisectLeft K.lt l m)
            pure (maxPos, maxIdx)
      Py.lift (Core.islicePos s minPos minIdx maxPos maxIdx r)) := by
    intro lo'
    cases lo' with
    | none => exact .pure _
    | some p =>
      cases hi with
      | none => exact .lift_bind fun _ _ => .bind (.pure _) fun _ => .lift _
      | some m =>
        refine .lift_bind fun _ _ => .ite (fun _ => ?_) fun _ => ?_
        · exact .lift_bind fun _ _ => .bind (.pure _) fun _ => .lift _
        · exact .lift_bind fun _ _ => .lift_bind fun _ _ => .bind (.pure _) fun _ => .lift _
  cases lo with
  | none => exact .bind (.pure _) fun lo' => key lo'
  | some m =>
    refine .lift_bind fun _ _ => .ite (fun _ => .bind (.pure _) fun lo' => key lo') fun _ => ?_
    exact .lift_bind fun _ _ => .lift_bind fun _ _ => .bind (.pure _) fun lo' => key lo'

theorem irange_keeps (lo hi : Option α) (a b r : Bool) : Keeps! (irange K lo hi a b r) :=
  .lift_bind fun _ _ => .lift_bind fun _ _ => irange_key_keeps _ _ _ _ _

end Queries

/-! ## Histories -/

theorem new_whole {K : KEnv α κ} (hK : K.Sane) {xs : Option (List α)} {s : St α κ} (e : new K xs = .ok s) :
    W s ∧ (Core.iter s).Perm (xs.getD []) := by
  have h0 : W (St.empty : St α κ) :=
    ⟨St.empty, ⟨rfl, rfl, rfl, rfl, rfl, rfl, rfl⟩,
      Inv.of_empty (k := fun _ => ()) (lt := noOrder) (keyed := true) (show 1 ≤ 1000 by decide) rfl rfl rfl rfl (fun _ => rfl)⟩
  cases xs with
  | none => cases e; exact ⟨h0, List.Perm.refl _⟩
  | some xs =>
    simp only [new] at e
    split at e
    · rename_i s1 eu
      cases e
      exact update_whole hK h0 eu
    · cases e

theorem out_snd (f : β → Out α) (m : Py (St α κ) β) (s : St α κ) : (Spec.out f m s).2 = (m s).2 := by
  unfold Spec.out; split <;> rename_i e <;> rw [e]

theorem out_whole {f : β → Out α} {m : Py (St α κ) β} {s : St α κ} (h : W (m s).2) : W (Spec.out f m s).2 := by
  rwa [out_snd]

theorem count_api_keeps {K : KEnv α κ} {s0 : St α κ} (v : α) : Keeps (fun _ : α => ()) true s0 ((SKL.api K).count v) :=
  .bind (count_keeps v) fun _ => .pure _

theorem step_whole {K : KEnv α κ} (hK : K.Sane) (op : Op α) (hv : op.Valid) {s : St α κ} (h : W s)
    (hb : op.bulk = true → (∃ r, ((SKL.api K).step op s).1 = .ok r) ∨ ((SKL.api K).step op s).2 = s) :
    W ((SKL.api K).step op s).2 := by
  have bulk : ∀ (m : Py (St α κ) Unit), (∀ s', m s = (.ok (), s') → W s') →
      ((∃ r, (Spec.out (fun _ => (.none : Out α)) m s).1 = .ok r) ∨ (Spec.out (fun _ => (.none : Out α)) m s).2 = s) →
      W (Spec.out (fun _ => (.none : Out α)) m s).2 := by
    intro m hm hr
    rcases hr with ⟨r, hr⟩ | hr
    · apply out_whole
      unfold Spec.out at hr
      split at hr
      · rename_i e; rw [e]; exact hm _ e
      · cases hr
    · rw [hr]; exact h
  have hR := methods_robust hK
  have rr := Reindexed.refl s
  cases op with
  | add v => rcases add_whole K h v with ⟨e, he⟩ | ⟨s', e, h1, _⟩
             · exact out_whole (m := add K v) (by rw [he]; exact h)
             · exact out_whole (m := add K v) (by rw [e]; exact h1)
  | update xs => exact bulk _ (fun s' e => (update_whole hK h e).1) (hb rfl)
  | clear => exact out_whole (m := clear) (hR.clear_refines s h).2.2
  | contains v => exact out_whole (m := contains K v) (contains_keeps v s rr h).2
  | discard v => rcases discard_whole K h v with ⟨e, he⟩ | ⟨s', e, h1, _⟩
                 · exact out_whole (m := discard K v) (by rw [he]; exact h)
                 · exact out_whole (m := discard K v) (by rw [e]; exact h1)
  | remove v => rcases remove_whole K h v with ⟨e, he⟩ | ⟨s', e, h1, _⟩
                · exact out_whole (m := remove K v) (by rw [he]; exact h)
                · exact out_whole (m := remove K v) (by rw [e]; exact h1)
  | getInt i =>
    exact out_whole (m := Core.getInt K.ilog2 i) (((getInt_refines hK.ilog2 i).whole (Core.getInt_sim _ _)) s h).2.2
  | getSlice sl =>
    exact out_whole (m := Core.getSlice K.ilog2 sl) (((getSlice_refines hK.ilog2 sl).whole (Core.getSlice_sim _ _)) s h).2.2
  | delInt i => exact out_whole (m := Core.delInt (methods K) i) (hR.delInt i s h).2.2
  | delSlice sl => exact bulk _ (fun s' e => (hR.delSlice h e).1) (hb rfl)
  | pop i => exact out_whole (m := Core.pop (methods K) i) (hR.pop i s h).2.2
  | bisectLeft v => exact out_whole (m := bisect_left K v) (bisect_left_keeps hK v s rr h).2
  | bisectRight v => exact out_whole (m := bisect_right K v) (bisect_right_keeps hK v s rr h).2
  | count v => exact out_whole (m := (SKL.api K).count v) (count_api_keeps v s rr h).2
  | index v a b => exact out_whole (m := index K v a b) (index_keeps hK v a b s rr h).2
  | irange lo hi a b r => exact out_whole (m := irange K lo hi a b r) (irange_keeps lo hi a b r s rr h).2
  | islice a b r =>
    exact out_whole (m := Core.islice K.ilog2 a b r) (((islice_refines hK.ilog2 a b r).whole (Core.islice_sim _ _ _ _)) s h).2.2
  | iter => exact h
  | reversed => exact h
  | len => exact h
  | compare op other => exact out_whole (m := ListAPI.read (Core.compare K.vcmp op other)) h
  | iadd xs => exact bulk _ (fun s' e => (update_whole hK h e).1) (hb rfl)
  | imul n => exact bulk _ (fun s' e => (hR.imul h e).1) (hb rfl)
  | reset load => exact bulk _ (fun s' e => (hR.reset h hv e).1) (hb rfl)
  | copy =>
    exact out_whole (m := (SKL.api K).valuesOf _) (by unfold ListAPI.valuesOf; split <;> exact h)
  | concat xs =>
    exact out_whole (m := (SKL.api K).valuesOf _) (by unfold ListAPI.valuesOf; split <;> exact h)
  | mul n =>
    exact out_whole (m := (SKL.api K).valuesOf _) (by unfold ListAPI.valuesOf; split <;> exact h)
  | unsupported u => exact h

/-- Queries change nothing one can observe. -/
theorem query_whole {K : KEnv α κ} (hK : K.Sane) (op : KOp α κ) (hq : op.isQuery = true) {s : St α κ} (h : W s) :
    Core.iter (SKL.kstep K op s).2 = Core.iter s ∧ W (SKL.kstep K op s).2 := by
  have snd : ∀ {β : Type} (f : β → Out α) (m : Py (St α κ) β), Core.iter (m s).2 = Core.iter s →
      Core.iter (Spec.out f m s).2 = Core.iter s := by
    intro β f m hm; rwa [out_snd]
  have keeps' : ∀ {β : Type} (f : β → Out α) (m : Py (St α κ) β), Keeps (fun _ : α => ()) true s m →
      Core.iter (Spec.out f m s).2 = Core.iter s := by
    intro β f m hm
    refine snd f m ?_
    rw [Core.iter, (hm s (Reindexed.refl s) h).1.lists]; rfl
  cases op with
  | bisectKeyLeft k =>
    exact ⟨keeps' _ _ (bisect_key_left_keeps hK k), out_whole (bisect_key_left_keeps hK k s (.refl s) h).2⟩
  | bisectKeyRight k =>
    exact ⟨keeps' _ _ (bisect_key_right_keeps hK k), out_whole (bisect_key_right_keeps hK k s (.refl s) h).2⟩
  | irangeKey lo hi a b r =>
    exact ⟨keeps' _ _ (irange_key_keeps lo hi a b r), out_whole (irange_key_keeps lo hi a b r s (.refl s) h).2⟩
  | op op =>
    have hq' : op.isQuery = true := hq
    refine ⟨?_, ?_⟩
    · show Core.iter ((SKL.api K).step op s).2 = _
      cases op <;> simp only [Op.isQuery] at hq' <;> first | contradiction | skip
      case contains v => exact keeps' _ _ (contains_keeps v)
      case getInt i =>
        refine snd .val (Core.getInt K.ilog2 i) ((((getInt_refines hK.ilog2 i).whole (Core.getInt_sim _ _)) s h).2.1.trans ?_)
        unfold Spec.getInt; split <;> rfl
      case getSlice sl =>
        refine snd .vals (Core.getSlice K.ilog2 sl)
          ((((getSlice_refines hK.ilog2 sl).whole (Core.getSlice_sim _ _)) s h).2.1.trans ?_)
        unfold Spec.getSlice; split <;> rfl
      case bisectLeft v => exact keeps' _ _ (bisect_left_keeps hK v)
      case bisectRight v => exact keeps' _ _ (bisect_right_keeps hK v)
      case count v => exact keeps' _ _ (count_api_keeps v)
      case index v a b => exact keeps' _ _ (index_keeps hK v a b)
      case irange lo hi a b r => exact keeps' _ _ (irange_keeps lo hi a b r)
      case islice a b r =>
        refine snd .vals (Core.islice K.ilog2 a b r)
          ((((islice_refines hK.ilog2 a b r).whole (Core.islice_sim _ _ _ _)) s h).2.1.trans ?_)
        unfold Spec.islice; split <;> rfl
      case iter => rfl
      case reversed => rfl
      case len => rfl
      case compare op other => exact snd .bool (ListAPI.read (Core.compare K.vcmp op other)) rfl
      case copy => exact snd .vals ((SKL.api K).valuesOf _) (by unfold ListAPI.valuesOf; split <;> rfl)
      case concat => exact snd .vals ((SKL.api K).valuesOf _) (by unfold ListAPI.valuesOf; split <;> rfl)
      case mul => exact snd .vals ((SKL.api K).valuesOf _) (by unfold ListAPI.valuesOf; split <;> rfl)
    · refine step_whole hK op (by cases op <;> first | trivial | cases hq') h ?_
      cases op <;> intro hb <;> first | (cases hq'; done) | (cases hb; done)

/-! ## Every object of every history is whole -/

theorem wild_whole {s : St α κ} (h : Wild s) : W s := by
  induction h with
  | new hK e => exact (new_whole hK e).1
  | step op hK hv _ hb ih => exact step_whole hK op hv ih hb
  | query op hK hq _ ih => exact (query_whole hK op hq ih).2

theorem lawful_sane {K : KEnv α κ} {key : α → κ} {klt : κ → κ → Bool} {veq : α → α → Bool} (hK : K.Lawful key klt veq) : K.Sane where
  perm xs ys e := by
    obtain ⟨ys', e', h⟩ := hK.sorted xs
    rw [e] at e'; cases e'
    exact h.perm
  ilog2 := hK.ilog2

theorem delSlice_error {M : Methods α κ} {sl : PySlice} {s : St α κ} {e : PyErr} (h : sl.indices s.len = .error e) :
    Core.delSlice M sl s = (.error e, s) := by
  unfold Core.delSlice
  simp only [Py.get_bind, h]
  rfl

/-- With well-behaved comparisons a bulk call returns or leaves the object exactly as it was. -/
theorem _root_.Verif.ListAPI.Lawful.bulk {L : ListAPI (St α κ) α} {O : Spec.Order α} {I : St α κ → Prop} (hL : L.Lawful O I)
    {M : Methods α κ} (hd : L.delSlice = Core.delSlice M) (hlen : ∀ s, I s → s.len = (L.iter s).length) {s : St α κ} (hs : I s)
    (op : Op α) (hv : op.Valid) (hb : op.bulk = true) :
    (∃ r, (L.step op s).1 = .ok r) ∨ (L.step op s).2 = s := by
  obtain ⟨h1, -, -⟩ := hL.step op hv s hs
  cases op <;> simp only [Op.bulk] at hb <;> first | contradiction | skip
  case delSlice sl =>
    cases e : sl.indices s.len with
    | error er =>
      refine .inr ?_
      show (Spec.out (fun _ => .none) (L.delSlice sl) s).2 = s
      rw [out_snd, hd, delSlice_error e]
    | ok r =>
      refine .inl ⟨.none, h1.trans ?_⟩
      rw [hlen s hs] at e
      simp only [Spec.step, Spec.out, Spec.delSlice, Spec.slicePositions, e]
  all_goals exact .inl ⟨_, h1⟩

theorem wild_of_reachable {K : KEnv α κ} {key : α → κ} {klt : κ → κ → Bool} {veq : α → α → Bool} (hK : K.Lawful key klt veq)
    {s : St α κ} (h : Reachable K s) : Wild s := by
  have hI : Wild s ∧ Inv key klt true s := by
    induction h with
    | new e =>
      rename_i xs s
      obtain ⟨s', e', hi, _⟩ := (SKL.api_lawful hK).new xs
      rw [show (SKL.api K).new xs = SKL.new K xs from rfl, e] at e'; cases e'
      exact ⟨.new (lawful_sane hK) e, hi⟩
    | step op hv _ ih =>
      refine ⟨?_, (SKL.kstep_refines hK op hv _ ih.2).2.2⟩
      cases op with
      | op o =>
        exact .step o (lawful_sane hK) hv ih.1 fun hb =>
          (SKL.api_lawful hK).bulk (M := methods K) rfl (fun s hs => hs.len_eq) ih.2 o hv hb
      | bisectKeyLeft k => exact .query _ (lawful_sane hK) rfl ih.1
      | bisectKeyRight k => exact .query _ (lawful_sane hK) rfl ih.1
      | irangeKey lo hi a b r => exact .query _ (lawful_sane hK) rfl ih.1
  exact hI.1

end SKL

namespace SL

theorem wild_whole {s : St α α} (h : Wild s) : W s := by
  induction h with
  | new hE e => exact (new_whole hE e).1
  | step op hE hv _ hb ih => exact step_whole hE op hv ih hb

theorem lawful_sane {E : Env α} {lt : α → α → Bool} (hE : E.Lawful lt) : E.Sane where
  perm xs ys e := by
    obtain ⟨ys', e', h⟩ := hE.sorted xs
    rw [e] at e'; cases e'
    exact h.perm
  ilog2 := hE.ilog2

theorem wild_of_reachable {E : Env α} {lt : α → α → Bool} (hE : E.Lawful lt) {s : St α α} (h : (SL.api E).Reachable s) : Wild s := by
  have hI : Wild s ∧ Inv id lt false s := by
    induction h with
    | new e =>
      rename_i xs s
      obtain ⟨s', e', hi, _⟩ := (SL.api_lawful hE).new xs
      rw [e] at e'; cases e'
      exact ⟨.new (lawful_sane hE) e, hi⟩
    | step op hv _ ih =>
      exact ⟨.step op (lawful_sane hE) hv ih.1 fun hb =>
          (SL.api_lawful hE).bulk (M := methods E) rfl (fun s hs => hs.len_eq) ih.2 op hv hb,
        ((SL.api_lawful hE).step op hv _ ih.2).2.2⟩
  exact hI.1

end SL
end Verif
