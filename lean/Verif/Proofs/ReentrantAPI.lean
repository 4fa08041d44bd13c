import Verif.Model.ReentrantSets
import Verif.Proofs.ReentrantBulk
import Verif.Proofs.ReentrantSKLBulk
import Verif.CutSets
/-!
# The methods of both list classes, with client's code that changes nothing but the positional index

`RListAPI.Mimics`: methods that call the client's code do what the methods without client do, on a list whose positional index is all
that the client's code changes.
-/

namespace Verif
variable {σ W α κ β Q R : Type}

namespace Reent

/-- The list is `s0`, but for the positional index; `I` holds of it and `J` of the client's world. -/
structure Kept (R : σ → σ → Prop) (I : σ → Prop) (J : W → Prop) (s0 : σ) (p : σ × W) : Prop where
  re : R s0 p.1
  inv : I p.1
  world : J p.2

/-- `m` gives the result of `f` and changes the positional index at most. -/
def Reads (R : σ → σ → Prop) (I : σ → Prop) (J : W → Prop) (s0 : σ) (m : RPy W σ β) (f : Py σ β) : Prop :=
  ∀ p, Kept R I J s0 p → (m p).1 = (f p.1).1 ∧ Kept R I J s0 (m p).2

/-- `m` is `f`, started from a list that differs from `s0` in the positional index only. -/
def Writes (R : σ → σ → Prop) (I : σ → Prop) (J : W → Prop) (s0 : σ) (m : RPy W σ β) (f : Py σ β) : Prop :=
  ∀ p, Kept R I J s0 p → ∃ p', Kept R I J s0 p' ∧ m p = ((f p'.1).1, (f p'.1).2, p'.2)

end Reent
open Reent

/-- The values of `SortedList(xs, key)`. -/
def ListAPI.newValues (L : ListAPI σ α) (xs : List α) : Except PyErr (List α) := (L.new (some xs)).map L.iter

/-- The methods with client's code do what those without do. -/
structure RListAPI.Mimics (L' : RListAPI W σ α) (L : ListAPI σ α) (R : σ → σ → Prop) (I : σ → Prop) (J : W → Prop) (s0 : σ) : Prop where
  add : ∀ v, Writes R I J s0 (L'.add v) (L.add v)
  remove : ∀ v, Writes R I J s0 (L'.remove v) (L.remove v)
  bisectLeft : ∀ v, Reads R I J s0 (L'.bisectLeft v) (L.bisectLeft v)
  bisectRight : ∀ v, Reads R I J s0 (L'.bisectRight v) (L.bisectRight v)
  index : ∀ v a b, Reads R I J s0 (L'.index v a b) (L.index v a b)
  irange : ∀ lo hi a b r, Reads R I J s0 (L'.irange lo hi a b r) (L.irange lo hi a b r)
  newValues : ∀ xs, Reads R I J s0 (L'.newValues xs) (Py.lift (L.newValues xs))

/-- Queries change the positional index at most, whatever the state of the list. -/
structure RListAPI.Idle (L' : RListAPI W σ α) (R : σ → σ → Prop) (J : W → Prop) (s0 : σ) : Prop where
  bisectLeft : ∀ v, Preserves (fun p : σ × W => R s0 p.1 ∧ J p.2) (L'.bisectLeft v)
  bisectRight : ∀ v, Preserves (fun p : σ × W => R s0 p.1 ∧ J p.2) (L'.bisectRight v)
  index : ∀ v a b, Preserves (fun p : σ × W => R s0 p.1 ∧ J p.2) (L'.index v a b)
  irange : ∀ lo hi a b r, Preserves (fun p : σ × W => R s0 p.1 ∧ J p.2) (L'.irange lo hi a b r)
  newValues : ∀ xs, Preserves (fun p : σ × W => R s0 p.1 ∧ J p.2) (L'.newValues xs)

/-- The methods of a list whose client's code is right whatever it is told. -/
structure RListAPI.Firm (L' : RListAPI W σ α) (L : ListAPI σ α) (R : σ → σ → Prop) (O : Spec.Order α) (I : σ → Prop) (J : W → Prop) : Prop where
  idle : ∀ s0, L'.Idle R J s0
  mimics : ∀ s0, I s0 → L'.Mimics L R I J s0
  update : ∀ xs, Refines (fun p : σ × W => I p.1 ∧ J p.2) (fun p => L.iter p.1) (L'.update xs) (Spec.update O xs)
  delSlice : ∀ sl, Refines (fun p : σ × W => I p.1 ∧ J p.2) (fun p => L.iter p.1) (L'.delSlice sl) (Spec.delSlice sl)
  reset : ∀ load, 1 ≤ load → Refines (fun p : σ × W => I p.1 ∧ J p.2) (fun p => L.iter p.1) (L'.reset load) (Spec.reset load)

/-- What the proofs about sets and dicts use of a list without client. -/
structure ListAPI.Settled (L : ListAPI σ α) (R : σ → σ → Prop) : Prop where
  refl : ∀ s, R s s
  trans : ∀ {s s' s''}, R s s' → R s' s'' → R s s''
  iter : ∀ {s s'}, R s s' → L.iter s' = L.iter s
  getInt : ∀ i s, R s (L.getInt i s).2
  getSlice : ∀ sl s, R s (L.getSlice sl s).2
  islice : ∀ a b r s, R s (L.islice a b r s).2

namespace Reent
variable {I : St α κ → Prop} {J : W → Prop} {s0 : St α κ}

theorem Sim.reads {m : RPy W (St α κ) β} {f : Py (St α κ) β} (h : Sim I J s0 m f) : Reads Reindexed I J s0 m f := fun p hp =>
  have h := h p p.1 ⟨hp.re, hp.inv, hp.world⟩ hp.re hp.inv
  ⟨h.1, h.2.1.re, h.2.1.inv, h.2.1.world⟩

theorem Ends.writes {m : RPy W (St α κ) β} {f : Py (St α κ) β} (h : Ends I J s0 m f) : Writes Reindexed I J s0 m f := fun p hp =>
  have ⟨p', hp', e⟩ := h p ⟨hp.re, hp.inv, hp.world⟩
  ⟨p', ⟨hp'.re, hp'.inv, hp'.world⟩, e⟩

end Reent

theorem ListAPI.valuesOf_new (L : ListAPI σ α) (xs : List α) : L.valuesOf (fun _ => L.new (some xs)) = Py.lift (L.newValues xs) := by
  funext s
  simp only [ListAPI.valuesOf, ListAPI.newValues]
  cases L.new (some xs) <;> rfl

theorem SL.newValues_reads {J : W → Prop} {s0 : St α α} {E' : REnv W α} {E : Env α} {lt : α → α → Bool}
    (h : Reent.SL.EnvSim (Inv id lt false) J s0 E' E) (xs : List α) :
    Sim (Inv id lt false) J s0 (Reent.SL.newValues E' xs) (Py.lift ((SL.api E).newValues xs)) := by
  rw [← ListAPI.valuesOf_new]
  exact Reent.SL.newValues_sim h (fun _ => xs) fun _ _ => rfl

theorem SKL.newValues_reads {J : W → Prop} {s0 : St α κ} {K' : RKEnv W α κ} {K : KEnv α κ} {key : α → κ} {klt : κ → κ → Bool}
    (h : Reent.SKL.EnvSim (Inv key klt true) J s0 K' K) (xs : List α) :
    Sim (Inv key klt true) J s0 (Reent.SKL.newValues K' xs) (Py.lift ((SKL.api K).newValues xs)) := by
  rw [← ListAPI.valuesOf_new]
  exact Reent.SKL.newValues_sim h (fun _ => xs) fun _ _ => rfl

theorem SL.mimics {J : W → Prop} {s0 : St α α} {E' : REnv W α} {E : Env α} {lt : α → α → Bool}
    (h : Reent.SL.EnvSim (Inv id lt false) J s0 E' E) (hE : E.Lawful lt) :
    (Reent.SL.api E').Mimics (SL.api E) Reindexed (Inv id lt false) J s0 where
  add v := (Reent.SL.add_ends h v).writes
  remove v := (Reent.SL.remove_ends h v).writes
  bisectLeft v := (Reent.SL.bisect_left_sim h hE v).reads
  bisectRight v := (Reent.SL.bisect_right_sim h hE v).reads
  index v a b := (Reent.SL.index_sim h hE v a b).reads
  irange lo hi a b r := (Reent.SL.irange_sim h lo hi a b r).reads
  newValues xs := (SL.newValues_reads h xs).reads

theorem SKL.mimics {J : W → Prop} {s0 : St α κ} {K' : RKEnv W α κ} {K : KEnv α κ} {key : α → κ} {klt : κ → κ → Bool} {veq : α → α → Bool}
    (h : Reent.SKL.EnvSim (Inv key klt true) J s0 K' K) (hK : K.Lawful key klt veq) :
    (Reent.SKL.api K').Mimics (SKL.api K) Reindexed (Inv key klt true) J s0 where
  add v := (Reent.SKL.add_ends h v).writes
  remove v := (Reent.SKL.remove_ends h v).writes
  bisectLeft v := (Reent.SKL.bisect_left_sim h hK v).reads
  bisectRight v := (Reent.SKL.bisect_right_sim h hK v).reads
  index v a b := (Reent.SKL.index_sim h hK v a b).reads
  irange lo hi a b r := (Reent.SKL.irange_sim h lo hi a b r).reads
  newValues xs := (SKL.newValues_reads h xs).reads

theorem SL.firm {J : W → Prop} {E' : REnv W α} {E : Env α} {lt : α → α → Bool} (hE : E.Lawful lt) (h : Reent.SL.Patient E' E lt J) :
    (Reent.SL.api E').Firm (SL.api E) Reindexed (Spec.Order.ofValues lt) (Inv id lt false) J where
  idle s0 := by
    have hc : ∀ op a b, Still J s0 (E'.cmp op a b) := fun op a b p hp => by
      have := ((h.always s0).cmp op a b p s0 ⟨hp.1, trivial, hp.2⟩ (.refl _) trivial).2.1
      exact ⟨this.re, this.world⟩
    have hs : ∀ xs, Still J s0 (E'.sorted xs) := fun xs p hp => by
      have := ((h.always s0).sorted xs p s0 ⟨hp.1, trivial, hp.2⟩ (.refl _) trivial).2.1
      exact ⟨this.re, this.world⟩
    exact ⟨Reent.SL.bisect_left_still hc, Reent.SL.bisect_right_still hc, Reent.SL.index_still hc, Reent.SL.irange_still hc,
      Reent.SL.newValues_still hs⟩
  mimics s0 h0 := SL.mimics (h.good s0 h0) hE
  update := Reent.SL.update_rrefines hE h
  delSlice := Reent.SL.delSlice_rrefines hE h
  reset := Reent.SL.reset_rrefines hE h

theorem SKL.firm {J : W → Prop} {K' : RKEnv W α κ} {K : KEnv α κ} {key : α → κ} {klt : κ → κ → Bool} {veq : α → α → Bool}
    (hK : K.Lawful key klt veq) (h : Reent.SKL.Patient K' K key klt J) :
    (Reent.SKL.api K').Firm (SKL.api K) Reindexed (Spec.Order.ofKey key klt veq K.vcmp) (Inv key klt true) J where
  idle s0 := by
    have hk : ∀ a, Still J s0 (K'.key a) := fun a p hp => by
      have := ((h.always s0).of_key a p s0 ⟨hp.1, trivial, hp.2⟩ (.refl _) trivial).2.1
      exact ⟨this.re, this.world⟩
    have hc : ∀ op a b, Still J s0 (K'.kcmp op a b) := fun op a b p hp => by
      have := ((h.always s0).of_kcmp op a b p s0 ⟨hp.1, trivial, hp.2⟩ (.refl _) trivial).2.1
      exact ⟨this.re, this.world⟩
    have hv : ∀ op a b, Still J s0 (K'.vcmp op a b) := fun op a b p hp => by
      have := ((h.always s0).of_vcmp op a b p s0 ⟨hp.1, trivial, hp.2⟩ (.refl _) trivial).2.1
      exact ⟨this.re, this.world⟩
    have hs : ∀ xs, Still J s0 (K'.sortedByKey xs) := fun xs p hp => by
      have := ((h.always s0).sorted xs p s0 ⟨hp.1, trivial, hp.2⟩ (.refl _) trivial).2.1
      exact ⟨this.re, this.world⟩
    exact ⟨Reent.SKL.bisect_left_still hk hc, Reent.SKL.bisect_right_still hk hc, Reent.SKL.index_still hk hc hv, Reent.SKL.irange_still hk hc,
      Reent.SKL.newValues_still hk hs⟩
  mimics s0 h0 := SKL.mimics (h.good s0 h0) hK
  update := Reent.SKL.update_rrefines hK h
  delSlice := Reent.SKL.delSlice_rrefines hK h
  reset := Reent.SKL.reset_rrefines hK h

/-- The client's code is run, gives `x`, and changes the positional index at most. -/
def Reent.Yields (R : σ → σ → Prop) (I : σ → Prop) (J : W → Prop) (s0 : σ) (m : RPy W σ β) (x : Except PyErr β) : Prop :=
  ∀ p, Kept R I J s0 p → (m p).1 = x ∧ Kept R I J s0 (m p).2

theorem Reent.Yields.sim {I : St α κ → Prop} {J : W → Prop} {s0 : St α κ} {m : RPy W (St α κ) β} {x : Except PyErr β}
    (h : Yields Reindexed I J s0 m x) : Sim I J s0 m (Py.lift x) := fun p _ hp ht hi =>
  have h := h p ⟨hp.re, hp.inv, hp.world⟩
  ⟨h.1, ⟨h.2.re, h.2.inv, h.2.world⟩, ht, hi⟩

/-- A list whose client's code is right, as run, does what the list without client does.  `Asks` holds of the codes that `run` runs right. -/
theorem ListClass.Orders.mimics {c : ListClass α} {lt eqv : α → α → Bool} (hc : c.Orders lt eqv) :
    ∃ (O : Spec.Order α) (I : c.State → Prop), c.api.Lawful O I ∧ O.lt = lt ∧ (∀ a b, O.same a b = eqv a b) ∧ c.api.Settled c.Reindexed ∧
      (∀ {Q R W : Type} (C : c.Code Q R) (ans : Q → Except PyErr R) (D : Nat) (J : W → Prop) (s0 : c.State) (d : Nat)
        (run : {β : Type} → (Seen Q R → Client Q R β) → RPy W c.State β), c.Right C ans → c.Quiet C D →
        (∀ {β : Type} (code : Seen Q R → Client Q R β) (x : Except PyErr β), (∀ w, (code w).says ans = x) →
          (d = D → ∀ w, ∃ r, code w = .done r) → Yields c.Reindexed I J s0 (run code) x) →
        (c.calling C d run).Mimics c.api c.Reindexed I J s0) ∧
      ∀ {Q R W : Type} (C : c.Code Q R) (D : Nat) (J : W → Prop) (d : Nat)
        (run : {β : Type} → (Seen Q R → Client Q R β) → RPy W c.State β), c.Steadfast C → c.Quiet C D →
        (∀ {β : Type} (code : Seen Q R → Client Q R β) (x : Except PyErr β), (∀ w, (code w).Always x) →
          (d = D → ∀ w, ∃ r, code w = .done r) →
          (∀ s0, Yields c.Reindexed (fun _ => True) J s0 (run code) x) ∧ ∀ s0, I s0 → Yields c.Reindexed I J s0 (run code) x) →
        (c.calling C d run).Firm c.api c.Reindexed O I J := by
  cases hc with
  | plain hE he =>
    refine ⟨_, _, SL.api_lawful hE, rfl, fun a b => (he a b).symm,
      ⟨Reindexed.refl, Reindexed.trans, fun h => by
        show List.flatten _ = List.flatten _
        rw [Reindexed.lists h], fun i s => (Core.getInt_quiet _ i).reindexed s,
        fun sl s => (Core.getSlice_quiet _ sl).reindexed s, fun a b r s => (Core.islice_quiet _ a b r).reindexed s⟩, ?_, ?_⟩
    · intro Q R W C ans D J s0 d run hr hq hrun
      have h : ∀ op a b, Sim (Inv id _ false) J s0 (run (ValueCode.cmp C d op a b)) (Py.lift (_ : Except PyErr Bool)) := fun op a b =>
        Reent.Yields.sim (hrun _ _ (hr d op a b) fun e w => by subst e; exact hq op a b w)
      exact SL.mimics ⟨h, Reent.SL.sorting_sim hE h _, rfl⟩ hE
    · intro Q R W C D J d run hr hq hrun
      have h := fun op a b => hrun (ValueCode.cmp C d op a b) _ (hr d op a b) fun e w => by subst e; exact hq op a b w
      have h1 : ∀ s0 op a b, Sim (fun _ => True) J s0 (run (ValueCode.cmp C d op a b)) (Py.lift (_ : Except PyErr Bool)) := fun s0 op a b =>
        Reent.Yields.sim ((h op a b).1 s0)
      have h2 : ∀ s0, Inv id _ false s0 → ∀ op a b, Sim (Inv id _ false) J s0 (run (ValueCode.cmp C d op a b)) (Py.lift (_ : Except PyErr Bool)) :=
        fun s0 h0 op a b => Reent.Yields.sim ((h op a b).2 s0 h0)
      exact SL.firm hE ⟨fun s0 => ⟨h1 s0, Reent.SL.sorting_sim hE (h1 s0) _, rfl⟩, fun s0 h0 => ⟨h2 s0 h0, Reent.SL.sorting_sim hE (h2 s0 h0) _, rfl⟩⟩
  | keyed hK heq =>
    refine ⟨_, _, SKL.api_lawful hK, rfl, fun a b => ?_,
      ⟨Reindexed.refl, Reindexed.trans, fun h => by
        show List.flatten _ = List.flatten _
        rw [Reindexed.lists h], fun i s => (Core.getInt_quiet _ i).reindexed s,
        fun sl s => (Core.getSlice_quiet _ sl).reindexed s, fun a b r s => (Core.islice_quiet _ a b r).reindexed s⟩, ?_, ?_⟩
    · show (equiv _ _ _ && _) = _
      rcases Bool.eq_false_or_eq_true (eqv a b) with h | h
      · rw [h, heq a b h]; rfl
      · rw [h]; simp
    · intro Q R W C ans D J s0 d run hr hq hrun
      have h1 : ∀ a, Sim (Inv _ _ true) J s0 (run (KeyCode.key C d a)) (Py.lift (_ : Except PyErr _)) := fun a =>
        Reent.Yields.sim (hrun _ _ (hr.1 d a) fun e w => by subst e; exact hq.1 a w)
      have h2 : ∀ op a b, Sim (Inv _ _ true) J s0 (run (KeyCode.kcmp C d op a b)) (Py.lift (_ : Except PyErr Bool)) := fun op a b =>
        Reent.Yields.sim (hrun _ _ (hr.2.1 d op a b) fun e w => by subst e; exact hq.2.1 op a b w)
      have h3 : ∀ op a b, Sim (Inv _ _ true) J s0 (run (KeyCode.vcmp C d op a b)) (Py.lift (_ : Except PyErr Bool)) := fun op a b =>
        Reent.Yields.sim (hrun _ _ (hr.2.2 d op a b) fun e w => by subst e; exact hq.2.2 op a b w)
      exact SKL.mimics ⟨h1, h2, h3, Reent.SKL.sorting_sim hK h1 h2 _, rfl⟩ hK
    · intro Q R W C D J d run hr hq hrun
      have e1 := fun a => hrun (KeyCode.key C d a) _ (hr.1 d a) fun e w => by subst e; exact hq.1 a w
      have e2 := fun op a b => hrun (KeyCode.kcmp C d op a b) _ (hr.2.1 d op a b) fun e w => by subst e; exact hq.2.1 op a b w
      have e3 := fun op a b => hrun (KeyCode.vcmp C d op a b) _ (hr.2.2 d op a b) fun e w => by subst e; exact hq.2.2 op a b w
      have f1 := fun s0 a => Reent.Yields.sim ((e1 a).1 s0)
      have f2 := fun s0 op a b => Reent.Yields.sim ((e2 op a b).1 s0)
      have f3 := fun s0 op a b => Reent.Yields.sim ((e3 op a b).1 s0)
      have g1 := fun s0 (h0 : Inv _ _ true s0) a => Reent.Yields.sim ((e1 a).2 s0 h0)
      have g2 := fun s0 (h0 : Inv _ _ true s0) op a b => Reent.Yields.sim ((e2 op a b).2 s0 h0)
      have g3 := fun s0 (h0 : Inv _ _ true s0) op a b => Reent.Yields.sim ((e3 op a b).2 s0 h0)
      exact SKL.firm hK ⟨fun s0 => ⟨f1 s0, f2 s0, f3 s0, Reent.SKL.sorting_sim hK (f1 s0) (f2 s0) _, rfl⟩,
        fun s0 h0 => ⟨g1 s0 h0, g2 s0 h0, g3 s0 h0, Reent.SKL.sorting_sim hK (g1 s0 h0) (g2 s0 h0) _, rfl⟩⟩

end Verif
