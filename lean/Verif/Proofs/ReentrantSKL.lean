import Verif.Proofs.ReentrantBulk
/-!
# A SortedKeyList whose key function and comparisons query it
-/

namespace Verif
namespace Reent
namespace SKL
variable {W α κ β γ : Type} {J : W → Prop}

/-- The client's code answers as `K`, and changes the positional index at most. -/
structure EnvSim (I : St α κ → Prop) (J : W → Prop) (s0 : St α κ) (K' : RKEnv W α κ) (K : KEnv α κ) : Prop where
  of_key : ∀ a, Sim I J s0 (K'.key a) (Py.lift (K.key a))
  of_kcmp : ∀ op a b, Sim I J s0 (K'.kcmp op a b) (Py.lift (K.kcmp op a b))
  of_vcmp : ∀ op a b, Sim I J s0 (K'.vcmp op a b) (Py.lift (K.vcmp op a b))
  sorted : ∀ xs, Sim I J s0 (K'.sortedByKey xs) (Py.lift (K.sortedByKey xs))
  ilog2 : K'.ilog2 = K.ilog2

/-! ## One round of the loops -/

theorem lift_ok {σ : Type} (b : β) (f : β → Py σ γ) : (Py.lift (.ok b) >>= f) = f b := rfl

section
variable (K : KEnv α κ) (lists : List (List α)) {keys : List (List κ)} (value : α) (key : κ) {pos idx : Nat} {ks : List κ} {k : κ}
  (h1 : getItem keys pos = .ok ks) (h2 : getItem ks idx = .ok k)
include h1 h2

theorem findLoop_round (len : Nat) : (Py.lift (Verif.SKL.findLoop K lists keys value key pos idx len) : Py (St α κ) _) = (do
    if ← Py.lift (K.kcmp .ne k key) then pure none
    else
      let l ← Py.lift (getItem lists pos)
      let x ← Py.lift (getItem l idx)
      if ← Py.lift (K.vcmp .eq x value) then pure (some (pos, idx))
      else if idx + 1 = len then
        if pos + 1 = keys.length then pure none
        else
          let ks' ← Py.lift (getItem keys (pos + 1))
          Py.lift (Verif.SKL.findLoop K lists keys value key (pos + 1) 0 ks'.length)
      else Py.lift (Verif.SKL.findLoop K lists keys value key pos (idx + 1) len)) := by
  rw [Verif.SKL.findLoop]
  split
  · rename_i e he; rw [h1] at he; cases he
  rename_i ks' hks
  rw [h1] at hks; cases hks
  split
  · rename_i e he; rw [h2] at he; cases he
  rename_i k' hk
  rw [h2] at hk; cases hk
  rcases K.kcmp .ne k key with _ | _ | _
  · rfl
  · show Py.lift (match getItem lists pos with | _ => _) = _
    cases hl : getItem lists pos with
    | error e => rfl
    | ok l =>
      dsimp only
      cases hx : getItem l idx with
      | error e => simp only [lift_ok, Bool.false_eq_true, if_false, hx]; rfl
      | ok x =>
        simp only [lift_ok, Bool.false_eq_true, if_false, hx]
        rcases K.vcmp .eq x value with _ | _ | _
        · rfl
        · simp only [lift_ok, Bool.false_eq_true, if_false]
          split
          · split
            · rfl
            · cases getItem keys (pos + 1) <;> rfl
          · rfl
        · rfl
  · rfl

theorem countLoop_round (len total : Nat) : (Py.lift (Verif.SKL.countLoop K lists keys value key pos idx len total) : Py (St α κ) _) = (do
    if ← Py.lift (K.kcmp .ne k key) then pure total
    else
      let l ← Py.lift (getItem lists pos)
      let x ← Py.lift (getItem l idx)
      let b ← Py.lift (K.vcmp .eq x value)
      let total := if b then total + 1 else total
      if idx + 1 = len then
        if pos + 1 = keys.length then pure total
        else
          let ks' ← Py.lift (getItem keys (pos + 1))
          Py.lift (Verif.SKL.countLoop K lists keys value key (pos + 1) 0 ks'.length total)
      else Py.lift (Verif.SKL.countLoop K lists keys value key pos (idx + 1) len total)) := by
  rw [Verif.SKL.countLoop]
  split
  · rename_i e he; rw [h1] at he; cases he
  rename_i ks' hks
  rw [h1] at hks; cases hks
  split
  · rename_i e he; rw [h2] at he; cases he
  rename_i k' hk
  rw [h2] at hk; cases hk
  rcases K.kcmp .ne k key with _ | _ | _
  · rfl
  · show Py.lift (match getItem lists pos with | _ => _) = _
    cases hl : getItem lists pos with
    | error e => rfl
    | ok l =>
      dsimp only
      cases hx : getItem l idx with
      | error e => simp only [lift_ok, Bool.false_eq_true, if_false, hx]; rfl
      | ok x =>
        simp only [lift_ok, Bool.false_eq_true, if_false, hx]
        rcases K.vcmp .eq x value with _ | b
        · rfl
        · simp only [lift_ok]
          split
          · split
            · rfl
            · cases getItem keys (pos + 1) <;> rfl
          · rfl
  · rfl

theorem indexLoop_round (start stop : Int) (len : Nat) : Verif.SKL.indexLoop K lists keys value key start stop pos idx len = (do
    if ← Py.lift (K.kcmp .ne k key) then Py.raise .valueError
    else
      let l ← Py.lift (getItem lists pos)
      let x ← Py.lift (getItem l idx)
      let b ← Py.lift (K.vcmp .eq x value)
      let r : Option Int ←
        if b then do
          let loc ← Core.loc K.ilog2 pos idx
          if start ≤ (loc : Int) ∧ (loc : Int) ≤ stop then pure (some (loc : Int))
          else if (loc : Int) > stop then Py.raise .valueError
          else pure none
        else pure none
      match r with
      | some r => pure r
      | none =>
        if idx + 1 = len then
          if pos + 1 = keys.length then Py.raise .valueError
          else
            let ks' ← Py.lift (getItem keys (pos + 1))
            Verif.SKL.indexLoop K lists keys value key start stop (pos + 1) 0 ks'.length
        else Verif.SKL.indexLoop K lists keys value key start stop pos (idx + 1) len) := by
  rw [Verif.SKL.indexLoop]
  split
  · rename_i e he; rw [h1] at he; cases he
  rename_i ks' hks
  rw [h1] at hks; cases hks
  split
  · rename_i e he; rw [h2] at he; cases he
  rename_i k' hk
  rw [h2] at hk; cases hk
  rcases K.kcmp .ne k key with _ | _ | _
  · rfl
  · show (match getItem lists pos with | _ => _) = _
    cases hl : getItem lists pos with
    | error e => rfl
    | ok l =>
      dsimp only
      cases hx : getItem l idx with
      | error e => simp only [lift_ok, Bool.false_eq_true, if_false, hx]; rfl
      | ok x =>
        simp only [lift_ok, Bool.false_eq_true, if_false, hx]
        rcases K.vcmp .eq x value with _ | b
        · rfl
        · simp only [lift_ok]
          cases getItem keys (pos + 1) <;> rfl
  · rfl

end

/-! ## Queries -/

section
variable {I : St α κ → Prop} {s0 : St α κ} {K' : RKEnv W α κ} {K : KEnv α κ} (h : EnvSim I J s0 K' K)
include h

theorem findLoop_sim (lists : List (List α)) (keys : List (List κ)) (value : α) (key : κ) (pos idx len : Nat) :
    Sim I J s0 (findLoop K' lists keys value key pos idx len) (Py.lift (Verif.SKL.findLoop K lists keys value key pos idx len)) := by
  have hk := h.of_kcmp .ne
  have hv := h.of_vcmp .eq
  fun_induction findLoop K' lists keys value key pos idx len with
  | case1 pos idx len e he =>
    rw [Verif.SKL.findLoop]
    split
    · rename_i e' he'; rw [he] at he'; cases he'; exact .raise _
    · rename_i ks hks; rw [he] at hks; cases hks
  | case2 pos idx len ks hks e he =>
    rw [Verif.SKL.findLoop]
    split
    · rename_i e' he'; rw [hks] at he'; cases he'
    · rename_i ks' hks'; rw [hks] at hks'; cases hks'
      split
      · rename_i e' he'; rw [he] at he'; cases he'; exact .raise _
      · rename_i k hk; rw [he] at hk; cases hk
  | case3 pos idx len ks h1 k h2 ih1 ih2 =>
    rw [findLoop_round K lists value key h1 h2]
    sim_parts

theorem countLoop_sim (lists : List (List α)) (keys : List (List κ)) (value : α) (key : κ) (pos idx len total : Nat) :
    Sim I J s0 (countLoop K' lists keys value key pos idx len total)
      (Py.lift (Verif.SKL.countLoop K lists keys value key pos idx len total)) := by
  have hk := h.of_kcmp .ne
  have hv := h.of_vcmp .eq
  fun_induction countLoop K' lists keys value key pos idx len total with
  | case1 pos idx len total e he =>
    rw [Verif.SKL.countLoop]
    split
    · rename_i e' he'; rw [he] at he'; cases he'; exact .raise _
    · rename_i ks hks; rw [he] at hks; cases hks
  | case2 pos idx len total ks hks e he =>
    rw [Verif.SKL.countLoop]
    split
    · rename_i e' he'; rw [hks] at he'; cases he'
    · rename_i ks' hks'; rw [hks] at hks'; cases hks'
      split
      · rename_i e' he'; rw [he] at he'; cases he'; exact .raise _
      · rename_i k hk; rw [he] at hk; cases hk
  | case3 pos idx len total ks h1 k h2 ih1 ih2 =>
    rw [countLoop_round K lists value key h1 h2]
    sim_parts

theorem find_sim (v : α) : Sim I J s0 (find K' v) (Verif.SKL.find K v) := by
  have h1 := bisectLeft_sim (h.of_kcmp .lt)
  have h2 := h.of_key
  have h3 := findLoop_sim h
  unfold find Verif.SKL.find
  sim_parts

theorem contains_sim (v : α) : Sim I J s0 (contains K' v) (Verif.SKL.contains K v) := by
  have h1 := find_sim h
  unfold contains Verif.SKL.contains
  sim_parts

theorem irange_key_sim (lo hi : Option κ) (a b r : Bool) : Sim I J s0 (irange_key K' lo hi a b r) (Verif.SKL.irange_key K lo hi a b r) := by
  have h1 := bisectLeft_sim (h.of_kcmp .lt)
  have h2 := bisectRight_sim (h.of_kcmp .lt)
  unfold irange_key Verif.SKL.irange_key Verif.SKL.irange_keyWith
  cases lo <;> cases hi <;> sim_parts

theorem keyOpt_sim (o : Option α) : Sim I J s0 (keyOpt K' o) (Py.lift (Verif.SKL.keyOpt K o)) := by
  cases o with
  | none => exact .pure _
  | some x =>
    unfold keyOpt Verif.SKL.keyOpt
    dsimp only
    cases hx : K.key x with
    | error e => exact .error_bind (hx ▸ h.of_key x)
    | ok k => exact .ok_bind (hx ▸ h.of_key x) (.pure _)

theorem irange_sim (lo hi : Option α) (a b r : Bool) : Sim I J s0 (irange K' lo hi a b r) (Verif.SKL.irange K lo hi a b r) := by
  have h1 := keyOpt_sim h
  have h2 := irange_key_sim h
  unfold irange Verif.SKL.irange Verif.SKL.irangeWith
  sim_parts

theorem count_sim (v : α) : Sim I J s0 (count K' v) (Verif.SKL.count K v) := by
  have h1 := bisectLeft_sim (h.of_kcmp .lt)
  have h2 := h.of_key
  have h3 := countLoop_sim h
  unfold count Verif.SKL.count
  sim_parts

end
/-! ## Calls that change the list -/

section
variable {I : St α κ → Prop} {s0 : St α κ} {K' : RKEnv W α κ} {K : KEnv α κ} (h : EnvSim I J s0 K' K)
include h

theorem add_ends (v : α) : Ends I J s0 (add K' v) (Verif.SKL.add K v) := by
  have h1 := bisectRight_sim (h.of_kcmp .lt)
  have h2 := h.of_key
  unfold add Verif.SKL.add
  ends_parts

omit h in
theorem find_same (K : KEnv α κ) (v : α) (t : St α κ) : (Verif.SKL.find K v t).2 = t := by
  unfold Verif.SKL.find
  rw [Py.get_bind]
  split
  · rfl
  · rcases K.key v with _ | k
    · rfl
    · rw [Py.lift_ok_bind]
      rcases Verif.bisectLeft K.lt t.maxes k with _ | pos
      · rfl
      · rw [Py.lift_ok_bind]
        split
        · rfl
        · rcases getItem t.keys pos with _ | ks
          · rfl
          · rw [Py.lift_ok_bind]
            rcases Verif.bisectLeft K.lt ks k with _ | idx
            · rfl
            · rfl

theorem discard_ends (v : α) : Ends I J s0 (discard K' v) (Verif.SKL.discard K v) := by
  refine Ends.bind (find_sim h v) (find_same K v) fun b => ?_
  ends_parts

theorem remove_ends (v : α) : Ends I J s0 (remove K' v) (Verif.SKL.remove K v) := by
  refine Ends.bind (find_sim h v) (find_same K v) fun b => ?_
  ends_parts

end

/-! ## Positions -/

section
variable {key : α → κ} {klt : κ → κ → Bool} {veq : α → α → Bool} {s0 : St α κ} {K' : RKEnv W α κ} {K : KEnv α κ}
  (h : EnvSim (Inv key klt true) J s0 K' K) (hK : K.Lawful key klt veq)
include h hK

theorem loc_sim {pos : Nat} {l : List α} (hp : getItem s0.lists pos = .ok l) (idx : Nat) :
    Sim (Inv key klt true) J s0 (free (Core.loc K'.ilog2 pos idx)) (Core.loc K.ilog2 pos idx) := by
  rw [h.ilog2]
  exact Reent.loc_sim hK.ilog2 (List.getElem?_eq_some_iff.1 (getItem_ok_iff.1 hp)).1 idx

theorem key_loc_sim {pos : Nat} {l : List κ} (hp : getItem s0.keys pos = .ok l) (idx : Nat) :
    Sim (Inv key klt true) J s0 (free (Core.loc K'.ilog2 pos idx)) (Core.loc K.ilog2 pos idx) := by
  intro p t hp' ht hi
  have hk := hp'.inv.keys_eq rfl
  obtain ⟨i, o, e⟩ := hp'.re
  rw [e] at hk
  rw [h.ilog2]
  refine Reent.loc_sim hK.ilog2 ?_ idx p t hp' ht hi
  have h1 := (List.getElem?_eq_some_iff.1 (getItem_ok_iff.1 hp)).1
  rw [show s0.keys = _ from hk] at h1
  simpa using h1

theorem bisect_key_left_sim (k : κ) : Sim (Inv key klt true) J s0 (bisect_key_left K' k) (Verif.SKL.bisect_key_left K k) := by
  have h1 := bisectLeft_sim (h.of_kcmp .lt)
  have h2 := @key_loc_sim _ _ _ _ _ _ _ _ _ _ h hK
  unfold bisect_key_left Verif.SKL.bisect_key_left
  sim_parts

theorem bisect_key_right_sim (k : κ) : Sim (Inv key klt true) J s0 (bisect_key_right K' k) (Verif.SKL.bisect_key_right K k) := by
  have h1 := bisectRight_sim (h.of_kcmp .lt)
  have h2 := @key_loc_sim _ _ _ _ _ _ _ _ _ _ h hK
  unfold bisect_key_right Verif.SKL.bisect_key_right
  sim_parts

theorem bisect_left_sim (v : α) : Sim (Inv key klt true) J s0 (bisect_left K' v) (Verif.SKL.bisect_left K v) := by
  have h1 := h.of_key
  have h2 := bisect_key_left_sim h hK
  unfold bisect_left Verif.SKL.bisect_left
  sim_parts

theorem bisect_right_sim (v : α) : Sim (Inv key klt true) J s0 (bisect_right K' v) (Verif.SKL.bisect_right K v) := by
  have h1 := h.of_key
  have h2 := bisect_key_right_sim h hK
  unfold bisect_right Verif.SKL.bisect_right
  sim_parts

theorem indexLoop_sim (keys : List (List κ)) (value : α) (k : κ) (start stop : Int) (pos idx len : Nat) :
    Sim (Inv key klt true) J s0 (indexLoop K' s0.lists keys value k start stop pos idx len)
      (Verif.SKL.indexLoop K s0.lists keys value k start stop pos idx len) := by
  have hk := h.of_kcmp .ne
  have hv := h.of_vcmp .eq
  have hl := @loc_sim _ _ _ _ _ _ _ _ _ _ h hK
  fun_induction indexLoop K' s0.lists keys value k start stop pos idx len with
  | case1 pos idx len e he =>
    rw [Verif.SKL.indexLoop]
    split
    · rename_i e' he'; rw [he] at he'; cases he'; exact .raise _
    · rename_i ks hks; rw [he] at hks; cases hks
  | case2 pos idx len ks hks e he =>
    rw [Verif.SKL.indexLoop]
    split
    · rename_i e' he'; rw [hks] at he'; cases he'
    · rename_i ks' hks'; rw [hks] at hks'; cases hks'
      split
      · rename_i e' he'; rw [he] at he'; cases he'; exact .raise _
      · rename_i k hk; rw [he] at hk; cases hk
  | case3 pos idx len ks h1 k' h2 ih1 ih2 =>
    rw [indexLoop_round K s0.lists value k h1 h2]
    sim_parts

theorem index_sim (v : α) (a b : Option Int) : Sim (Inv key klt true) J s0 (index K' v a b) (Verif.SKL.index K v a b) := by
  have h1 := h.of_key
  have h2 := bisectLeft_sim (h.of_kcmp .lt)
  have h3 := indexLoop_sim h hK
  unfold index Verif.SKL.index
  sim_parts

end

/-! ## One call -/

theorem mapE_sim {δ : Type} {I : St α κ → Prop} {s0 : St α κ} {m : δ → RPy W (St α κ) β} {g : δ → Except PyErr β}
    (h : ∀ x, Sim I J s0 (m x) (Py.lift (g x))) (xs : List δ) : Sim I J s0 (Py.mapEach m xs) (Py.lift (mapE g xs)) := by
  induction xs with
  | nil => exact .pure _
  | cons x xs ih =>
    rw [mapE]
    cases hx : g x with
    | error e => exact .error_bind (hx ▸ h x)
    | ok b =>
      refine .ok_bind (hx ▸ h x) ?_
      cases hxs : mapE g xs with
      | error e => exact .error_bind (hxs ▸ ih)
      | ok bs => exact .ok_bind (hxs ▸ ih) (.pure _)

/-- What the loop that computes the keys leaves behind. -/
theorem keys_loop (K : KEnv α κ) (ls : List (List α)) (s : St α κ) :
    match mapE (mapE K.key) ls with
    | .ok kss => Py.forEach (fun l => do
        let ks ← Py.lift (mapE K.key l)
        Py.modify fun s : St α κ => { s with keys := s.keys ++ [ks] }) ls s = (.ok (), { s with keys := s.keys ++ kss })
    | .error e => (Py.forEach (fun l => do
        let ks ← Py.lift (mapE K.key l)
        Py.modify fun s : St α κ => { s with keys := s.keys ++ [ks] }) ls s).1 = .error e := by
  induction ls generalizing s with
  | nil => simp [mapE, Py.forEach]
  | cons l ls ih =>
    rw [mapE]
    cases hl : mapE K.key l with
    | error e => simp only [Py.forEach, hl]; rfl
    | ok ks =>
      have := ih { s with keys := s.keys ++ [ks] }
      simp only [Py.forEach, hl]
      cases hls : mapE (mapE K.key) ls with
      | error e =>
        rw [hls] at this
        exact this
      | ok kss =>
        rw [hls] at this
        simp only [List.append_assoc, List.singleton_append] at this
        exact this

theorem newValues_eq (K : KEnv α κ) (g : St α κ → List α) :
    (SKL.api K).valuesOf (fun s => SKL.new K (some (g s))) = (do
      let s ← Py.get
      let values ← Py.lift (K.sortedByKey (g s))
      let subs ← Py.lift (Core.chunks (St.empty : St α κ).load values)
      let keys ← Py.lift (mapE (mapE K.key) subs)
      let _ ← Py.lift (mapE lastItem keys)
      pure subs.flatten) := by
  funext s
  simp only [ListAPI.valuesOf, SKL.new, Verif.SKL.update, Py.get_bind]
  cases K.sortedByKey (g s) with
  | error e => rfl
  | ok values =>
    simp only [Py.lift_ok_bind, Py.get_bind]
    rw [if_neg (by simp [St.empty])]
    unfold Verif.SKL.fill
    rw [Py.get_bind]
    cases hc : Core.chunks (St.empty : St α κ).load values with
    | error e => rfl
    | ok subs =>
      simp only [Py.lift_ok_bind, Py.modify_bind, Py.get_bind]
      have hk := keys_loop K ((St.empty : St α κ).lists ++ subs) { (St.empty : St α κ) with lists := (St.empty : St α κ).lists ++ subs }
      have hn : (St.empty : St α κ).lists ++ subs = subs := rfl
      rw [hn] at hk ⊢
      cases hm : mapE (mapE K.key) subs with
      | error e =>
        rw [hm] at hk
        simp only at hk
        rcases hf : Py.forEach (fun l => do
          let ks ← Py.lift (mapE K.key l)
          Py.modify fun s : St α κ => { s with keys := s.keys ++ [ks] }) subs { (St.empty : St α κ) with lists := subs } with ⟨r, t⟩
        rw [hf] at hk
        simp only at hk
        subst hk
        rw [Py.bind_error hf]
        rfl
      | ok kss =>
        rw [hm] at hk
        simp only at hk
        rw [Py.bind_ok hk]
        have hn : (St.empty : St α κ).keys ++ kss = kss := rfl
        rw [hn, Py.lift_ok_bind, Py.get_bind]
        cases hl : mapE lastItem kss <;> rfl

section
variable {key : α → κ} {klt : κ → κ → Bool} {veq : α → α → Bool} {s0 : St α κ} {K' : RKEnv W α κ} {K : KEnv α κ}
  (h : EnvSim (Inv key klt true) J s0 K' K) (hK : K.Lawful key klt veq)
include h hK

omit hK in
theorem newValues_sim (g : St α κ → List α) (hg : ∀ i o, g { s0 with index := i, offset := o } = g s0) :
    Sim (Inv key klt true) J s0 (do let s ← free Py.get; newValues K' (g s)) ((SKL.api K).valuesOf fun s => SKL.new K (some (g s))) := by
  rw [newValues_eq]
  refine Sim.get_bind (fun i o => by rw [hg]) (fun i o => by rw [hg]) ?_
  exact Sim.lifted_bind (h.sorted _) fun _ _ => Sim.lift_bind fun _ _ =>
    Sim.lifted_bind (mapE_sim (mapE_sim h.of_key) _) fun _ _ => Sim.lift_bind fun _ _ => Sim.pure _

theorem step_sim (op : Op α) (hq : op.isQuery = true) : Sim (Inv key klt true) J s0 (step K' op) ((SKL.api K).step op) := by
  have hL := SKL.api_lawful hK
  have hlog := h.ilog2
  cases op with
  | contains v => exact (contains_sim h v).out _
  | getInt i => unfold step; rw [hlog]; exact (Sim.of_refines (hL.getInt i) (Core.getInt_quiet _ i)).out _
  | getSlice sl => unfold step; rw [hlog]; exact (Sim.of_refines (hL.getSlice sl) (Core.getSlice_quiet _ sl)).out _
  | bisectLeft v => exact (bisect_left_sim h hK v).out _
  | bisectRight v => exact (bisect_right_sim h hK v).out _
  | count v =>
    have e : (SKL.api K).step (.count v) = Spec.out (fun n : Nat => .int n) (Verif.SKL.count K v) := by
      funext s
      show Spec.out .int (Verif.SKL.count K v >>= fun n => pure (n : Int)) s = _
      unfold Spec.out
      rw [Py.bind_apply]
      rcases Verif.SKL.count K v s with ⟨_ | _, _⟩ <;> rfl
    rw [e]
    exact (count_sim h v).out _
  | index v a b => exact (index_sim h hK v a b).out _
  | irange lo hi a b r => exact (irange_sim h lo hi a b r).out _
  | islice a b r => unfold step; rw [hlog]; exact (Sim.of_refines (hL.islice a b r) (Core.islice_quiet _ a b r)).out _
  | iter => exact (Sim.of_refines (f := ListAPI.read fun s => .ok (Core.iter s)) (g := Spec.iter) (fun _ hi => ⟨rfl, rfl, hi⟩) (Quiet.read _)).out _
  | reversed => exact (Sim.of_refines hL.reversed (Quiet.read _)).out _
  | len => exact (Sim.of_refines hL.len (Quiet.read _)).out _
  | compare op other => exact (compare_sim h.of_vcmp op other).out _
  | copy => exact (newValues_sim h Core.iter fun _ _ => rfl).out _
  | concat xs => exact (newValues_sim h (fun s => Core.iter s ++ xs) fun _ _ => rfl).out _
  | mul n => exact (newValues_sim h (fun s => repeatList (Core.iter s) n) fun _ _ => rfl).out _
  | _ => cases hq

theorem kstep_sim (op : KOp α κ) (hq : op.isQuery = true) : Sim (Inv key klt true) J s0 (kstep K' op) (Verif.SKL.kstep K op) := by
  cases op with
  | op o => exact step_sim h hK o hq
  | bisectKeyLeft k => exact (bisect_key_left_sim h hK k).out _
  | bisectKeyRight k => exact (bisect_key_right_sim h hK k).out _
  | irangeKey lo hi a b r => exact (irange_key_sim h lo hi a b r).out _

omit hK in
theorem step_ends (op : Op α) (hq : op.isQuery = false) (hb : op.bulk = false) :
    Ends (Inv key klt true) J s0 (step K' op) ((SKL.api K).step op) := by
  have hlog := h.ilog2
  cases op with
  | add v => exact (add_ends h v).out _
  | discard v => exact (discard_ends h v).out _
  | remove v => exact (remove_ends h v).out _
  | clear => exact (Ends.of_free (Frees.free Verif.SKL.clear)).out fun _ => .none
  | delInt i =>
    have e : Core.delInt (methods K') i = Core.delInt (Verif.SKL.methods K) i := by simp only [Core.delInt, methods, Verif.SKL.methods, hlog]
    show Ends _ _ _ (Spec.out (fun _ => .none) (free (Core.delInt (methods K') i))) _
    rw [e]
    exact (Ends.of_free (Frees.free (Core.delInt (Verif.SKL.methods K) i))).out fun _ => .none
  | pop i =>
    have e : Core.pop (methods K') i = Core.pop (Verif.SKL.methods K) i := by simp only [Core.pop, methods, Verif.SKL.methods, hlog]
    show Ends _ _ _ (Spec.out .val (free (Core.pop (methods K') i))) _
    rw [e]
    exact (Ends.of_free (Frees.free (Core.pop (Verif.SKL.methods K) i))).out .val
  | unsupported u => exact (Ends.of_free (Frees.free (Core.unsupported u))).out fun _ => .none
  | update | delSlice | iadd | imul | reset => cases hb
  | _ => cases hq

end

/-! ## Right code -/

section
variable {key : α → κ} {klt : κ → κ → Bool} {veq : α → α → Bool} {K : KEnv α κ} {C : SKL.Clients α κ} {D : Nat}

/-- The answers of a plain list. -/
def answers (key : α → κ) (klt : κ → κ → Bool) (O : Spec.Order α) (l : List α) (q : KQuery α κ) : Except PyErr (Out α) :=
  (Spec.kstep key klt O q.1 l).1

theorem sorting_sim {I : St α κ → Prop} {s0 : St α κ} {key' : α → RPy W (St α κ) κ} {kcmp : CmpOp → κ → κ → RPy W (St α κ) Bool}
    (hK : K.Lawful key klt veq) (h1 : ∀ a, Sim I J s0 (key' a) (Py.lift (K.key a)))
    (h2 : ∀ op a b, Sim I J s0 (kcmp op a b) (Py.lift (K.kcmp op a b))) (pairs : List κ → List (κ × κ)) (xs : List α) :
    Sim I J s0 (sorting key' kcmp pairs K.sortedByKey xs) (Py.lift (K.sortedByKey xs)) := by
  have h3 : ∀ ps, Sim I J s0 (Py.forEach (fun ab : κ × κ => do let _ ← kcmp .lt ab.1 ab.2; pure ()) ps) (Py.lift (.ok ())) := by
    intro ps
    induction ps with
    | nil => exact Sim.pure ()
    | cons ab ps ih =>
      refine Sim.ok_bind (b := ()) (Sim.ok_bind (b := CmpOp.ofLt klt .lt ab.1 ab.2) ?_ (Sim.pure ())) ih
      have := h2 .lt ab.1 ab.2
      rwa [hK.kcmp_ok] at this
  have h4 := mapE_sim h1 xs
  rw [mapE_ok xs fun a _ => hK.key_ok a] at h4
  exact Sim.ok_bind h4 (Sim.ok_bind (h3 _) (Sim.lift _))

theorem env_sim (hK : K.Lawful key klt veq)
    (hC : C.Honest key klt (Spec.Order.ofKey key klt veq K.vcmp) K.key K.kcmp K.vcmp D) {s0 : St α κ} (h0 : Inv key klt true s0)
    (old : List (KQuery α κ × Except PyErr (Out α))) : ∀ n d, n + d = D →
      EnvSim (Inv key klt true) (Answered (answers key klt (Spec.Order.ofKey key klt veq K.vcmp) (Core.iter s0)) old) s0 (C.env K n d) K := by
  intro n
  induction n with
  | zero =>
    intro d hd
    obtain rfl : d = D := by omega
    refine ⟨fun a => ?_, fun op a b => ?_, fun op a b => ?_, sorting_sim hK (fun a => ?_) (fun op a b => ?_) _, rfl⟩
    all_goals
      refine calling_done Answered.tick fun w => ?_
    · obtain ⟨r, hr⟩ := hC.quiet_key a w
      have := hC.of_key d a w [] .nil
      rw [hr] at this ⊢
      exact congrArg _ this
    · obtain ⟨r, hr⟩ := hC.quiet_kcmp op a b w
      have := hC.of_kcmp d op a b w [] .nil
      rw [hr] at this ⊢
      exact congrArg _ this
    · obtain ⟨r, hr⟩ := hC.quiet_vcmp op a b w
      have := hC.of_vcmp d op a b w [] .nil
      rw [hr] at this ⊢
      exact congrArg _ this
    · obtain ⟨r, hr⟩ := hC.quiet_key a w
      have := hC.of_key d a w [] .nil
      rw [hr] at this ⊢
      exact congrArg _ this
    · obtain ⟨r, hr⟩ := hC.quiet_kcmp op a b w
      have := hC.of_kcmp d op a b w [] .nil
      rw [hr] at this ⊢
      exact congrArg _ this
  | succ n ih =>
    intro d hd
    have hn := ih (d + 1) (by omega)
    have hq : ∀ (q : KQuery α κ) p, Held (Inv key klt true) (Answered (answers key klt (Spec.Order.ofKey key klt veq K.vcmp) (Core.iter s0)) old) s0 p →
        (kstep (C.env K n (d + 1)) q.1 p).1 = answers key klt (Spec.Order.ofKey key klt veq K.vcmp) (Core.iter s0) q ∧
        Held (Inv key klt true) (Answered (answers key klt (Spec.Order.ofKey key klt veq K.vcmp) (Core.iter s0)) old) s0
          (kstep (C.env K n (d + 1)) q.1 p).2 := by
      intro q p hp
      obtain ⟨e, h1, -, -⟩ := kstep_sim hn hK q.1 q.2 p p.1 hp hp.re hp.inv
      refine ⟨e.trans ?_, h1⟩
      have hv : q.1.Valid := by
        obtain ⟨op, hq⟩ := q
        cases op with
        | op o => cases o <;> first | trivial | cases hq
        | _ => trivial
      rw [(SKL.kstep_refines hK q.1 hv p.1 hp.inv).1]
      show (Spec.kstep _ _ _ q.1 (Core.iter p.1)).1 = (Spec.kstep _ _ _ q.1 (Core.iter s0)).1
      rw [reindexed_iter hp.re]
    have h1 : ∀ a, Sim (Inv key klt true) (Answered (answers key klt (Spec.Order.ofKey key klt veq K.vcmp) (Core.iter s0)) old) s0
        ((C.env K (n + 1) d).key a) (Py.lift (K.key a)) := fun a => calling_sim hq fun w => hC.of_key d a w _ h0.sorted
    have h2 : ∀ op a b, Sim (Inv key klt true) (Answered (answers key klt (Spec.Order.ofKey key klt veq K.vcmp) (Core.iter s0)) old) s0
        ((C.env K (n + 1) d).kcmp op a b) (Py.lift (K.kcmp op a b)) := fun op a b => calling_sim hq fun w => hC.of_kcmp d op a b w _ h0.sorted
    exact ⟨h1, h2, fun op a b => calling_sim hq fun w => hC.of_vcmp d op a b w _ h0.sorted, sorting_sim hK h1 h2 _, rfl⟩

end

/-! ## Queries change the positional index at most, whatever the state of the object -/

section
variable {s0 : St α κ} {K' : RKEnv W α κ} (hk : ∀ a, Still J s0 (K'.key a)) (hc : ∀ op a b, Still J s0 (K'.kcmp op a b))
  (hv : ∀ op a b, Still J s0 (K'.vcmp op a b)) (hs : ∀ xs, Still J s0 (K'.sortedByKey xs))

section
include hc hv

theorem findLoop_still (lists : List (List α)) (keys : List (List κ)) (value : α) (key : κ) (pos idx len : Nat) :
    Still J s0 (findLoop K' lists keys value key pos idx len) := by
  fun_induction findLoop K' lists keys value key pos idx len <;> still_parts

theorem countLoop_still (lists : List (List α)) (keys : List (List κ)) (value : α) (key : κ) (pos idx len total : Nat) :
    Still J s0 (countLoop K' lists keys value key pos idx len total) := by
  fun_induction countLoop K' lists keys value key pos idx len total <;> still_parts

theorem indexLoop_still (lists : List (List α)) (keys : List (List κ)) (value : α) (key : κ) (start stop : Int) (pos idx len : Nat) :
    Still J s0 (indexLoop K' lists keys value key start stop pos idx len) := by
  have h1 := fun p i => Core.loc_quiet (α := α) (κ := κ) K'.ilog2 p i s0
  fun_induction indexLoop K' lists keys value key start stop pos idx len <;> still_parts

end

section
include hc

theorem irange_key_still (lo hi : Option κ) (a b r : Bool) : Still J s0 (irange_key K' lo hi a b r) := by
  have h1 := bisectLeft_still (hc .lt)
  have h2 := bisectRight_still (hc .lt)
  unfold irange_key
  still_parts

theorem bisect_key_left_still (k : κ) : Still J s0 (bisect_key_left K' k) := by
  have h1 := bisectLeft_still (hc .lt)
  have h2 := fun p i => Core.loc_quiet (α := α) (κ := κ) K'.ilog2 p i s0
  unfold bisect_key_left
  still_parts

theorem bisect_key_right_still (k : κ) : Still J s0 (bisect_key_right K' k) := by
  have h1 := bisectRight_still (hc .lt)
  have h2 := fun p i => Core.loc_quiet (α := α) (κ := κ) K'.ilog2 p i s0
  unfold bisect_key_right
  still_parts

end

include hk hs in
theorem newValues_still (xs : List α) : Still J s0 (newValues K' xs) := by
  unfold newValues
  still_parts

include hk in
theorem keyOpt_still (o : Option α) : Still J s0 (keyOpt K' o) := by
  unfold keyOpt
  still_parts

include hk hc

theorem bisect_left_still (v : α) : Still J s0 (bisect_left K' v) := Preserves.bind (hk v) fun _ => bisect_key_left_still hc _

theorem bisect_right_still (v : α) : Still J s0 (bisect_right K' v) := Preserves.bind (hk v) fun _ => bisect_key_right_still hc _

theorem irange_still (lo hi : Option α) (a b r : Bool) : Still J s0 (irange K' lo hi a b r) :=
  Preserves.bind (keyOpt_still hk lo) fun _ => Preserves.bind (keyOpt_still hk hi) fun _ => irange_key_still hc _ _ _ _ _

include hv

theorem index_still (v : α) (a b : Option Int) : Still J s0 (index K' v a b) := by
  have hb := bisectLeft_still (hc .lt)
  have h1 := indexLoop_still hc hv
  unfold index
  still_parts

include hs

theorem step_still (op : Op α) (hq : op.isQuery = true) : Still J s0 (step K' op) := by
  have hb := bisectLeft_still (hc .lt)
  cases op with
  | contains v =>
    refine Still.out _ ?_
    have h1 := findLoop_still hc hv
    unfold contains find
    still_parts
  | getInt i => exact (still_free (Core.getInt_quiet _ i s0)).out _
  | getSlice sl => exact (still_free (Core.getSlice_quiet _ sl s0)).out _
  | bisectLeft v => exact (bisect_left_still hk hc v).out _
  | bisectRight v => exact (bisect_right_still hk hc v).out _
  | count v =>
    refine Still.out _ ?_
    have h1 := countLoop_still hc hv
    unfold count
    still_parts
  | index v a b => exact (index_still hk hc hv v a b).out _
  | irange lo hi a b r => exact (irange_still hk hc lo hi a b r).out _
  | islice a b r => exact (still_free (Core.islice_quiet _ a b r s0)).out _
  | iter => exact (still_free (Quiet.read _ s0)).out _
  | reversed => exact (still_free (Quiet.read _ s0)).out _
  | len => exact (still_free (Quiet.read _ s0)).out _
  | compare op other => exact (compare_still hv op other).out _
  | copy => exact Still.out _ (Preserves.bind (still_free Preserves.get) fun _ => newValues_still hk hs _)
  | concat xs => exact Still.out _ (Preserves.bind (still_free Preserves.get) fun _ => newValues_still hk hs _)
  | mul n => exact Still.out _ (Preserves.bind (still_free Preserves.get) fun _ => newValues_still hk hs _)
  | _ => cases hq

theorem kstep_still (op : KOp α κ) (hq : op.isQuery = true) : Still J s0 (kstep K' op) := by
  cases op with
  | op o => exact step_still hk hc hv hs o hq
  | bisectKeyLeft k => exact (bisect_key_left_still hc k).out _
  | bisectKeyRight k => exact (bisect_key_right_still hc k).out _
  | irangeKey lo hi a b r => exact (irange_key_still hc lo hi a b r).out _

end

section
variable {key : α → κ} {klt : κ → κ → Bool} {veq : α → α → Bool} {K : KEnv α κ} {C : SKL.Clients α κ} {D : Nat}

/-- Code that is right whatever it is told. -/
theorem env_always (hK : K.Lawful key klt veq) (hC : C.Steadfast K.key K.kcmp K.vcmp D) (s0 : St α κ) :
    ∀ n d, n + d = D → EnvSim (fun _ => True) (fun _ => True) s0 (C.env K n d) K := by
  intro n
  induction n with
  | zero =>
    intro d hd
    obtain rfl : d = D := by omega
    refine ⟨fun a => ?_, fun op a b => ?_, fun op a b => ?_, sorting_sim hK (fun a => ?_) (fun op a b => ?_) _, rfl⟩
    all_goals
      refine calling_done (fun _ _ => trivial) fun w => ?_
    · obtain ⟨r, hr⟩ := hC.quiet_key a w
      have := hC.of_key d a w
      rw [hr] at this ⊢
      exact congrArg _ this
    · obtain ⟨r, hr⟩ := hC.quiet_kcmp op a b w
      have := hC.of_kcmp d op a b w
      rw [hr] at this ⊢
      exact congrArg _ this
    · obtain ⟨r, hr⟩ := hC.quiet_vcmp op a b w
      have := hC.of_vcmp d op a b w
      rw [hr] at this ⊢
      exact congrArg _ this
    · obtain ⟨r, hr⟩ := hC.quiet_key a w
      have := hC.of_key d a w
      rw [hr] at this ⊢
      exact congrArg _ this
    · obtain ⟨r, hr⟩ := hC.quiet_kcmp op a b w
      have := hC.of_kcmp d op a b w
      rw [hr] at this ⊢
      exact congrArg _ this
  | succ n ih =>
    intro d hd
    have hn := ih (d + 1) (by omega)
    have hq : ∀ q : KQuery α κ, Preserves (fun p : St α κ × Seen (KQuery α κ) (Out α) => Reindexed s0 p.1 ∧ True) (kstep (C.env K n (d + 1)) q.1) := by
      intro q
      refine kstep_still (J := fun _ => True) (fun a p hp => ?_) (fun op a b p hp => ?_) (fun op a b p hp => ?_) (fun xs p hp => ?_) q.1 q.2
      · exact ⟨(hn.of_key a p s0 ⟨hp.1, trivial, trivial⟩ (Reindexed.refl _) trivial).2.1.re, trivial⟩
      · exact ⟨(hn.of_kcmp op a b p s0 ⟨hp.1, trivial, trivial⟩ (Reindexed.refl _) trivial).2.1.re, trivial⟩
      · exact ⟨(hn.of_vcmp op a b p s0 ⟨hp.1, trivial, trivial⟩ (Reindexed.refl _) trivial).2.1.re, trivial⟩
      · exact ⟨(hn.sorted xs p s0 ⟨hp.1, trivial, trivial⟩ (Reindexed.refl _) trivial).2.1.re, trivial⟩
    have h1 : ∀ a, Sim (fun _ => True) (fun _ => True) s0 ((C.env K (n + 1) d).key a) (Py.lift (K.key a)) :=
      fun a => calling_always hq fun w => hC.of_key d a w
    have h2 : ∀ op a b, Sim (fun _ => True) (fun _ => True) s0 ((C.env K (n + 1) d).kcmp op a b) (Py.lift (K.kcmp op a b)) :=
      fun op a b => calling_always hq fun w => hC.of_kcmp d op a b w
    exact ⟨h1, h2, fun op a b => calling_always hq fun w => hC.of_vcmp d op a b w, sorting_sim hK h1 h2 _, rfl⟩

theorem Steadfast.honest {keyOf : α → Except PyErr κ} {kcmp : CmpOp → κ → κ → Except PyErr Bool} {vcmp : CmpOp → α → α → Except PyErr Bool}
    (h : C.Steadfast keyOf kcmp vcmp D) (key : α → κ) (klt : κ → κ → Bool) (O : Spec.Order α) : C.Honest key klt O keyOf kcmp vcmp D where
  of_key d a w _ _ := Always.says (h.of_key d a w)
  of_kcmp d op a b w _ _ := Always.says (h.of_kcmp d op a b w)
  of_vcmp d op a b w _ _ := Always.says (h.of_vcmp d op a b w)
  quiet_key := h.quiet_key
  quiet_kcmp := h.quiet_kcmp
  quiet_vcmp := h.quiet_vcmp

end

end SKL
end Reent
end Verif
