import Verif.Proofs.Race
/-!
# The methods of the two list classes in the logic of `Proofs/Race.lean`
-/

namespace Verif.Race
variable {α κ : Type}

namespace Bounds

theorem chunks_mem {load : Nat} {values : List α} {cs : List (List α)} (h : Core.chunks load values = .ok cs) : ∀ c ∈ cs, ∀ v ∈ c, v ∈ values := by
  unfold Core.chunks at h
  split at h
  · cases h
  · cases h
    intro c hc v hv
    obtain ⟨i, -, rfl⟩ := List.mem_map.1 hc
    simp only [subList] at hv
    first
      | exact List.mem_of_mem_drop (List.mem_of_mem_take hv)
      | exact List.mem_of_mem_take (List.mem_of_mem_drop hv)

theorem chunks_err {load : Nat} {values : List α} {e : PyErr} (h : Core.chunks load values = .error e) : e = .valueError := by
  unfold Core.chunks at h
  split at h
  · cases h; rfl
  · cases h

/-- The exceptions of the comparisons are allowed, and `sorted` invents nothing. -/
structure Suits (B : Bounds α α) (E : Env α) : Prop where
  cmp : ∀ op x y e, E.cmp op x y = .error e → B.err e
  sortErr : ∀ xs e, E.sorted xs = .error e → B.err e
  sortMem : ∀ xs ys, E.sorted xs = .ok ys → (∀ v ∈ xs, B.val v) → ∀ v ∈ ys, B.val v

/-- The same for a SortedKeyList. -/
structure KSuits (B : Bounds α κ) (K : KEnv α κ) : Prop where
  key : ∀ x e, K.key x = .error e → B.err e
  kcmp : ∀ op x y e, K.kcmp op x y = .error e → B.err e
  vcmp : ∀ x y e, K.vcmp .eq x y = .error e → B.err e
  sortErr : ∀ xs e, K.sortedByKey xs = .error e → B.err e
  sortMem : ∀ xs ys, K.sortedByKey xs = .ok ys → (∀ v ∈ xs, B.val v) → ∀ v ∈ ys, B.val v

section SL
variable {B : Bounds α α} {E : Env α} {s : Shared α α}

theorem Safe.SL_bisectCell (hE : B.Suits E) (right : Bool) (a : Nat) (x : α) (hs : B.Holds s) : B.Safe (fun _ _ => True) s (SL.bisectCell E right a x) := by
  unfold SL.bisectCell
  go Safe.see _
  exact Safe.bisectLoop (hE.cmp .lt) right (fun t => t.cell a) x _ _ _ (by assumption)

theorem Safe.SL_expand (fuel : Nat) (pos : Int) (hp : B.grow → 0 ≤ pos) (hs : B.Holds s) : B.Safe (fun _ _ => True) s (SL.expand fuel pos : Run α α Unit) := by
  unfold SL.expand
  go Safe.see _
  go Safe.sublist _
  go Safe.see _
  split
  · go Safe.sublist _
    go Safe.alloc fun t ht v hv => ht.cell _ v (List.mem_of_mem_drop hv)
    go Safe.alter _ fun l hl v hv => hl v (List.mem_of_mem_take hv)
    go Safe.entry _ _
    go Safe.setMax _ _
    go Safe.other (fun _ => rfl) (fun _ => rfl) (fun _ => id)
    go Safe.entry _ _
    go Safe.other (fun _ => rfl) (fun _ => rfl) (fun _ _ => insert_ne)
    exact Safe.dropIndex
  · exact Safe.touchUp fuel pos hp (by assumption)

theorem Safe.SL_add (hE : B.Suits E) (fuel : Nat) {v : α} (hv : B.val v) (hs : B.Holds s) : B.Safe (fun _ _ => True) s (SL.add E fuel v) := by
  have one : ∀ l : List α, (∀ w ∈ l, B.val w) → ∀ w ∈ l ++ [v], B.val w := by
    intro l hl w hw
    rcases List.mem_append.1 hw with h | h
    · exact hl w h
    · simp only [List.mem_singleton] at h; exact h ▸ hv
  unfold SL.add
  refine Safe.bind hs (Safe.see _) fun t m r ht hm => ?_
  obtain ⟨-, rfl⟩ := hm
  split
  · go Safe.alloc fun _ _ w hw => by simp only [List.mem_singleton] at hw; exact hw ▸ hv
    go Safe.other (fun _ => rfl) (fun _ => rfl) (fun _ => id)
    go Safe.other (fun _ => rfl) (fun _ => rfl) (fun _ _ => by simp)
    exact Safe.addLen _ (by assumption)
  · rename_i hne
    refine Safe.bind ht (Safe.bisectMaxes (hE.cmp .lt) true v ht) fun t2 p r2 ht2 _ => ?_
    refine Safe.bind ht2 (Safe.see _) fun t3 n r3 ht3 hn => ?_
    obtain ⟨-, rfl⟩ := hn
    split
    · rename_i hpn
      have hp : B.grow → 0 ≤ (p : Int) - 1 := fun g => by
        have := r3.2 g (r2.2 g hne)
        have := List.length_pos_iff.2 this
        omega
      simp only
      go Safe.sublist _
      go Safe.alter _ one
      go Safe.setMax _ _
      go Safe.SL_expand fuel _ hp (by assumption)
      exact Safe.addLen _ (by assumption)
    · go Safe.sublist _
      go Safe.SL_bisectCell hE true _ v (by assumption)
      go Safe.alter _ fun l hl w hw => by
        rcases insert_mem hw with h | h
        · exact h ▸ hv
        · exact hl w h
      go Safe.SL_expand fuel _ (fun _ => by omega) (by assumption)
      exact Safe.addLen _ (by assumption)

theorem Safe.SL_clear (hg : ¬ B.grow) (hs : B.Holds s) : B.Safe (fun _ _ => True) s (SL.clear : Run α α Unit) := by
  unfold SL.clear
  go Safe.other (fun _ => rfl) (fun _ => rfl) (fun _ => id)
  go Safe.other (fun _ => rfl) (fun _ => rfl) (fun _ => id)
  go Safe.assign fun t ht => ⟨ht, fun g => absurd g hg⟩
  go Safe.dropIndex
  exact Safe.other (fun _ => rfl) (fun _ => rfl) (fun _ => id)

theorem Safe.SL_addMaxes (hg : ¬ B.grow) (fuel i : Nat) (hs : B.Holds s) : B.Safe (fun _ _ => True) s (SL.addMaxes fuel i : Run α α Unit) := by
  induction fuel generalizing s i with
  | zero => exact hg
  | succ fuel ih =>
    unfold SL.addMaxes
    go Safe.see _
    split
    · exact Safe.pure trivial
    · go Safe.entry _ _
      go Safe.other (fun _ => rfl) (fun _ => rfl) (fun _ _ => by simp)
      exact ih _ (by assumption)

theorem Safe.SL_fill (hg : ¬ B.grow) (fuel : Nat) {values : List α} (hv : ∀ v ∈ values, B.val v) (hs : B.Holds s) :
    B.Safe (fun _ _ => True) s (SL.fill fuel values : Run α α Unit) := by
  unfold SL.fill
  go Safe.see _
  go Safe.lift (Q := fun _ cs => ∀ c ∈ cs, ∀ v ∈ c, B.val v) (fun e h => chunks_err h ▸ B.value) fun cs h c hc v hvc => hv v (chunks_mem h c hc v hvc)
  go Safe.addLists (by assumption) (by assumption)
  go Safe.SL_addMaxes hg _ _ (by assumption)
  go Safe.other (fun _ => rfl) (fun _ => rfl) (fun _ => id)
  exact Safe.dropIndex

theorem Safe.SL_update (hE : B.Suits E) (hg : ¬ B.grow) (fuel : Nat) {xs : List α} (hv : ∀ v ∈ xs, B.val v) (hs : B.Holds s) :
    B.Safe (fun _ _ => True) s (SL.update E fuel xs) := by
  unfold SL.update
  refine Safe.bind hs (Safe.lift (Q := fun _ ys => ∀ v ∈ ys, B.val v) (hE.sortErr xs) fun ys h => hE.sortMem _ _ h hv) fun t ys _ ht hys => ?_
  go Safe.see _
  split
  · exact Safe.SL_fill hg fuel hys (by assumption)
  · go Safe.see _
    split
    · go Safe.alloc fun _ _ => hys
      go Safe.other (fun _ => rfl) (fun _ => rfl) (fun _ => id)
      refine Safe.bind (by assumption) Safe.toList fun _ all _ _ hall => ?_
      refine Safe.bind (by assumption) (Safe.lift (Q := fun _ ys => ∀ v ∈ ys, B.val v) (hE.sortErr all) fun ys h => hE.sortMem _ _ h hall) fun t ys _ ht hys => ?_
      go Safe.SL_clear hg (by assumption)
      exact Safe.SL_fill hg fuel hys (by assumption)
    · exact Safe.forEach (fun v hv t ht => Safe.SL_add hE fuel (hys v hv) ht) (by assumption)

theorem Safe.SL_delete (hg : ¬ B.grow) (fuel : Nat) (pos idx : Int) (hs : B.Holds s) : B.Safe (fun _ _ => True) s (SL.delete fuel pos idx : Run α α Unit) := by
  unfold SL.delete
  go Safe.sublist _
  go Safe.erase _ _
  go Safe.addLen _ (by assumption)
  go Safe.see _
  go Safe.see _
  split
  · go Safe.entry _ _
    go Safe.setMax _ _
    exact Safe.touchDown _ (by assumption)
  · go Safe.see _
    split
    · simp only
      go Safe.sublist _
      go Safe.sublist _
      go Safe.assign fun t ht => ht.put _ fun v hv => by
        rcases List.mem_append.1 hv with h | h
        · exact ht.cell _ v h
        · exact ht.cell _ v h
      go Safe.sublist _
      go Safe.entry _ _
      go Safe.setMax _ _
      go Safe.dropList _
      go Safe.dropMax hg _
      go Safe.dropIndex
      exact Safe.SL_expand fuel _ (fun g => absurd g hg) (by assumption)
    · split
      · go Safe.entry _ _
        exact Safe.setMax _ _
      · go Safe.dropList _
        go Safe.dropMax hg _
        exact Safe.dropIndex

theorem Safe.SL_contains (hE : B.Suits E) (v : α) (hs : B.Holds s) : B.Safe (fun _ _ => True) s (SL.contains E v) := by
  unfold SL.contains
  go Safe.see _
  split
  · exact Safe.pure trivial
  · go Safe.bisectMaxes (hE.cmp .lt) false v (by assumption)
    go Safe.see _
    split
    · exact Safe.pure trivial
    · go Safe.sublist _
      go Safe.SL_bisectCell hE _ _ _ (by assumption)
      go Safe.sublist _
      go Safe.entry _ _
      exact Safe.lift (hE.cmp _ _ _) fun _ _ => trivial

theorem Safe.SL_discard (hE : B.Suits E) (hg : ¬ B.grow) (fuel : Nat) (v : α) (hs : B.Holds s) : B.Safe (fun _ _ => True) s (SL.discard E fuel v) := by
  unfold SL.discard
  go Safe.see _
  split
  · exact Safe.pure trivial
  · go Safe.bisectMaxes (hE.cmp .lt) false v (by assumption)
    go Safe.see _
    split
    · exact Safe.pure trivial
    · go Safe.sublist _
      go Safe.SL_bisectCell hE _ _ _ (by assumption)
      go Safe.sublist _
      go Safe.entry _ _
      go Safe.lift (Q := fun _ _ => True) (hE.cmp _ _ _) fun _ _ => trivial
      split
      · exact Safe.SL_delete hg fuel _ _ (by assumption)
      · exact Safe.pure trivial

theorem Safe.SL_remove (hE : B.Suits E) (hg : ¬ B.grow) (fuel : Nat) (v : α) (hs : B.Holds s) : B.Safe (fun _ _ => True) s (SL.remove E fuel v) := by
  unfold SL.remove
  go Safe.see _
  split
  · exact Safe.raise B.value
  · go Safe.bisectMaxes (hE.cmp .lt) false v (by assumption)
    go Safe.see _
    split
    · exact Safe.raise B.value
    · go Safe.sublist _
      go Safe.SL_bisectCell hE _ _ _ (by assumption)
      go Safe.sublist _
      go Safe.entry _ _
      go Safe.lift (Q := fun _ _ => True) (hE.cmp _ _ _) fun _ _ => trivial
      split
      · exact Safe.SL_delete hg fuel _ _ (by assumption)
      · exact Safe.raise B.value

theorem Safe.SL_delInt (hg : ¬ B.grow) (fuel : Nat) (i : Int) (hs : B.Holds s) : B.Safe (fun _ _ => True) s (SL.delInt E fuel i) := by
  unfold SL.delInt
  go Safe.pos _ _ (by assumption)
  exact Safe.SL_delete hg fuel _ _ (by assumption)

theorem Safe.SL_take (hg : ¬ B.grow) (fuel : Nat) (p i : Int) (hs : B.Holds s) : B.Safe (fun _ x => B.val x) s (SL.take fuel p i : Run α α α) := by
  unfold SL.take
  go Safe.sublist _
  refine Safe.bind (by assumption) (Safe.entry _ _) fun _ x _ _ hx => ?_
  go Safe.SL_delete hg fuel _ _ (by assumption)
  exact Safe.pure hx

theorem Safe.SL_popFar (hg : ¬ B.grow) (fuel : Nat) (i : Int) (hs : B.Holds s) : B.Safe (fun _ x => B.val x) s (SL.popFar E fuel i) := by
  unfold SL.popFar
  go Safe.sublist _
  go Safe.see _
  split
  · go Safe.see _
    exact Safe.SL_take hg fuel _ _ (by assumption)
  · go Safe.pos _ _ (by assumption)
    exact Safe.SL_take hg fuel _ _ (by assumption)

theorem Safe.SL_pop (hg : ¬ B.grow) (fuel : Nat) (i : Int) (hs : B.Holds s) : B.Safe (fun _ x => B.val x) s (SL.pop E fuel i) := by
  unfold SL.pop
  go Safe.see _
  split
  · exact Safe.raise B.index
  · split
    · exact Safe.SL_take hg fuel _ _ (by assumption)
    · split
      · go Safe.see _
        go Safe.sublist _
        go Safe.see _
        exact Safe.SL_take hg fuel _ _ (by assumption)
      · split
        · go Safe.sublist _
          go Safe.see _
          split
          · exact Safe.SL_take hg fuel _ _ (by assumption)
          · exact Safe.SL_popFar hg fuel i (by assumption)
        · exact Safe.SL_popFar hg fuel i (by assumption)

theorem Safe.SL_bisect (hE : B.Suits E) (right : Bool) (v : α) (hs : B.Holds s) : B.Safe (fun _ _ => True) s (SL.bisect E right v) := by
  unfold SL.bisect
  go Safe.see _
  split
  · exact Safe.pure trivial
  · go Safe.bisectMaxes (hE.cmp .lt) right v (by assumption)
    go Safe.see _
    split
    · exact Safe.mono (Safe.see _) fun _ _ _ => trivial
    · go Safe.sublist _
      go Safe.SL_bisectCell hE _ _ _ (by assumption)
      exact Safe.loc _ _ _ (by assumption)

theorem Safe.SL_count (hE : B.Suits E) (v : α) (hs : B.Holds s) : B.Safe (fun _ _ => True) s (SL.count E v) := by
  unfold SL.count
  go Safe.see _
  split
  · exact Safe.pure trivial
  · go Safe.bisectMaxes (hE.cmp .lt) false v (by assumption)
    go Safe.see _
    split
    · exact Safe.pure trivial
    · go Safe.sublist _
      go Safe.SL_bisectCell hE _ _ _ (by assumption)
      go Safe.bisectMaxes (hE.cmp .lt) true v (by assumption)
      go Safe.see _
      split
      · go Safe.see _
        go Safe.loc _ _ _ (by assumption)
        exact Safe.pure trivial
      · go Safe.sublist _
        go Safe.SL_bisectCell hE _ _ _ (by assumption)
        split
        · exact Safe.pure trivial
        · go Safe.loc _ _ _ (by assumption)
          go Safe.loc _ _ _ (by assumption)
          exact Safe.pure trivial

theorem Safe.SL_delSlice (hE : B.Suits E) (hg : ¬ B.grow) (fuel : Nat) (sl : PySlice) (hs : B.Holds s) : B.Safe (fun _ _ => True) s (SL.delSlice E fuel sl) :=
  Safe.delSliceWith _ (fun _ ht => Safe.SL_clear hg ht) (fun _ hv _ ht => Safe.SL_update hE hg fuel hv ht) (fun _ _ ht => Safe.SL_delInt hg fuel _ ht) sl hs

theorem Safe.SL_irange (hE : B.Suits E) (lo hi : Option α) (incMin incMax rev : Bool) (hs : B.Holds s) : B.Safe (fun _ l => ∀ v ∈ l, B.val v) s (SL.irange E lo hi incMin incMax rev) := by
  refine Safe.irangeWith (hE.cmp .lt) (fun r p x t ht => ?_) (fun p t ht => ?_) lo hi incMin incMax rev hs
  · go Safe.sublist _
    exact Safe.SL_bisectCell hE _ _ _ (by assumption)
  · go Safe.sublist _
    exact (Safe.see _).any

theorem Safe.SL_index (hE : B.Suits E) (v : α) (i j : Option Int) (hs : B.Holds s) : B.Safe (fun _ _ => True) s (SL.index E v i j) := by
  unfold SL.index
  go Safe.see _
  split
  · exact Safe.raise B.value
  · simp only
    split
    · exact Safe.raise B.value
    · go Safe.bisectMaxes (hE.cmp .lt) false v (by assumption)
      go Safe.see _
      split
      · exact Safe.raise B.value
      · go Safe.sublist _
        go Safe.SL_bisectCell hE _ _ _ (by assumption)
        go Safe.sublist _
        go Safe.entry _ _
        go Safe.lift (Q := fun _ _ => True) (hE.cmp _ _ _) fun _ _ => trivial
        split
        · exact Safe.raise B.value
        · go Safe.loc _ _ _ (by assumption)
          split
          · split
            · exact Safe.pure trivial
            · exact Safe.raise B.value
          · go Safe.SL_bisect hE _ _ (by assumption)
            split
            · exact Safe.pure trivial
            · exact Safe.raise B.value

end SL
section SKL
variable {B : Bounds α κ} {K : KEnv α κ} {s : Shared α κ}

theorem Safe.SKL_bisectCell (hE : B.KSuits K) (right : Bool) (a : Nat) (x : κ) (hs : B.Holds s) : B.Safe (fun _ _ => True) s (SKL.bisectCell K right a x) := by
  unfold SKL.bisectCell
  go Safe.see _
  exact Safe.bisectLoop (hE.kcmp .lt) right (fun t => t.kcell a) x _ _ _ (by assumption)

theorem Safe.SKL_expand (fuel : Nat) (pos : Int) (hp : B.grow → 0 ≤ pos) (hs : B.Holds s) : B.Safe (fun _ _ => True) s (SKL.expand fuel pos : Run α κ Unit) := by
  unfold SKL.expand
  go Safe.subkeys _
  go Safe.see _
  go Safe.see _
  split
  · go Safe.see _
    go Safe.sublist _
    go Safe.subkeys _
    go Safe.alloc fun t ht v hv => ht.cell _ v (List.mem_of_mem_drop hv)
    go Safe.kalloc _
    go Safe.alter _ fun l hl v hv => hl v (List.mem_of_mem_take hv)
    go Safe.kalter _ _
    go Safe.kentry _ _
    go Safe.setMax _ _
    go Safe.other (fun _ => rfl) (fun _ => rfl) (fun _ => id)
    go Safe.other (fun _ => rfl) (fun _ => rfl) (fun _ => id)
    go Safe.kentry _ _
    go Safe.other (fun _ => rfl) (fun _ => rfl) (fun _ _ => insert_ne)
    exact Safe.dropIndex
  · exact Safe.touchUp fuel pos hp (by assumption)

theorem Safe.SKL_add (hE : B.KSuits K) (fuel : Nat) {v : α} (hv : B.val v) (hs : B.Holds s) : B.Safe (fun _ _ => True) s (SKL.add K fuel v) := by
  have one : ∀ l : List α, (∀ w ∈ l, B.val w) → ∀ w ∈ l ++ [v], B.val w := by
    intro l hl w hw
    rcases List.mem_append.1 hw with h | h
    · exact hl w h
    · simp only [List.mem_singleton] at h; exact h ▸ hv
  unfold SKL.add
  go Safe.lift (Q := fun _ _ => True) (hE.key _) fun _ _ => trivial
  refine Safe.bind (by assumption) (Safe.see _) fun t m r ht hm => ?_
  obtain ⟨-, rfl⟩ := hm
  split
  · go Safe.alloc fun _ _ w hw => by simp only [List.mem_singleton] at hw; exact hw ▸ hv
    go Safe.other (fun _ => rfl) (fun _ => rfl) (fun _ => id)
    go Safe.kalloc _
    go Safe.other (fun _ => rfl) (fun _ => rfl) (fun _ => id)
    go Safe.other (fun _ => rfl) (fun _ => rfl) (fun _ _ => by simp)
    exact Safe.addLen _ (by assumption)
  · rename_i hne
    refine Safe.bind ht (Safe.bisectMaxes (hE.kcmp .lt) true _ ht) fun t2 p r2 ht2 _ => ?_
    refine Safe.bind ht2 (Safe.see _) fun t3 n r3 ht3 hn => ?_
    obtain ⟨-, rfl⟩ := hn
    split
    · rename_i hpn
      have hp : B.grow → 0 ≤ (p : Int) - 1 := fun g => by
        have := r3.2 g (r2.2 g hne)
        have := List.length_pos_iff.2 this
        omega
      simp only
      go Safe.sublist _
      go Safe.alter _ one
      go Safe.subkeys _
      go Safe.kalter _ _
      go Safe.setMax _ _
      go Safe.SKL_expand fuel _ hp (by assumption)
      exact Safe.addLen _ (by assumption)
    · go Safe.subkeys _
      go Safe.SKL_bisectCell hE true _ _ (by assumption)
      go Safe.sublist _
      go Safe.alter _ fun l hl w hw => by
        rcases insert_mem hw with h | h
        · exact h ▸ hv
        · exact hl w h
      go Safe.subkeys _
      go Safe.kalter _ _
      go Safe.SKL_expand fuel _ (fun _ => by omega) (by assumption)
      exact Safe.addLen _ (by assumption)

theorem Safe.SKL_clear (hg : ¬ B.grow) (hs : B.Holds s) : B.Safe (fun _ _ => True) s (SKL.clear : Run α κ Unit) := by
  unfold SKL.clear
  go Safe.other (fun _ => rfl) (fun _ => rfl) (fun _ => id)
  go Safe.other (fun _ => rfl) (fun _ => rfl) (fun _ => id)
  go Safe.other (fun _ => rfl) (fun _ => rfl) (fun _ => id)
  go Safe.assign fun t ht => ⟨ht, fun g => absurd g hg⟩
  exact Safe.dropIndex

theorem Safe.SKL_mapKeys (hE : B.KSuits K) (hg : ¬ B.grow) (a fuel i : Nat) (acc : List κ) (hs : B.Holds s) :
    B.Safe (fun _ _ => True) s (SKL.mapKeys K a fuel i acc) := by
  induction fuel generalizing s i acc with
  | zero => exact hg
  | succ fuel ih =>
    unfold SKL.mapKeys
    go Safe.see _
    split
    · exact Safe.pure trivial
    · go Safe.lift (Q := fun _ _ => True) (hE.key _) fun _ _ => trivial
      exact ih _ _ (by assumption)

theorem Safe.SKL_addKeys (hE : B.KSuits K) (hg : ¬ B.grow) (fuel i : Nat) (hs : B.Holds s) : B.Safe (fun _ _ => True) s (SKL.addKeys K fuel i) := by
  induction fuel generalizing s i with
  | zero => exact hg
  | succ fuel ih =>
    unfold SKL.addKeys
    go Safe.see _
    split
    · exact Safe.pure trivial
    · go Safe.SKL_mapKeys hE hg _ _ _ _ (by assumption)
      go Safe.kalloc _
      go Safe.other (fun _ => rfl) (fun _ => rfl) (fun _ => id)
      exact ih _ (by assumption)

theorem Safe.SKL_addMaxes (hg : ¬ B.grow) (fuel i : Nat) (hs : B.Holds s) : B.Safe (fun _ _ => True) s (SKL.addMaxes fuel i : Run α κ Unit) := by
  induction fuel generalizing s i with
  | zero => exact hg
  | succ fuel ih =>
    unfold SKL.addMaxes
    go Safe.see _
    split
    · exact Safe.pure trivial
    · go Safe.kentry _ _
      go Safe.other (fun _ => rfl) (fun _ => rfl) (fun _ _ => by simp)
      exact ih _ (by assumption)

theorem Safe.SKL_fill (hE : B.KSuits K) (hg : ¬ B.grow) (fuel : Nat) {values : List α} (hv : ∀ v ∈ values, B.val v) (hs : B.Holds s) :
    B.Safe (fun _ _ => True) s (SKL.fill K fuel values) := by
  unfold SKL.fill
  go Safe.see _
  go Safe.lift (Q := fun _ cs => ∀ c ∈ cs, ∀ v ∈ c, B.val v) (fun e h => chunks_err h ▸ B.value) fun cs h c hc v hvc => hv v (chunks_mem h c hc v hvc)
  go Safe.addLists (by assumption) (by assumption)
  go Safe.SKL_addKeys hE hg _ _ (by assumption)
  go Safe.SKL_addMaxes hg _ _ (by assumption)
  go Safe.other (fun _ => rfl) (fun _ => rfl) (fun _ => id)
  exact Safe.dropIndex

theorem Safe.SKL_update (hE : B.KSuits K) (hg : ¬ B.grow) (fuel : Nat) {xs : List α} (hv : ∀ v ∈ xs, B.val v) (hs : B.Holds s) :
    B.Safe (fun _ _ => True) s (SKL.update K fuel xs) := by
  unfold SKL.update
  refine Safe.bind hs (Safe.lift (Q := fun _ ys => ∀ v ∈ ys, B.val v) (hE.sortErr xs) fun ys h => hE.sortMem _ _ h hv) fun t ys _ ht hys => ?_
  go Safe.see _
  split
  · exact Safe.SKL_fill hE hg fuel hys (by assumption)
  · go Safe.see _
    split
    · go Safe.alloc fun _ _ => hys
      go Safe.other (fun _ => rfl) (fun _ => rfl) (fun _ => id)
      refine Safe.bind (by assumption) Safe.toList fun _ all _ _ hall => ?_
      refine Safe.bind (by assumption) (Safe.lift (Q := fun _ ys => ∀ v ∈ ys, B.val v) (hE.sortErr all) fun ys h => hE.sortMem _ _ h hall) fun t ys _ ht hys => ?_
      go Safe.SKL_clear hg (by assumption)
      exact Safe.SKL_fill hE hg fuel hys (by assumption)
    · exact Safe.forEach (fun v hv t ht => Safe.SKL_add hE fuel (hys v hv) ht) (by assumption)

theorem Safe.SKL_delete (hg : ¬ B.grow) (fuel : Nat) (pos idx : Int) (hs : B.Holds s) : B.Safe (fun _ _ => True) s (SKL.delete fuel pos idx : Run α κ Unit) := by
  unfold SKL.delete
  go Safe.subkeys _
  go Safe.sublist _
  go Safe.kerase _ _
  go Safe.erase _ _
  go Safe.addLen _ (by assumption)
  go Safe.see _
  go Safe.see _
  split
  · go Safe.kentry _ _
    go Safe.setMax _ _
    exact Safe.touchDown _ (by assumption)
  · go Safe.see _
    split
    · simp only
      go Safe.subkeys _
      go Safe.subkeys _
      go Safe.other (fun _ => rfl) (fun _ => rfl) (fun _ => id)
      go Safe.sublist _
      go Safe.sublist _
      go Safe.assign fun t ht => ht.put _ fun v hv => by
        rcases List.mem_append.1 hv with h | h
        · exact ht.cell _ v h
        · exact ht.cell _ v h
      go Safe.subkeys _
      go Safe.kentry _ _
      go Safe.setMax _ _
      go Safe.dropList _
      go Safe.dropKeys _
      go Safe.dropMax hg _
      go Safe.dropIndex
      exact Safe.SKL_expand fuel _ (fun g => absurd g hg) (by assumption)
    · split
      · go Safe.kentry _ _
        exact Safe.setMax _ _
      · go Safe.dropList _
        go Safe.dropKeys _
        go Safe.dropMax hg _
        exact Safe.dropIndex

theorem Safe.SKL_find (hE : B.KSuits K) (hg : ¬ B.grow) (key : κ) (v : α) (n fuel pos idx m : Nat) (hs : B.Holds s) :
    B.Safe (fun _ _ => True) s (SKL.find K key v n fuel pos idx m) := by
  induction fuel generalizing s pos idx m with
  | zero => exact hg
  | succ fuel ih =>
    unfold SKL.find
    go Safe.subkeys _
    go Safe.kentry _ _
    go Safe.lift (Q := fun _ _ => True) (hE.kcmp _ _ _) fun _ _ => trivial
    split
    · exact Safe.pure trivial
    · go Safe.sublist _
      go Safe.entry _ _
      go Safe.lift (Q := fun _ _ => True) (hE.vcmp _ _) fun _ _ => trivial
      split
      · exact Safe.pure trivial
      · split
        · split
          · exact Safe.pure trivial
          · go Safe.subkeys _
            go Safe.see _
            exact ih _ _ _ (by assumption)
        · exact ih _ _ _ (by assumption)

theorem Safe.SKL_search (hE : B.KSuits K) (hg : ¬ B.grow) (fuel : Nat) (v : α) (hs : B.Holds s) : B.Safe (fun _ _ => True) s (SKL.search K fuel v) := by
  unfold SKL.search
  go Safe.see _
  split
  · exact Safe.pure trivial
  · go Safe.lift (Q := fun _ _ => True) (hE.key _) fun _ _ => trivial
    go Safe.bisectMaxes (hE.kcmp .lt) false _ (by assumption)
    go Safe.see _
    split
    · exact Safe.pure trivial
    · go Safe.subkeys _
      go Safe.SKL_bisectCell hE _ _ _ (by assumption)
      go Safe.see _
      go Safe.subkeys _
      go Safe.see _
      exact Safe.SKL_find hE hg _ _ _ _ _ _ _ (by assumption)

theorem Safe.SKL_contains (hE : B.KSuits K) (hg : ¬ B.grow) (fuel : Nat) (v : α) (hs : B.Holds s) : B.Safe (fun _ _ => True) s (SKL.contains K fuel v) := by
  unfold SKL.contains
  go Safe.SKL_search hE hg fuel v (by assumption)
  split
  · exact Safe.pure trivial
  · exact Safe.pure trivial

theorem Safe.SKL_discard (hE : B.KSuits K) (hg : ¬ B.grow) (fuel : Nat) (v : α) (hs : B.Holds s) : B.Safe (fun _ _ => True) s (SKL.discard K fuel v) := by
  unfold SKL.discard
  go Safe.SKL_search hE hg fuel v (by assumption)
  split
  · exact Safe.SKL_delete hg fuel _ _ (by assumption)
  · exact Safe.pure trivial

theorem Safe.SKL_remove (hE : B.KSuits K) (hg : ¬ B.grow) (fuel : Nat) (v : α) (hs : B.Holds s) : B.Safe (fun _ _ => True) s (SKL.remove K fuel v) := by
  unfold SKL.remove
  go Safe.SKL_search hE hg fuel v (by assumption)
  split
  · exact Safe.SKL_delete hg fuel _ _ (by assumption)
  · exact Safe.raise B.value

theorem Safe.SKL_delInt (hg : ¬ B.grow) (fuel : Nat) (i : Int) (hs : B.Holds s) : B.Safe (fun _ _ => True) s (SKL.delInt K fuel i) := by
  unfold SKL.delInt
  go Safe.pos _ _ (by assumption)
  exact Safe.SKL_delete hg fuel _ _ (by assumption)

theorem Safe.SKL_take (hg : ¬ B.grow) (fuel : Nat) (p i : Int) (hs : B.Holds s) : B.Safe (fun _ x => B.val x) s (SKL.take fuel p i : Run α κ α) := by
  unfold SKL.take
  go Safe.sublist _
  refine Safe.bind (by assumption) (Safe.entry _ _) fun _ x _ _ hx => ?_
  go Safe.SKL_delete hg fuel _ _ (by assumption)
  exact Safe.pure hx

theorem Safe.SKL_popFar (hg : ¬ B.grow) (fuel : Nat) (i : Int) (hs : B.Holds s) : B.Safe (fun _ x => B.val x) s (SKL.popFar K fuel i) := by
  unfold SKL.popFar
  go Safe.sublist _
  go Safe.see _
  split
  · go Safe.see _
    exact Safe.SKL_take hg fuel _ _ (by assumption)
  · go Safe.pos _ _ (by assumption)
    exact Safe.SKL_take hg fuel _ _ (by assumption)

theorem Safe.SKL_pop (hg : ¬ B.grow) (fuel : Nat) (i : Int) (hs : B.Holds s) : B.Safe (fun _ x => B.val x) s (SKL.pop K fuel i) := by
  unfold SKL.pop
  go Safe.see _
  split
  · exact Safe.raise B.index
  · split
    · exact Safe.SKL_take hg fuel _ _ (by assumption)
    · split
      · go Safe.see _
        go Safe.sublist _
        go Safe.see _
        exact Safe.SKL_take hg fuel _ _ (by assumption)
      · split
        · go Safe.sublist _
          go Safe.see _
          split
          · exact Safe.SKL_take hg fuel _ _ (by assumption)
          · exact Safe.SKL_popFar hg fuel i (by assumption)
        · exact Safe.SKL_popFar hg fuel i (by assumption)

theorem Safe.SKL_bisectKey (hE : B.KSuits K) (right : Bool) (k : κ) (hs : B.Holds s) : B.Safe (fun _ _ => True) s (SKL.bisectKey K right k) := by
  unfold SKL.bisectKey
  go Safe.see _
  split
  · exact Safe.pure trivial
  · go Safe.bisectMaxes (hE.kcmp .lt) right _ (by assumption)
    go Safe.see _
    split
    · exact Safe.mono (Safe.see _) fun _ _ _ => trivial
    · go Safe.subkeys _
      go Safe.SKL_bisectCell hE _ _ _ (by assumption)
      exact Safe.loc _ _ _ (by assumption)

theorem Safe.SKL_bisect (hE : B.KSuits K) (right : Bool) (v : α) (hs : B.Holds s) : B.Safe (fun _ _ => True) s (SKL.bisect K right v) := by
  unfold SKL.bisect
  go Safe.lift (Q := fun _ _ => True) (hE.key _) fun _ _ => trivial
  exact Safe.SKL_bisectKey hE right _ (by assumption)

theorem Safe.SKL_countLoop (hE : B.KSuits K) (hg : ¬ B.grow) (key : κ) (v : α) (n fuel pos idx m : Nat) (total : Int) (hs : B.Holds s) :
    B.Safe (fun _ _ => True) s (SKL.countLoop K key v n fuel pos idx m total) := by
  induction fuel generalizing s pos idx m total with
  | zero => exact hg
  | succ fuel ih =>
    unfold SKL.countLoop
    go Safe.subkeys _
    go Safe.kentry _ _
    go Safe.lift (Q := fun _ _ => True) (hE.kcmp _ _ _) fun _ _ => trivial
    split
    · exact Safe.pure trivial
    · go Safe.sublist _
      go Safe.entry _ _
      go Safe.lift (Q := fun _ _ => True) (hE.vcmp _ _) fun _ _ => trivial
      simp only
      split
      · split
        · exact Safe.pure trivial
        · go Safe.subkeys _
          go Safe.see _
          exact ih _ _ _ _ (by assumption)
      · exact ih _ _ _ _ (by assumption)

theorem Safe.SKL_count (hE : B.KSuits K) (hg : ¬ B.grow) (fuel : Nat) (v : α) (hs : B.Holds s) : B.Safe (fun _ _ => True) s (SKL.count K fuel v) := by
  unfold SKL.count
  go Safe.see _
  split
  · exact Safe.pure trivial
  · go Safe.lift (Q := fun _ _ => True) (hE.key _) fun _ _ => trivial
    go Safe.bisectMaxes (hE.kcmp .lt) false _ (by assumption)
    go Safe.see _
    split
    · exact Safe.pure trivial
    · go Safe.subkeys _
      go Safe.SKL_bisectCell hE _ _ _ (by assumption)
      go Safe.see _
      go Safe.subkeys _
      go Safe.see _
      exact Safe.SKL_countLoop hE hg _ _ _ _ _ _ _ _ (by assumption)

theorem Safe.SKL_delSlice (hE : B.KSuits K) (hg : ¬ B.grow) (fuel : Nat) (sl : PySlice) (hs : B.Holds s) : B.Safe (fun _ _ => True) s (SKL.delSlice K fuel sl) :=
  Safe.delSliceWith _ (fun _ ht => Safe.SKL_clear hg ht) (fun _ hv _ ht => Safe.SKL_update hE hg fuel hv ht) (fun _ _ ht => Safe.SKL_delInt hg fuel _ ht) sl hs

theorem Safe.SKL_irangeKey (hE : B.KSuits K) (lo hi : Option κ) (incMin incMax rev : Bool) (hs : B.Holds s) : B.Safe (fun _ l => ∀ v ∈ l, B.val v) s (SKL.irangeKey K lo hi incMin incMax rev) := by
  refine Safe.irangeWith (hE.kcmp .lt) (fun r p x t ht => ?_) (fun p t ht => ?_) lo hi incMin incMax rev hs
  · go Safe.subkeys _
    exact Safe.SKL_bisectCell hE _ _ _ (by assumption)
  · go Safe.subkeys _
    exact (Safe.see _).any

theorem keyOpt_err (hE : B.KSuits K) {v : Option α} {e : PyErr} (h : Verif.SKL.keyOpt K v = .error e) : B.err e := by
  cases v with
  | none => cases h
  | some v =>
    cases hk : K.key v with
    | error e' => simp only [Verif.SKL.keyOpt, hk] at h; cases h; exact hE.key v _ hk
    | ok k => simp only [Verif.SKL.keyOpt, hk] at h; cases h

theorem Safe.SKL_irange (hE : B.KSuits K) (lo hi : Option α) (incMin incMax rev : Bool) (hs : B.Holds s) : B.Safe (fun _ l => ∀ v ∈ l, B.val v) s (SKL.irange K lo hi incMin incMax rev) := by
  unfold SKL.irange
  go Safe.lift (Q := fun _ _ => True) (fun _ h => keyOpt_err hE h) fun _ _ => trivial
  go Safe.lift (Q := fun _ _ => True) (fun _ h => keyOpt_err hE h) fun _ _ => trivial
  exact Safe.SKL_irangeKey hE _ _ _ _ _ (by assumption)

theorem Safe.SKL_indexHit (ilog2 : Nat → Nat) (i j : Int) (p k : Nat) (eq : Bool) (hs : B.Holds s) : B.Safe (fun _ _ => True) s (SKL.indexHit ilog2 i j p k eq : Run α κ (Option Int)) := by
  unfold SKL.indexHit
  split
  · go Safe.loc _ _ _ (by assumption)
    split
    · exact Safe.pure trivial
    · split
      · exact Safe.raise B.value
      · exact Safe.pure trivial
  · exact Safe.pure trivial

theorem Safe.SKL_indexLoop (hE : B.KSuits K) (hg : ¬ B.grow) (key : κ) (v : α) (i j : Int) (n fuel pos idx m : Nat) (hs : B.Holds s) :
    B.Safe (fun _ _ => True) s (SKL.indexLoop K key v i j n fuel pos idx m) := by
  induction fuel generalizing s pos idx m with
  | zero => exact hg
  | succ fuel ih =>
    unfold SKL.indexLoop
    go Safe.subkeys _
    go Safe.kentry _ _
    go Safe.lift (Q := fun _ _ => True) (hE.kcmp _ _ _) fun _ _ => trivial
    split
    · exact Safe.raise B.value
    · go Safe.sublist _
      go Safe.entry _ _
      go Safe.lift (Q := fun _ _ => True) (hE.vcmp _ _) fun _ _ => trivial
      go Safe.SKL_indexHit _ _ _ _ _ _ (by assumption)
      split
      · exact Safe.pure trivial
      · split
        · split
          · exact Safe.raise B.value
          · go Safe.subkeys _
            go Safe.see _
            exact ih _ _ _ (by assumption)
        · exact ih _ _ _ (by assumption)

theorem Safe.SKL_index (hE : B.KSuits K) (hg : ¬ B.grow) (fuel : Nat) (v : α) (i j : Option Int) (hs : B.Holds s) : B.Safe (fun _ _ => True) s (SKL.index K fuel v i j) := by
  unfold SKL.index
  go Safe.see _
  split
  · exact Safe.raise B.value
  · simp only
    split
    · exact Safe.raise B.value
    · go Safe.lift (Q := fun _ _ => True) (hE.key _) fun _ _ => trivial
      go Safe.bisectMaxes (hE.kcmp .lt) false _ (by assumption)
      go Safe.see _
      split
      · exact Safe.raise B.value
      · go Safe.subkeys _
        go Safe.SKL_bisectCell hE _ _ _ (by assumption)
        go Safe.see _
        go Safe.subkeys _
        go Safe.see _
        exact Safe.SKL_indexLoop hE hg _ _ _ _ _ _ _ _ _ (by assumption)

end SKL
end Bounds
end Verif.Race
