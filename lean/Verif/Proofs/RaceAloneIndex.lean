import Verif.Proofs.RaceAloneSlices
import Verif.Proofs.RaceAloneSKL
/-!
`index` and the deletion of slices, run alone: the same steps as the methods of the sequential model (continued from `RaceAloneSlices`).
-/
namespace Verif
namespace Race
namespace Agrees

section SL
variable {α : Type} {E : Env α} {lt : α → α → Bool} {s : Shared α α} {t : St α α}

private theorem SL_bisect_right' (v : α) (hM : Mirrors s t) (hne : t.lists ≠ []) : Agrees Int.ofNat (Race.SL.bisect E true v) s (Verif.SL.bisect_right E v) t := by
  unfold Race.SL.bisect Verif.SL.bisect_right
  refine see (get (ite (by rw [hM.maxes]) (fun _ => pure hM rfl) fun hn => ?_))
  refine reads' (by rw [alone_bisectMaxes, hM.maxes]; rfl) hM fun p _ => see (ite (by rw [hM.maxes]) (fun _ => .inr ⟨s, by rw [alone_see, hM.len]; rfl, hM⟩) fun _ => ?_)
  exact sublist hM fun a ha => reads' (by rw [alone_SL_bisectCell]; rfl) hM fun i _ => loc _ _ _ hM hne

theorem SL_index (v : α) (start stop : Option Int) (hM : Mirrors s t) (h : Inv id lt false t) : Agrees id (Race.SL.index E v start stop) s (Verif.SL.index E v start stop) t := by
  unfold Race.SL.index Verif.SL.index
  refine see (get ?_)
  rw [hM.len]
  refine ite (by omega) (fun _ => raise hM) fun h0 => ?_
  have hne := h.lists_ne_nil (by omega)
  refine ite Iff.rfl (fun _ => raise hM) fun _ => ?_
  refine reads' (by rw [alone_bisectMaxes, hM.maxes]; rfl) hM fun p _ => see (ite (by rw [hM.maxes]) (fun _ => raise hM) fun _ => ?_)
  refine sublist hM fun a ha => reads' (by rw [alone_SL_bisectCell]; rfl) hM fun i _ => ?_
  refine again ha (entry rfl hM fun x _ => lift hM fun b _ => ite Iff.rfl (fun _ => raise hM) fun _ => ?_)
  refine (loc _ _ _ hM hne).bind fun c s' t' e _ hM' => ?_
  have hr : Reindexed t t' := by have := (Core.loc_quiet E.ilog2 p i).reindexed t; rwa [e] at this
  refine ite Iff.rfl (fun _ => ite Iff.rfl (fun _ => pure hM' rfl) fun _ => raise hM') fun _ => ?_
  refine (SL_bisect_right' v hM' (hr.lists ▸ hne)).bind fun r s'' t'' _ _ hM'' => ?_
  exact ite Iff.rfl (fun _ => pure hM'' rfl) fun _ => raise hM''

end SL

section SKL
variable {α κ : Type} {K : KEnv α κ} {s : Shared α κ} {t : St α κ}

theorem assoc {β γ δ ε : Type} {g : ε → δ} {m : Run α κ β} {k : β → Run α κ γ} {k' : γ → Run α κ δ} {p : Py (St α κ) ε} (h : Agrees g (m >>= fun b => k b >>= k') s p t) :
    Agrees g (m >>= k >>= k') s p t := by
  have e : (m >>= k >>= k').alone s = (m >>= fun b => k b >>= k').alone s := by
    simp only [Task.alone_bind']
    rcases m.alone s with _ | ⟨_ | _, _⟩ <;> simp only [Task.alone_bind']
  unfold Agrees at *
  rwa [e]

theorem SKL_indexLoop (key : κ) (v : α) (start stop : Int) {L : List (List α)} {ks : List (List κ)} (hL : L ≠ []) : ∀ (fuel pos idx n : Nat) (s : Shared α κ) (t : St α κ), Mirrors s t → t.lists = L → t.keys = ks → ahead ks pos idx < fuel →
    Agrees id (Race.SKL.indexLoop K key v start stop ks.length fuel pos idx n) s (Verif.SKL.indexLoop K L ks v key start stop pos idx n) t := by
  intro fuel
  induction fuel with
  | zero => intro _ _ _ _ _ _ _ _ h; omega
  | succ fuel ih =>
    intro pos idx n s t hM hl hk h
    subst hl hk
    rw [Verif.SKL.indexLoop]
    split
    · rename_i e e1
      rw [Race.SKL.indexLoop]
      obtain ⟨e', f1, f2⟩ | ⟨b, f1, f2⟩ := alone_subkeys hM pos
      · rw [e1] at f1; cases f1
        exact .inr ⟨s, by rw [alone_err f2]; rfl, hM⟩
      · rw [e1] at f1; cases f1
    rename_i ks e1
    obtain ⟨e', f1, f2⟩ | ⟨b, f1, f2⟩ := alone_subkeys hM pos
    · rw [e1] at f1; cases f1
    rw [e1] at f1; cases f1
    split
    · rename_i h'; exact .inr ⟨s, by rw [Race.SKL.indexLoop, alone_ok f2, alone_err (by rw [alone_kentry, h'])]; rfl, hM⟩
    rename_i k h'
    rw [Race.SKL.indexLoop]
    refine left f2 (left (by rw [alone_kentry, h']) ?_)
    cases K.kcmp .ne k key with
    | error e => exact .inr ⟨s, rfl, hM⟩
    | ok ne =>
    refine left (Task.alone_lift _ _) ?_
    cases ne with
    | true => exact raise hM
    | false =>
    rw [if_neg (by simp)]
    obtain ⟨e, l1, l2⟩ | ⟨a, l1, l2⟩ := alone_sublist hM pos
    · rw [l1]; exact .inr ⟨s, by rw [alone_err l2]; rfl, hM⟩
    rw [l1]
    refine left l2 ?_
    dsimp only
    cases hx : getItem (s.cell a) idx with
    | error e => exact .inr ⟨s, by rw [alone_err (by rw [alone_entry (by omega), Int.toNat_natCast, hx])]; rfl, hM⟩
    | ok x =>
    refine left (by rw [alone_entry (by omega), Int.toNat_natCast, hx]) ?_
    dsimp only
    cases K.vcmp .eq x v with
    | error e => exact .inr ⟨s, rfl, hM⟩
    | ok eq =>
    refine left (Task.alone_lift _ _) ?_
    dsimp only
    have next : ∀ (s' : Shared α κ) (t' : St α κ), Mirrors s' t' → t'.lists = t.lists → t'.keys = t.keys → Agrees id
        (if idx + 1 = n then
          if pos + 1 = t.keys.length then Task.raise .valueError
          else do
            let b ← Race.subkeys (pos + 1 : Nat)
            let m ← Race.see fun s => (s.kcell b).length
            Race.SKL.indexLoop K key v start stop t.keys.length fuel (pos + 1) 0 m
        else Race.SKL.indexLoop K key v start stop t.keys.length fuel pos (idx + 1) n) s'
        (if idx + 1 = n then
          if pos + 1 = t.keys.length then Py.raise .valueError
          else
            match getItem t.keys (pos + 1) with
            | .error e => Py.raise e
            | .ok ks' => Verif.SKL.indexLoop K t.lists t.keys v key start stop (pos + 1) 0 ks'.length
        else Verif.SKL.indexLoop K t.lists t.keys v key start stop pos (idx + 1) n) t' := by
      intro s' t' hM' hl hk
      refine ite Iff.rfl (fun _ => ite Iff.rfl (fun _ => raise hM') fun _ => ?_) fun _ => ih _ _ _ _ _ hM' hl hk (by have := ahead_here e1 h'; omega)
      obtain ⟨e, k1, k2⟩ | ⟨c, k1, k2⟩ := alone_subkeys hM' (pos + 1)
      · rw [hk] at k1
        rw [k1]; exact .inr ⟨s', by rw [alone_err k2]; rfl, hM'⟩
      · rw [hk] at k1
        rw [k1]
        refine left k2 (see ?_)
        exact ih _ _ _ _ _ hM' hl hk (by have := ahead_next e1 h'; omega)
    cases eq with
    | false => exact left (b := none) (s' := s) rfl (next s t hM rfl rfl)
    | true =>
      rw [Race.SKL.indexHit, if_pos rfl]
      refine assoc ?_
      refine (loc _ _ _ hM hL).bind fun c s' t' e _ hM' => ?_
      have hr : Reindexed t t' := by have := (Core.loc_quiet K.ilog2 pos idx).reindexed t; rwa [e] at this
      have hk : t'.keys = t.keys := by obtain ⟨i, o, rfl⟩ := hr; rfl
      by_cases c1 : start ≤ (c : Int) ∧ (c : Int) ≤ stop
      · rw [if_pos (show start ≤ Int.ofNat c ∧ Int.ofNat c ≤ stop from c1), if_pos c1]
        exact .inr ⟨s', rfl, hM'⟩
      · rw [if_neg (show ¬(start ≤ Int.ofNat c ∧ Int.ofNat c ≤ stop) from c1), if_neg c1]
        by_cases c2 : (c : Int) > stop
        · rw [if_pos (show Int.ofNat c > stop from c2), if_pos c2]
          exact .inr ⟨s', rfl, hM'⟩
        · rw [if_neg (show ¬Int.ofNat c > stop from c2), if_neg c2]
          exact left (b := none) (s' := s') rfl (next s' t' hM' hr.lists hk)

theorem SKL_index {fuel : Nat} (v : α) (start stop : Option Int) (hM : Mirrors s t) (hne : t.len ≠ 0 → t.lists ≠ []) (hf : t.keys.flatten.length < fuel) :
    Agrees id (Race.SKL.index K fuel v start stop) s (Verif.SKL.index K v start stop) t := by
  unfold Race.SKL.index Verif.SKL.index
  refine see (get ?_)
  rw [hM.len]
  refine ite (by omega) (fun _ => raise hM) fun h0 => ?_
  refine ite Iff.rfl (fun _ => raise hM) fun _ => lift hM fun key _ => ?_
  refine reads' (by rw [alone_bisectMaxes, hM.maxes]; rfl) hM fun p _ => see (ite (by rw [hM.maxes]) (fun _ => raise hM) fun _ => ?_)
  refine subkeys hM fun a ha => reads' (by rw [alone_SKL_bisectCell]; rfl) hM fun i _ => ?_
  refine see (kagain ha (see ?_))
  rw [← hM.keys_length]
  exact SKL_indexLoop key v _ _ (hne (by omega)) fuel p i _ s t hM rfl rfl (Nat.lt_of_le_of_lt (ahead_le _ _ _) hf)

theorem SKL_delSlice {key : α → κ} {klt : κ → κ → Bool} {veq : α → α → Bool} (hK : K.Lawful key klt veq) {fuel : Nat} (sl : PySlice) (hM : Mirrors s t) (h : Inv key klt true t) (hf : (Core.iter t).length < fuel - 1) :
    Agrees id (Race.SKL.delSlice K fuel sl) s (Core.delSlice (Verif.SKL.methods K) sl) t :=
  delSlice (fuel := fuel - 1) (Verif.SKL.methods_ok (cmp := K.vcmp) hK) (fun _ _ hM => SKL_clear hM) (fun _ _ _ hM h hf => SKL_update hK hM h (by omega)) (fun _ _ i hM h => SKL_delInt hK fuel i hM h) sl hM h hf

end SKL

end Agrees
end Race
end Verif
