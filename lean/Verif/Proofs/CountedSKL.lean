import Verif.Proofs.CountedSL
/-!
# SortedKeyList: the metered methods
-/

namespace Verif
namespace SKL
variable {α κ : Type} {K : KEnv α κ} {key : α → κ} {klt : κ → κ → Bool} {veq : α → α → Bool} {s : St α κ} {u : Nat}

theorem key_getItem (h : Inv key klt true s) {p : Nat} {ks : List κ} (hk : getItem s.keys p = .ok ks) :
    ∃ l, getItem s.lists p = .ok l ∧ ks = l.map key := by
  rw [getItem_ok_iff, h.keys_eq rfl, List.getElem?_map] at hk
  cases hl : s.lists[p]? with
  | none => rw [hl] at hk; cases hk
  | some l => rw [hl] at hk; cases hk; exact ⟨l, getItem_ok_iff.2 hl, rfl⟩

theorem Within.keys (h : Inv key klt true s) (hu : Within s u) {p : Nat} {ks : List κ} (hk : getItem s.keys p = .ok ks) :
    bits ks.length ≤ u := by
  obtain ⟨l, hl, rfl⟩ := key_getItem h hk
  rw [List.length_map]
  exact hu l (mem_of_getItem hl)

theorem lt_of_key (h : Inv key klt true s) {p : Nat} {ks : List κ} (hk : getItem s.keys p = .ok ks) : p < s.lists.length := by
  obtain ⟨l, hl, rfl⟩ := key_getItem h hk
  exact lt_of_getItem hl

theorem expand_counts (b p M : Nat) (h : s.index ≠ [] → p + s.offset + 1 < 2 ^ (b + 1)) (hM : ∀ l ∈ s.lists, l.length ≤ M)
    (hM' : ∀ l ∈ s.keys, l.length ≤ M) :
    Counts { node := b + 1, moved := 4 * (M - s.load), shifted := 3 * s.lists.length, reshaped := 1 } (Counted.SKL.expand p) (expand p) s :=
  .get_bind (.lift_bind fun ks hks => .ite
    (fun _ => .lift_bind fun l hl => by
      have := hM l (mem_of_getItem hl)
      have := hM' ks (mem_of_getItem hks)
      refine Counts.mono (.moving_bind (.shifting_bind (.reshaping_bind (B := 0) (.modify_bind (.modify_bind (.lift_bind fun _ _ => .lift_bind fun _ _ =>
        .modify_bind (.modify_bind (.modify_bind (.lift_bind fun _ _ => .modify_bind (.free _)))))))))) ?_
      rw [List.length_drop, List.length_drop]
      calls)
    (fun _ => (touchIndex_counts _ _ _ h).mono (by calls)))

theorem upper_keys (h : Inv key klt true s) : ∀ ks ∈ s.keys, ks.length ≤ s.load * 2 := by
  intro ks hks
  rw [h.keys_eq rfl] at hks
  obtain ⟨l, hl, rfl⟩ := List.mem_map.1 hks
  rw [List.length_map]
  exact h.upper l hl

theorem delete_counts (h : Ready key klt true s) (p i : Nat) :
    Counts (deleteCost s 2) (Counted.SKL.delete p i) (delete p i) s := by
  unfold deleteCost
  refine .get_bind (.lift_bind fun ks hks => .lift_bind fun l hl => ?_)
  have hl2 := h.inv.upper l (mem_of_getItem hl)
  have hk2 := upper_keys h.inv ks (mem_of_getItem hks)
  refine Counts.mono (.moving_bind (B := { node := bits s.lists.length + 1, moved := 20 * s.load, shifted := 6 * s.lists.length, reshaped := 2 })
    (.lift_bind fun ks' hks' => .modify_bind (.lift_bind fun l' hl' => .modify_bind (.lift_bind fun n _ => .modify_bind ?_)))) (by calls)
  have hll := length_delItem hl'
  have hkl := length_delItem hks'
  refine .ite (fun _ => .lift_bind fun _ _ => .lift_bind fun _ _ => .modify_bind ?_) fun _ => .ite (fun _ => ?_) fun _ => .ite
    (fun _ => .lift_bind fun _ _ => .lift_bind fun _ _ => .free _) fun _ => ?_
  · exact Counts.mono (touchIndex_counts _ (bits s.lists.length) _ fun hne => h.up (lt_of_getItem hl) hne) (by calls)
  · have hmem : ∀ x ∈ s.lists.set p l', x.length ≤ 2 * s.load := by
      intro x hx
      rcases List.mem_or_eq_of_mem_set hx with hx | rfl
      · have := h.inv.upper x hx; omega
      · omega
    have hmemk : ∀ x ∈ s.keys.set p ks', x.length ≤ 2 * s.load := by
      intro x hx
      rcases List.mem_or_eq_of_mem_set hx with hx | rfl
      · have := upper_keys h.inv x hx; omega
      · omega
    refine .get_bind (.lift_bind fun ka hka => .lift_bind fun kb hkb => .modify_bind (.lift_bind fun a ha => .lift_bind fun b hb => ?_))
    have ha := hmem a (mem_of_getItem ha)
    have hb := hmem b (mem_of_getItem hb)
    have hka := hmemk ka (mem_of_getItem hka)
    have hkb := hmemk kb (mem_of_getItem hkb)
    refine Counts.mono (.moving_bind (.shifting_bind (.reshaping_bind (B := { node := bits s.lists.length + 1, moved := 12 * s.load, shifted := 3 * s.lists.length, reshaped := 1 })
      (.modify_bind (.lift_bind fun _ _ => .lift_bind fun _ _ => .modify_bind (.get_bind (.lift_bind fun L hL => .modify_bind (.lift_bind fun KL hKL =>
      .modify_bind (.lift_bind fun _ _ => .modify_bind (.modify_bind ?_)))))))))) (by dsimp only; rw [List.length_set]; calls)
    have hlen := length_delItem hL
    simp only [List.length_set] at hlen
    refine (expand_counts (bits s.lists.length) _ (4 * s.load) (fun hne => absurd rfl hne) (fun x hx => ?_) fun x hx => ?_).mono (by dsimp only; calls)
    · rcases List.mem_or_eq_of_mem_set (mem_delItem hL hx) with hx | rfl
      · have := hmem x hx; omega
      · rw [List.length_append]; omega
    · rcases List.mem_or_eq_of_mem_set (mem_delItem hKL hx) with hx | rfl
      · have := hmemk x hx; omega
      · rw [List.length_append]; omega
  · refine .get_bind (.mono (.shifting_bind (B := 0) (.lift_bind fun _ _ => .modify_bind (.lift_bind fun _ _ => .modify_bind (.lift_bind fun _ _ =>
      .modify_bind (.free _))))) ?_)
    dsimp only; rw [List.length_set]; calls

/-! ### The loops -/

theorem next_getItem (h : Inv key klt true s) (p : Nat) :
    (∃ e, getItem s.keys (p + 1) = .error e ∧ getItem s.lists (p + 1) = .error e) ∨
      (∃ l', getItem s.keys (p + 1) = .ok (l'.map key) ∧ getItem s.lists (p + 1) = .ok l') := by
  cases hg : getItem s.lists (p + 1) with
  | error e =>
    have : s.lists.length ≤ p + 1 := by
      refine Nat.le_of_not_lt fun hcon => ?_
      rw [getItem_ok hcon] at hg; cases hg
    rw [getItem_error this] at hg; cases hg
    exact .inl ⟨_, by rw [h.keys_eq rfl, getItem_error (by simpa using this)], rfl⟩
  | ok l' => exact .inr ⟨l', by rw [h.keys_eq rfl]; exact getItem_map hg, rfl⟩

theorem metered_findLoop_step (hK : K.Lawful key klt veq) (h : Inv key klt true s) {v : α} {p x : Nat} {w : α}
    {l : List α} (hl : getItem s.lists p = .ok l) (hx : getItem l x = .ok w) (len : Nat) :
    Counted.SKL.findLoop K.metered s.lists s.keys v (key v) p x len = (do
      if ← Counted.comparing (.ok (!equiv klt (key w) (key v))) then pure none
      else if ← Counted.comparing (.ok (veq w v)) then pure (some (p, x))
      else if x + 1 = len then
        if p + 1 = s.lists.length then pure none
        else
          let l' ← CPy.free (Py.lift (getItem s.lists (p + 1)))
          Counted.SKL.findLoop K.metered s.lists s.keys v (key v) (p + 1) 0 l'.length
      else Counted.SKL.findLoop K.metered s.lists s.keys v (key v) p (x + 1) len) := by
  have hk : getItem s.keys p = .ok (l.map key) := by rw [h.keys_eq rfl]; exact getItem_map hl
  have hkx : getItem (l.map key) x = .ok (key w) := getItem_map hx
  rw [Counted.SKL.findLoop]
  split
  · rename_i e he; rw [hk] at he; cases he
  rename_i ks hks
  rw [hk] at hks; cases hks
  split
  · rename_i e he; rw [hkx] at he; cases he
  rename_i k hk'
  rw [hkx] at hk'; cases hk'
  rw [show K.metered.kcmp .ne (key w) (key v) = Counted.comparing (.ok (!equiv klt (key w) (key v))) from
    congrArg Counted.comparing (hK.kcmp_ok .ne _ _), hl]
  have hlen : s.keys.length = s.lists.length := by rw [h.keys_eq rfl]; simp
  rw [hlen, ← hK.veq_ok]
  have fin : ∀ (f : Nat → CPy (St α κ) (Option (Nat × Nat))),
      (do let ks' ← CPy.free (Py.lift (getItem s.keys (p + 1))); f ks'.length) =
      (do let l' ← CPy.free (Py.lift (getItem s.lists (p + 1))); f l'.length) := by
    intro f
    rcases next_getItem h p with ⟨e, e1, e2⟩ | ⟨l', e1, e2⟩
    · rw [e1, e2]; rfl
    · rw [e1, e2]; show f _ = f _; rw [List.length_map]
  have fin := fin fun n => Counted.SKL.findLoop K.metered s.lists s.keys v (key v) (p + 1) 0 n
  rw [fin]
  show (Counted.comparing _ >>= fun c => if c = true then _ else CPy.free (Py.lift (getItem l x)) >>= _) = _
  rw [hx]
  rfl

theorem metered_countLoop_step (hK : K.Lawful key klt veq) (h : Inv key klt true s) {v : α} {p x : Nat} {w : α}
    {l : List α} (hl : getItem s.lists p = .ok l) (hx : getItem l x = .ok w) (len total : Nat) :
    Counted.SKL.countLoop K.metered s.lists s.keys v (key v) p x len total = (do
      if ← Counted.comparing (.ok (!equiv klt (key w) (key v))) then pure total
      else
        let b ← Counted.comparing (.ok (veq w v))
        let total := if b then total + 1 else total
        if x + 1 = len then
          if p + 1 = s.lists.length then pure total
          else
            let l' ← CPy.free (Py.lift (getItem s.lists (p + 1)))
            Counted.SKL.countLoop K.metered s.lists s.keys v (key v) (p + 1) 0 l'.length total
        else Counted.SKL.countLoop K.metered s.lists s.keys v (key v) p (x + 1) len total) := by
  have hk : getItem s.keys p = .ok (l.map key) := by rw [h.keys_eq rfl]; exact getItem_map hl
  have hkx : getItem (l.map key) x = .ok (key w) := getItem_map hx
  rw [Counted.SKL.countLoop]
  split
  · rename_i e he; rw [hk] at he; cases he
  rename_i ks hks
  rw [hk] at hks; cases hks
  split
  · rename_i e he; rw [hkx] at he; cases he
  rename_i k hk'
  rw [hkx] at hk'; cases hk'
  rw [show K.metered.kcmp .ne (key w) (key v) = Counted.comparing (.ok (!equiv klt (key w) (key v))) from
    congrArg Counted.comparing (hK.kcmp_ok .ne _ _), hl]
  have hlen : s.keys.length = s.lists.length := by rw [h.keys_eq rfl]; simp
  rw [hlen, ← hK.veq_ok]
  have fin : ∀ (f : Nat → CPy (St α κ) Nat),
      (do let ks' ← CPy.free (Py.lift (getItem s.keys (p + 1))); f ks'.length) =
      (do let l' ← CPy.free (Py.lift (getItem s.lists (p + 1))); f l'.length) := by
    intro f
    rcases next_getItem h p with ⟨e, e1, e2⟩ | ⟨l', e1, e2⟩
    · rw [e1, e2]; rfl
    · rw [e1, e2]; show f _ = f _; rw [List.length_map]
  have fin := fun total => fin fun n => Counted.SKL.countLoop K.metered s.lists s.keys v (key v) (p + 1) 0 n total
  dsimp only
  simp only [fin]
  show (Counted.comparing _ >>= fun c => if c = true then _ else CPy.free (Py.lift (getItem l x)) >>= _) = _
  rw [hx]
  rfl

theorem metered_indexLoop_step (hK : K.Lawful key klt veq) (h : Inv key klt true s) {v : α} {p x : Nat} {w : α}
    {l : List α} (hl : getItem s.lists p = .ok l) (hx : getItem l x = .ok w) (start stop : Int) (len : Nat) :
    Counted.SKL.indexLoop K.metered s.lists s.keys v (key v) start stop p x len = (do
      if ← Counted.comparing (.ok (!equiv klt (key w) (key v))) then CPy.free (Py.raise .valueError)
      else
        let b ← Counted.comparing (.ok (veq w v))
        let r : Option Int ←
          if b then do
            let loc ← Counted.loc K.ilog2 p x
            if start ≤ (loc : Int) ∧ (loc : Int) ≤ stop then pure (some (loc : Int))
            else if (loc : Int) > stop then CPy.free (Py.raise .valueError)
            else pure none
          else pure none
        match r with
        | some r => pure r
        | none =>
          if x + 1 = len then
            if p + 1 = s.lists.length then CPy.free (Py.raise .valueError)
            else
              let l' ← CPy.free (Py.lift (getItem s.lists (p + 1)))
              Counted.SKL.indexLoop K.metered s.lists s.keys v (key v) start stop (p + 1) 0 l'.length
          else Counted.SKL.indexLoop K.metered s.lists s.keys v (key v) start stop p (x + 1) len) := by
  have hk : getItem s.keys p = .ok (l.map key) := by rw [h.keys_eq rfl]; exact getItem_map hl
  have hkx : getItem (l.map key) x = .ok (key w) := getItem_map hx
  rw [Counted.SKL.indexLoop]
  split
  · rename_i e he; rw [hk] at he; cases he
  rename_i ks hks
  rw [hk] at hks; cases hks
  split
  · rename_i e he; rw [hkx] at he; cases he
  rename_i k hk'
  rw [hkx] at hk'; cases hk'
  rw [show K.metered.kcmp .ne (key w) (key v) = Counted.comparing (.ok (!equiv klt (key w) (key v))) from
    congrArg Counted.comparing (hK.kcmp_ok .ne _ _), hl]
  have hlen : s.keys.length = s.lists.length := by rw [h.keys_eq rfl]; simp
  rw [hlen, ← hK.veq_ok]
  have fin : ∀ (f : Nat → CPy (St α κ) Int),
      (do let ks' ← CPy.free (Py.lift (getItem s.keys (p + 1))); f ks'.length) =
      (do let l' ← CPy.free (Py.lift (getItem s.lists (p + 1))); f l'.length) := by
    intro f
    rcases next_getItem h p with ⟨e, e1, e2⟩ | ⟨l', e1, e2⟩
    · rw [e1, e2]; rfl
    · rw [e1, e2]; show f _ = f _; rw [List.length_map]
  have fin := fin fun n => Counted.SKL.indexLoop K.metered s.lists s.keys v (key v) start stop (p + 1) 0 n
  dsimp only
  simp only [fin]
  show (Counted.comparing _ >>= fun c => if c = true then _ else CPy.free (Py.lift (getItem l x)) >>= _) = _
  rw [hx]
  rfl

/-- The values with the key of `v`, from position `n` on. -/
abbrev run (key : α → κ) (klt : κ → κ → Bool) (s : St α κ) (v : α) (n : Nat) : Nat :=
  ((Core.iter s).drop n).countP fun w => equiv klt (key w) (key v)

theorem run_step {v w : α} {n : Nat} (hw : (Core.iter s)[n]? = some w) (hq : equiv klt (key w) (key v) = true) :
    run key klt s v n = run key klt s v (n + 1) + 1 := by
  obtain ⟨hn, hgw⟩ := List.getElem?_eq_some_iff.1 hw
  simp only [run]
  rw [List.drop_eq_getElem_cons hn, hgw, List.countP_cons, if_pos hq]

theorem findLoop_counts (hK : K.Lawful key klt veq) (h : Inv key klt true s) (v : α) (m : Nat) :
    ∀ {p x n : Nat} {w : α} {l : List α}, At s.lists p x n w → (Core.iter s).length - n = m →
    getItem s.lists p = .ok l →
    Counts { cmp := 2 * run key klt s v n + 1 } (Counted.SKL.findLoop K.metered s.lists s.keys v (key v) p x l.length)
      (Py.lift (findLoop K s.lists s.keys v (key v) p x l.length)) s := by
  induction m with
  | zero =>
    intro p x n w l hat hm
    have := (List.getElem?_eq_some_iff.1 hat.getElem).1
    have e : Core.iter s = s.lists.flatten := rfl
    rw [e] at hm; omega
  | succ m ih =>
    intro p x n w l hat hm hl
    obtain ⟨l', hl', hx, hnext⟩ := at_next h.ne_nil hat
    rw [hl] at hl'; cases hl'
    have hw : (Core.iter s)[n]? = some w := hat.getElem
    rw [findLoop_step hK h hl hx, metered_findLoop_step hK h hl hx]
    cases hq : equiv klt (key w) (key v)
    · exact (Counts.comparing_ok_bind (B := 0) (.pure _)).mono (by calls)
    have hstep := run_step (key := key) hw hq
    cases hv : veq w v
    case true =>
      exact (Counts.comparing_ok_bind (B := { cmp := 1 }) ((Counts.comparing_ok_bind (B := 0) (.pure _)).mono (by calls))).mono (by calls)
    refine (Counts.comparing_ok_bind (B := { cmp := 1 + (2 * run key klt s v (n + 1) + 1) }) ((Counts.comparing_ok_bind
      (B := { cmp := 2 * run key klt s v (n + 1) + 1 }) ?_).mono (by calls))).mono (by calls)
    simp only [if_true, Bool.false_eq_true, if_false]
    rcases hnext with ⟨hx1, hp1, hlen⟩ | ⟨hx1, hp1, w', hat'⟩ | ⟨hx1, w', hat'⟩
    · rw [if_pos hx1, if_pos hp1, if_pos hx1, if_pos hp1]; exact .pure _
    · rw [if_pos hx1, if_neg hp1, if_pos hx1, if_neg hp1]
      obtain ⟨l', hl', _⟩ := hat'.getItem
      rw [hl']
      exact .lift_ok_bind (ih hat' (by omega) hl')
    · rw [if_neg hx1, if_neg hx1]
      exact ih hat' (by omega) hl

theorem countLoop_counts (hK : K.Lawful key klt veq) (h : Inv key klt true s) (v : α) (m : Nat) :
    ∀ {p x n : Nat} {w : α} {l : List α} (total : Nat), At s.lists p x n w → (Core.iter s).length - n = m →
    getItem s.lists p = .ok l →
    Counts { cmp := 2 * run key klt s v n + 1 } (Counted.SKL.countLoop K.metered s.lists s.keys v (key v) p x l.length total)
      (Py.lift (countLoop K s.lists s.keys v (key v) p x l.length total)) s := by
  induction m with
  | zero =>
    intro p x n w l total hat hm
    have := (List.getElem?_eq_some_iff.1 hat.getElem).1
    have e : Core.iter s = s.lists.flatten := rfl
    rw [e] at hm; omega
  | succ m ih =>
    intro p x n w l total hat hm hl
    obtain ⟨l', hl', hx, hnext⟩ := at_next h.ne_nil hat
    rw [hl] at hl'; cases hl'
    have hw : (Core.iter s)[n]? = some w := hat.getElem
    rw [countLoop_step hK h hl hx, metered_countLoop_step hK h hl hx]
    cases hq : equiv klt (key w) (key v)
    · exact (Counts.comparing_ok_bind (B := 0) (.pure _)).mono (by calls)
    have hstep := run_step (key := key) hw hq
    refine (Counts.comparing_ok_bind (B := { cmp := 1 + (2 * run key klt s v (n + 1) + 1) }) ((Counts.comparing_ok_bind
      (B := { cmp := 2 * run key klt s v (n + 1) + 1 }) ?_).mono (by calls))).mono (by calls)
    dsimp only
    generalize (if veq w v = true then total + 1 else total) = total'
    simp only [if_true]
    rcases hnext with ⟨hx1, hp1, hlen⟩ | ⟨hx1, hp1, w', hat'⟩ | ⟨hx1, w', hat'⟩
    · rw [if_pos hx1, if_pos hp1, if_pos hx1, if_pos hp1]; exact .pure _
    · rw [if_pos hx1, if_neg hp1, if_pos hx1, if_neg hp1]
      obtain ⟨l', hl', _⟩ := hat'.getItem
      rw [hl']
      exact .lift_ok_bind (ih total' hat' (by omega) hl')
    · rw [if_neg hx1, if_neg hx1]
      exact ih total' hat' (by omega) hl

theorem lt_of_at {lists : List (List α)} {p x n : Nat} {w : α} (h : At lists p x n w) : p < lists.length := by
  obtain ⟨l, hl, _⟩ := h.getItem
  exact lt_of_getItem hl

theorem indexLoop_counts (hK : K.Lawful key klt veq) (ht : Log2Tight K.ilog2) (h : Inv key klt true s) (v : α) (start stop : Int) (m : Nat) :
    ∀ {p x n : Nat} {w : α} {l : List α} {t : St α κ}, Reindexed s t → Ready key klt true t →
    At s.lists p x n w → (Core.iter s).length - n = m →
    getItem s.lists p = .ok l →
    Counts { cmp := 2 * run key klt s v n + 1, node := bits s.lists.length * run key klt s v n, built := debt t }
      (Counted.SKL.indexLoop K.metered s.lists s.keys v (key v) start stop p x l.length)
      (indexLoop K s.lists s.keys v (key v) start stop p x l.length) t := by
  induction m with
  | zero =>
    intro p x n w l t _ _ hat hm
    have := (List.getElem?_eq_some_iff.1 hat.getElem).1
    have e : Core.iter s = s.lists.flatten := rfl
    rw [e] at hm; omega
  | succ m ih =>
    intro p x n w l t hr hT hat hm hl
    obtain ⟨l', hl', hx, hnext⟩ := at_next h.ne_nil hat
    rw [hl] at hl'; cases hl'
    have hw : (Core.iter s)[n]? = some w := hat.getElem
    rw [indexLoop_step hK h hl hx, metered_indexLoop_step hK h hl hx]
    cases hq : equiv klt (key w) (key v)
    · exact (Counts.comparing_ok_bind (B := 0) (.free _)).mono (by calls)
    have hstep := run_step (key := key) hw hq
    have hmul : bits s.lists.length * run key klt s v n =
        bits s.lists.length * run key klt s v (n + 1) + bits s.lists.length := by rw [hstep, Nat.mul_succ]
    refine (Counts.comparing_ok_bind (B := { cmp := 1 + (2 * run key klt s v (n + 1) + 1), node := bits s.lists.length + bits s.lists.length * run key klt s v (n + 1), built := debt t }) ((Counts.comparing_ok_bind
      (B := { cmp := 2 * run key klt s v (n + 1) + 1, node := bits s.lists.length + bits s.lists.length * run key klt s v (n + 1), built := debt t }) ?_).mono (by calls))).mono (by calls)
    -- going on to the next position
    have go : ∀ {t : St α κ}, Reindexed s t → Ready key klt true t →
        Counts { cmp := 2 * run key klt s v (n + 1) + 1, node := bits s.lists.length * run key klt s v (n + 1), built := debt t }
          (if x + 1 = l.length then
            if p + 1 = s.lists.length then CPy.free (Py.raise .valueError)
            else do
              let l' ← CPy.free (Py.lift (getItem s.lists (p + 1)))
              Counted.SKL.indexLoop K.metered s.lists s.keys v (key v) start stop (p + 1) 0 l'.length
          else Counted.SKL.indexLoop K.metered s.lists s.keys v (key v) start stop p (x + 1) l.length)
          (if x + 1 = l.length then
            if p + 1 = s.lists.length then Py.raise .valueError
            else
              match getItem s.lists (p + 1) with
              | .error e => Py.raise e
              | .ok l' => indexLoop K s.lists s.keys v (key v) start stop (p + 1) 0 l'.length
          else indexLoop K s.lists s.keys v (key v) start stop p (x + 1) l.length) t := by
      intro t hr hT
      rcases hnext with ⟨hx1, hp1, hlen⟩ | ⟨hx1, hp1, w', hat'⟩ | ⟨hx1, w', hat'⟩
      · rw [if_pos hx1, if_pos hp1, if_pos hx1, if_pos hp1]; exact .free _
      · rw [if_pos hx1, if_neg hp1, if_pos hx1, if_neg hp1]
        obtain ⟨l', hl', _⟩ := hat'.getItem
        rw [hl']
        exact .lift_ok_bind (ih hr hT hat' (by omega) hl')
      · rw [if_neg hx1, if_neg hx1]
        exact ih hr hT hat' (by omega) hl
    cases hv : veq w v
    · simp only [if_true, Bool.false_eq_true, if_false]
      exact (go hr hT).mono (by calls)
    · simp only [if_true]
      have hp : p < t.lists.length := by rw [hr.lists]; exact lt_of_at hat
      obtain ⟨hT', hr'⟩ := hT.after_loc hK.ilog2 ht hp x
      have hle := debt_loc hK.ilog2 ht hT.inv hT.snug hp x
      have hc := loc_counts' hK.ilog2 ht hT.inv hT.snug hp x
      rw [hr.lists] at hc
      have go := go (hr.trans hr') hT'
      exact (Counts.bind hc fun loc _ => .ite (fun _ => .pure _) fun _ => .ite (fun _ => .free (Py.raise .valueError)) fun _ => go).mono
        (by calls)

/-! ### The methods -/

/-- The number of values with the key of `v`. -/
abbrev alike (key : α → κ) (klt : κ → κ → Bool) (s : St α κ) (v : α) : Nat :=
  (Core.iter s).countP fun w => equiv klt (key w) (key v)

theorem run_le (v : α) (n : Nat) : run key klt s v n ≤ alike key klt s v := (List.drop_sublist n _).countP_le

section
variable (h : Ready key klt true s) (hu : Within s u)
include h hu

theorem add_counts (v : α) :
    Counts ({ cmp := bits s.lists.length + u, key := 1 } + addCost s 2) (Counted.SKL.add K.metered v) (add K v) s := by
  have hm := h.inv.maxes.length_eq
  have ins : ∀ {γ : Type} (l : List γ) (i : Nat) (x : γ), (insertAt l i x).length = l.length + 1 := by
    intro γ l i x
    unfold insertAt
    simp [List.length_take, List.length_drop]
    omega
  unfold addCost
  refine .get_bind ?_
  refine (Counts.lifted_bind (B' := { cmp := bits s.lists.length + u, node := bits s.lists.length + 1, moved := 8 * s.load + 6, shifted := 3 * (s.lists.length + 1), reshaped := 1 })
    (.keying _) fun k _ => ?_).mono (by calls)
  refine .ite (fun hne => ?_) fun _ => Counts.mono (.moving_bind (.shifting_bind (B := 0) (.modify_bind (.modify_bind (.modify_bind (.free _)))))) (by calls)
  refine (Counts.lifted_bind (B' := { cmp := u, node := bits s.lists.length + 1, moved := 8 * s.load + 6, shifted := 3 * (s.lists.length + 1), reshaped := 1 })
    (bisectRight_counts _ _ _ _) fun p _ => ?_).mono (by rw [← hm]; calls)
  refine .ite (fun _ => .lift_bind fun l hl => ?_) fun _ => .lift_bind fun ks hk => ?_
  · refine Counts.mono (.moving_bind (.modify_bind (.lift_bind fun ks hks => .modify_bind (.modify_bind (.bind (B := {
      node := bits s.lists.length + 1, moved := 4 * (s.load + 1), shifted := 3 * s.lists.length, reshaped := 1 }) (B' := 0)
      (Counts.mono (expand_counts (bits s.lists.length) _ (2 * s.load + 1) ?_ (fun x hx => ?_) fun x hx => ?_)
        (by dsimp only; rw [List.length_set]; calls))
      fun _ _ => .free _))))) (by calls)
    · exact fun hne => h.up (lt_of_getItem hl) hne
    · rcases List.mem_or_eq_of_mem_set hx with hx | rfl
      · have := h.inv.upper x hx; omega
      · have := h.inv.upper l (mem_of_getItem hl); rw [List.length_append, List.length_singleton]; omega
    · rcases List.mem_or_eq_of_mem_set hx with hx | rfl
      · have := upper_keys h.inv x hx; omega
      · have := upper_keys h.inv ks (mem_of_getItem hks); rw [List.length_append, List.length_singleton]; omega
  · have := Within.keys h.inv hu hk
    have hku := upper_keys h.inv ks (mem_of_getItem hk)
    refine (Counts.lifted_bind (B := { cmp := bits ks.length }) (B' := { node := bits s.lists.length + 1, moved := 8 * s.load + 6, shifted := 3 * s.lists.length, reshaped := 1 })
      (bisectRight_counts _ _ _ _) fun i _ => .lift_bind fun l hl => ?_).mono (by calls)
    have hlu := h.inv.upper l (mem_of_getItem hl)
    refine Counts.mono (.moving_bind (.modify_bind (.modify_bind (.bind (B := {
      node := bits s.lists.length + 1, moved := 4 * (s.load + 1), shifted := 3 * s.lists.length, reshaped := 1 }) (B' := 0)
      (Counts.mono (expand_counts (bits s.lists.length) _ (2 * s.load + 1) ?_ (fun x hx => ?_) fun x hx => ?_)
        (by dsimp only; rw [List.length_set]; calls)) fun _ _ => .free _)))) (by calls)
    · exact fun hne => h.up (lt_of_getItem hl) hne
    · rcases List.mem_or_eq_of_mem_set hx with hx | rfl
      · have := h.inv.upper x hx; omega
      · rw [ins]; omega
    · rcases List.mem_or_eq_of_mem_set hx with hx | rfl
      · have := upper_keys h.inv x hx; omega
      · rw [ins]; omega

theorem find_counts (hK : K.Lawful key klt veq) (v : α) :
    Counts { cmp := bits s.lists.length + u + 2 * alike key klt s v + 1, key := 1 } (Counted.SKL.find K.metered v) (find K v) s := by
  refine .get_bind (.ite (fun _ => .pure _) fun _ => ?_)
  have hm := h.inv.maxes.length_eq
  refine (Counts.lifted_bind (B' := { cmp := bits s.lists.length + u + 2 * alike key klt s v + 1 }) (.keying _)
    fun k hk => ?_).mono (by calls)
  rw [hK.key_ok] at hk; cases hk
  refine (Counts.lifted_bind (B' := { cmp := u + 2 * alike key klt s v + 1 }) (bisectLeft_counts _ _ _ _) fun p hp => ?_).mono
    (by rw [← hm]; calls)
  rcases searchLeft hK h.inv (key v) with ⟨hall, hb⟩ | ⟨A, B1, x, B2, C, hl, hb, hne, hb2, hP, hx, hQ⟩
  · rw [hb] at hp; cases hp
    rw [if_pos rfl, if_pos rfl]; exact .pure _
  rw [hb] at hp; cases hp
  rw [if_neg hne, if_neg hne]
  refine .lift_bind fun ks hk => ?_
  have := Within.keys h.inv hu hk
  refine (Counts.lifted_bind (B' := { cmp := 2 * alike key klt s v + 1 }) (bisectLeft_counts _ _ _ _) fun i hi => ?_).mono (by calls)
  rw [h.inv.getItem_keys hl] at hk; cases hk
  rw [hb2] at hi; cases hi
  have := run_le (key := key) (klt := klt) (s := s) v (A.flatten ++ B1).length
  rw [List.length_map]
  exact (findLoop_counts hK h.inv v _ (at_of_split hl) rfl (getItem_lists hl)).mono (by calls)

omit h hu in
theorem find_state (hK : K.Lawful key klt veq) (h : Inv key klt true s) (v : α) : (find K v s).2 = s := by
  rcases find_ok hK h v with ⟨e, _⟩ | ⟨p, x, w, P, Q, e, _⟩ <;> rw [e]

theorem contains_counts (hK : K.Lawful key klt veq) (v : α) :
    Counts { cmp := bits s.lists.length + u + 2 * alike key klt s v + 1, key := 1 } (Counted.SKL.contains K.metered v) (contains K v) s := by
  refine (Counts.bind (B' := 0) (find_counts h hu hK v) fun r _ => ?_).mono (by calls)
  cases r <;> exact .pure _

theorem discard_counts (hK : K.Lawful key klt veq) (v : α) :
    Counts ({ cmp := bits s.lists.length + u + 2 * alike key klt s v + 1, key := 1 } + deleteCost s 2)
      (Counted.SKL.discard K.metered v) (discard K v) s := by
  have hs : (find K v s).2 = s := by
    exact find_state hK h.inv v
  refine .bind (find_counts h hu hK v) fun r _ => ?_
  rw [hs]
  cases r
  · exact .pure _
  · exact delete_counts h _ _

theorem remove_counts (hK : K.Lawful key klt veq) (v : α) :
    Counts ({ cmp := bits s.lists.length + u + 2 * alike key klt s v + 1, key := 1 } + deleteCost s 2)
      (Counted.SKL.remove K.metered v) (remove K v) s := by
  have hs : (find K v s).2 = s := by
    exact find_state hK h.inv v
  refine .bind (find_counts h hu hK v) fun r _ => ?_
  rw [hs]
  cases r
  · exact .free _
  · exact delete_counts h _ _

theorem count_counts (hK : K.Lawful key klt veq) (v : α) :
    Counts { cmp := bits s.lists.length + u + 2 * alike key klt s v + 1, key := 1 } (Counted.SKL.count K.metered v) (count K v) s := by
  refine .get_bind (.ite (fun _ => .pure _) fun _ => ?_)
  have hm := h.inv.maxes.length_eq
  refine (Counts.lifted_bind (B' := { cmp := bits s.lists.length + u + 2 * alike key klt s v + 1 }) (.keying _)
    fun k hk => ?_).mono (by calls)
  rw [hK.key_ok] at hk; cases hk
  refine (Counts.lifted_bind (B' := { cmp := u + 2 * alike key klt s v + 1 }) (bisectLeft_counts _ _ _ _) fun p hp => ?_).mono
    (by rw [← hm]; calls)
  rcases searchLeft hK h.inv (key v) with ⟨hall, hb⟩ | ⟨A, B1, x, B2, C, hl, hb, hne, hb2, hP, hx, hQ⟩
  · rw [hb] at hp; cases hp
    rw [if_pos rfl, if_pos rfl]; exact .pure _
  rw [hb] at hp; cases hp
  rw [if_neg hne, if_neg hne]
  refine .lift_bind fun ks hk => ?_
  have := Within.keys h.inv hu hk
  refine (Counts.lifted_bind (B' := { cmp := 2 * alike key klt s v + 1 }) (bisectLeft_counts _ _ _ _) fun i hi => ?_).mono (by calls)
  rw [h.inv.getItem_keys hl] at hk; cases hk
  rw [hb2] at hi; cases hi
  have := run_le (key := key) (klt := klt) (s := s) v (A.flatten ++ B1).length
  rw [List.length_map]
  exact (countLoop_counts hK h.inv v _ 0 (at_of_split hl) rfl (getItem_lists hl)).mono (by calls)

theorem index_counts (hK : K.Lawful key klt veq) (ht : Log2Tight K.ilog2) (v : α) (a b : Option Int) :
    Counts { cmp := bits s.lists.length + u + 2 * alike key klt s v + 1, key := 1,
             node := bits s.lists.length * alike key klt s v, built := debt s } (Counted.SKL.index K.metered v a b) (index K v a b) s := by
  refine .get_bind (.ite (fun _ => .free _) fun _ => .ite (fun _ => .free _) fun _ => ?_)
  have hm := h.inv.maxes.length_eq
  refine (Counts.lifted_bind (B' := { cmp := bits s.lists.length + u + 2 * alike key klt s v + 1, node := bits s.lists.length * alike key klt s v, built := debt s }) (.keying _)
    fun k hk => ?_).mono (by calls)
  rw [hK.key_ok] at hk; cases hk
  refine (Counts.lifted_bind (B' := { cmp := u + 2 * alike key klt s v + 1, node := bits s.lists.length * alike key klt s v, built := debt s }) (bisectLeft_counts _ _ _ _) fun p hp => ?_).mono
    (by rw [← hm]; calls)
  rcases searchLeft hK h.inv (key v) with ⟨hall, hb⟩ | ⟨A, B1, x, B2, C, hl, hb, hne, hb2, hP, hx, hQ⟩
  · rw [hb] at hp; cases hp
    rw [if_pos rfl, if_pos rfl]; exact .free _
  rw [hb] at hp; cases hp
  rw [if_neg hne, if_neg hne]
  refine .lift_bind fun ks hk => ?_
  have := Within.keys h.inv hu hk
  refine (Counts.lifted_bind (B' := { cmp := 2 * alike key klt s v + 1, node := bits s.lists.length * alike key klt s v, built := debt s }) (bisectLeft_counts _ _ _ _) fun i hi => ?_).mono (by calls)
  rw [h.inv.getItem_keys hl] at hk; cases hk
  rw [hb2] at hi; cases hi
  have h1 := run_le (key := key) (klt := klt) (s := s) v (A.flatten ++ B1).length
  have h2 := Nat.mul_le_mul_left (bits s.lists.length) h1
  rw [List.length_map]
  exact (indexLoop_counts hK ht h.inv v _ _ _ (Reindexed.refl s) h (at_of_split hl) rfl (getItem_lists hl)).mono (by calls)

theorem irange_key_counts (lo hi : Option κ) (a b r : Bool) :
    Counts { cmp := 2 * (bits s.lists.length + u) } (Counted.SKL.irange_key K.metered lo hi a b r) (irange_key K lo hi a b r) s := by
  have hm := h.inv.maxes.length_eq
  have hmb : bits s.maxes.length ≤ bits s.lists.length := by rw [hm]; exact Nat.le_refl _
  unfold Counted.SKL.irange_key irange_key irange_keyWith
  refine .get_bind (.ite (fun _ => .pure _) fun _ => ?_)
  dsimp only
  cases lo with
  | none =>
    refine .pure_bind ?_
    dsimp only
    cases hi with
    | none => exact .lift_bind fun _ _ => .free _
    | some m =>
      refine (Counts.lifted_bind (B' := { cmp := u }) (side_counts' _ hmb b m) fun p _ => .ite (fun _ => .lift_bind fun _ _ =>
        .free _) fun _ => .lift_bind fun l hl => ?_).mono (by calls)
      exact (Counts.lifted_bind (B' := 0) (side_counts' _ (Within.keys h.inv hu hl) b m) fun _ _ => .free _).mono (by calls)
  | some m =>
    refine (Counts.lifted_bind (B' := { cmp := u + (bits s.lists.length + u) }) (side_counts _ hmb a m) fun p _ => .ite (fun _ => .pure _)
      fun _ => .lift_bind fun l hl => ?_).mono (by calls)
    refine (Counts.lifted_bind (B' := { cmp := bits s.lists.length + u }) (side_counts _ (Within.keys h.inv hu hl) a m)
      fun i _ => .pure_bind ?_).mono (by calls)
    dsimp only
    cases hi with
    | none => exact .lift_bind fun _ _ => .free _
    | some m =>
      refine (Counts.lifted_bind (B' := { cmp := u }) (side_counts' _ hmb b m) fun p _ => .ite (fun _ => .lift_bind fun _ _ =>
        .free _) fun _ => .lift_bind fun l hl => ?_).mono (by calls)
      exact (Counts.lifted_bind (B' := 0) (side_counts' _ (Within.keys h.inv hu hl) b m) fun _ _ => .free _).mono (by calls)

omit h hu in
theorem keyOpt_counts (x : Option α) : Counts { key := 1 } (Counted.SKL.keyOpt K.metered x) (Py.lift (keyOpt K x)) s := by
  cases x with
  | none => exact .pure _
  | some x =>
    have := (Counts.lifted_bind (B' := 0) (.keying (K.key x)) (s := s) (fc := fun k => (Pure.pure (some k) : CPy (St α κ) _))
      (f := fun k => Pure.pure (some k)) fun k _ => .pure _).mono (B' := { key := 1 }) (by calls)
    have e : (Py.lift (K.key x) >>= fun k => Pure.pure (some k)) = (Py.lift (keyOpt K (some x)) : Py (St α κ) _) := by
      show _ = Py.lift (match K.key x with
        | .error e => .error e
        | .ok k => .ok (some k))
      cases K.key x <;> rfl
    rwa [e] at this

theorem irange_counts (lo hi : Option α) (a b r : Bool) :
    Counts { cmp := 2 * (bits s.lists.length + u), key := 2 } (Counted.SKL.irange K.metered lo hi a b r) (irange K lo hi a b r) s :=
  (Counts.lifted_bind (B' := { cmp := 2 * (bits s.lists.length + u), key := 1 }) (keyOpt_counts lo) fun _ _ =>
    (Counts.lifted_bind (B' := { cmp := 2 * (bits s.lists.length + u) }) (keyOpt_counts hi) fun _ _ =>
      irange_key_counts h hu _ _ a b r).mono (by calls)).mono (by calls)

variable (hlog : ∀ n, 1 ≤ n → n < 2 ^ (K.ilog2 n + 1)) (ht : Log2Tight K.ilog2)
include hlog ht

theorem bisect_key_left_counts (v : κ) :
    Counts { cmp := bits s.lists.length + u, node := bits s.lists.length, built := debt s }
      (Counted.SKL.bisect_key_left K.metered v) (bisect_key_left K v) s := by
  refine .get_bind (.ite (fun _ => .pure _) fun _ => ?_)
  have hm := h.inv.maxes.length_eq
  refine (Counts.lifted_bind (B' := { cmp := u, node := bits s.lists.length, built := debt s })
    (bisectLeft_counts _ _ _ _) fun p _ => ?_).mono (by rw [← hm]; calls)
  refine .ite (fun _ => .pure _) fun _ => .lift_bind fun l hl => ?_
  have := Within.keys h.inv hu hl
  exact (Counts.lifted_bind (B' := { node := bits s.lists.length, built := debt s }) (bisectLeft_counts _ _ _ _) fun _ _ =>
    loc_counts hlog ht h.inv h.snug (lt_of_key h.inv hl) _).mono (by calls)

theorem bisect_key_right_counts (v : κ) :
    Counts { cmp := bits s.lists.length + u, node := bits s.lists.length, built := debt s }
      (Counted.SKL.bisect_key_right K.metered v) (bisect_key_right K v) s := by
  refine .get_bind (.ite (fun _ => .pure _) fun _ => ?_)
  have hm := h.inv.maxes.length_eq
  refine (Counts.lifted_bind (B' := { cmp := u, node := bits s.lists.length, built := debt s })
    (bisectRight_counts _ _ _ _) fun p _ => ?_).mono (by rw [← hm]; calls)
  refine .ite (fun _ => .pure _) fun _ => .lift_bind fun l hl => ?_
  have := Within.keys h.inv hu hl
  exact (Counts.lifted_bind (B' := { node := bits s.lists.length, built := debt s }) (bisectRight_counts _ _ _ _) fun _ _ =>
    loc_counts hlog ht h.inv h.snug (lt_of_key h.inv hl) _).mono (by calls)

theorem bisect_left_counts (v : α) :
    Counts { cmp := bits s.lists.length + u, key := 1, node := bits s.lists.length, built := debt s }
      (Counted.SKL.bisect_left K.metered v) (bisect_left K v) s :=
  (Counts.lifted_bind (.keying _) fun k _ => bisect_key_left_counts h hu hlog ht k).mono (by calls)

theorem bisect_right_counts (v : α) :
    Counts { cmp := bits s.lists.length + u, key := 1, node := bits s.lists.length, built := debt s }
      (Counted.SKL.bisect_right K.metered v) (bisect_right K v) s :=
  (Counts.lifted_bind (.keying _) fun k _ => bisect_key_right_counts h hu hlog ht k).mono (by calls)

end

end SKL
end Verif
