import Verif.Proofs.Equality
/-!
# Values whose `==` does not follow from `<`: SortedKeyList
-/

namespace Verif
variable {α κ : Type}

/-- The comparisons of keys that follow from `<`; all values are equal. -/
def KEnv.byOrder (K : KEnv α κ) (klt : κ → κ → Bool) : KEnv α κ :=
  { K with kcmp := fun op a b => .ok (op.ofLt klt a b), vcmp := fun op _ _ => .ok (match op with | .ne => false | _ => true) }

namespace Equality.SKL
open Verif.SKL
open Equality.SL (dropWhile_all dropWhile_split takeWhile_split takeWhile_all bounds)
variable {K : KEnv α κ} {key : α → κ} {klt : κ → κ → Bool}

theorem lawful (hK : K.Ordered key klt) : (K.byOrder klt).Lawful key klt (fun _ _ => true) :=
  ⟨hK.order, hK.key_ok, fun _ _ _ => rfl, fun _ _ => rfl, fun _ _ => rfl, hK.sorted, hK.ilog2⟩

theorem lt_eq (hK : K.Ordered key klt) : K.lt = (K.byOrder klt).lt := by funext a b; exact hK.lt_ok a b

theorem add_eq (hK : K.Ordered key klt) : add K = add (K.byOrder klt) := by
  funext v; unfold add; rw [lt_eq hK]; rfl

theorem update_eq (hK : K.Ordered key klt) : update K = update (K.byOrder klt) := by
  funext v; unfold update; rw [add_eq hK]; rfl

theorem methods_eq (hK : K.Ordered key klt) : methods K = methods (K.byOrder klt) := by
  unfold methods; rw [update_eq hK]; rfl

theorem new_eq (hK : K.Ordered key klt) : new K = new (K.byOrder klt) := by
  funext v; unfold new; rw [update_eq hK]

theorem bisect_key_left_eq (hK : K.Ordered key klt) : bisect_key_left K = bisect_key_left (K.byOrder klt) := by
  funext v; unfold bisect_key_left; rw [lt_eq hK]; rfl

theorem bisect_key_right_eq (hK : K.Ordered key klt) : bisect_key_right K = bisect_key_right (K.byOrder klt) := by
  funext v; unfold bisect_key_right; rw [lt_eq hK]; rfl

theorem bisect_left_eq (hK : K.Ordered key klt) : bisect_left K = bisect_left (K.byOrder klt) := by
  funext v; unfold bisect_left; rw [bisect_key_left_eq hK]; rfl

theorem bisect_right_eq (hK : K.Ordered key klt) : bisect_right K = bisect_right (K.byOrder klt) := by
  funext v; unfold bisect_right; rw [bisect_key_right_eq hK]; rfl

theorem irange_key_eq (hK : K.Ordered key klt) : irange_key K = irange_key (K.byOrder klt) := by
  funext a b c d e; unfold irange_key irange_keyWith; rw [lt_eq hK]

theorem irange_eq (hK : K.Ordered key klt) : irange K = irange (K.byOrder klt) := by
  funext a b c d e
  show irangeWith _ _ K a b c d e = irangeWith _ _ _ a b c d e
  unfold irangeWith
  unfold irange_keyWith; rw [lt_eq hK]; rfl

theorem search (hK : K.Ordered key klt) {s : St α κ} (h : Inv key klt true s) (k : κ) :
    Search key (klt · k) (bisectLeft K.lt · k) s := by
  rw [lt_eq hK]; exact searchLeft (lawful hK) h k

section Loops
variable {s : St α κ} (h : Inv key klt true s) {v : α} {k : κ}
include h

theorem keys_next (p : Nat) : (∃ e, getItem s.keys (p + 1) = .error e ∧ getItem s.lists (p + 1) = .error e) ∨
    (∃ l', getItem s.keys (p + 1) = .ok (l'.map key) ∧ getItem s.lists (p + 1) = .ok l') := by
  cases hg : getItem s.lists (p + 1) with
  | error e =>
    have : s.lists.length ≤ p + 1 := by
      refine Nat.le_of_not_lt fun hcon => ?_
      rw [getItem_ok hcon] at hg; cases hg
    rw [getItem_error this] at hg; cases hg
    exact .inl ⟨_, by rw [h.keys_eq rfl, getItem_error (by simpa using this)], rfl⟩
  | ok l' => exact .inr ⟨l', by rw [h.keys_eq rfl]; exact getItem_map hg, rfl⟩

theorem findLoop_step {p x : Nat} {w : α} {l : List α} (hl : getItem s.lists p = .ok l) (hx : getItem l x = .ok w) (len : Nat) :
    findLoop K s.lists s.keys v k p x len =
      match K.kcmp .ne (key w) k with
      | .error e => .error e
      | .ok true => .ok none
      | .ok false =>
        match K.vcmp .eq w v with
        | .error e => .error e
        | .ok true => .ok (some (p, x))
        | .ok false =>
          if x + 1 = len then
            if p + 1 = s.lists.length then .ok none
            else
              match getItem s.lists (p + 1) with
              | .error e => .error e
              | .ok l' => findLoop K s.lists s.keys v k (p + 1) 0 l'.length
          else findLoop K s.lists s.keys v k p (x + 1) len := by
  have hk : getItem s.keys p = .ok (l.map key) := by rw [h.keys_eq rfl]; exact getItem_map hl
  have hkx : getItem (l.map key) x = .ok (key w) := getItem_map hx
  have hlen : s.keys.length = s.lists.length := by rw [h.keys_eq rfl]; simp
  rw [findLoop]
  split
  · rename_i e he; rw [hk] at he; cases he
  rename_i ks hks
  rw [hk] at hks; cases hks
  split
  · rename_i e he; rw [hkx] at he; cases he
  rename_i k' hk'
  rw [hkx] at hk'; cases hk'
  rw [hlen]
  rcases keys_next h p with ⟨e, e1, e2⟩ | ⟨l', e1, e2⟩ <;> simp only [hl, hx, e1, e2, List.length_map] <;>
    (cases K.kcmp .ne (key w) k with
     | error e => rfl
     | ok b =>
       cases b
       case true => rfl
       cases K.vcmp .eq w v with
       | error e => rfl
       | ok b => cases b <;> rfl)

theorem findLoop_ok (m : Nat) :
    ∀ {p x n : Nat} {w : α} {l : List α}, At s.lists p x n w → (Core.iter s).length - n = m → getItem s.lists p = .ok l →
    match EqSpec.seek (fun x => K.kcmp .ne (key x) k) (K.vcmp .eq · v) ((Core.iter s).drop n) with
    | .error e => findLoop K s.lists s.keys v k p x l.length = .error e
    | .ok none => findLoop K s.lists s.keys v k p x l.length = .ok none
    | .ok (some i) => ∃ p' x' w', findLoop K s.lists s.keys v k p x l.length = .ok (some (p', x')) ∧ At s.lists p' x' (n + i) w' := by
  induction m with
  | zero =>
    intro p x n w l hat hm
    have := (List.getElem?_eq_some_iff.1 hat.getElem).1
    have e : Core.iter s = s.lists.flatten := rfl
    rw [e] at hm; omega
  | succ m ih =>
    intro p x n w l hat hm hl
    obtain ⟨l', hl', hx, hnext⟩ := at_next h.ne_nil hat
    rw [hl] at hl'; cases hl'
    have hw : (Core.iter s)[n]? = some w := hat.getElem
    obtain ⟨hn, hgw⟩ := List.getElem?_eq_some_iff.1 hw
    rw [findLoop_step h hl hx, List.drop_eq_getElem_cons hn, hgw, EqSpec.seek]
    cases K.kcmp .ne (key w) k with
    | error e => rfl
    | ok b =>
    cases b
    case true => rfl
    cases K.vcmp .eq w v with
    | error e => rfl
    | ok b =>
    cases b
    case true => exact ⟨p, x, w, rfl, hat⟩
    simp only
    -- the step to the next position
    have go : ∀ {p' x' : Nat} {w' : α} {l' : List α}, At s.lists p' x' (n + 1) w' → getItem s.lists p' = .ok l' →
        match (match EqSpec.seek (fun x => K.kcmp .ne (key x) k) (K.vcmp .eq · v) ((Core.iter s).drop (n + 1)) with
          | .error e => .error e
          | .ok r => .ok (r.map (· + 1)) : Except PyErr (Option Nat)) with
        | .error e => findLoop K s.lists s.keys v k p' x' l'.length = .error e
        | .ok none => findLoop K s.lists s.keys v k p' x' l'.length = .ok none
        | .ok (some i) => ∃ p'' x'' w'', findLoop K s.lists s.keys v k p' x' l'.length = .ok (some (p'', x'')) ∧
            At s.lists p'' x'' (n + i) w'' := by
      intro p' x' w' l' hat' hl'
      have := ih hat' (by omega) hl'
      cases hs : EqSpec.seek (fun x => K.kcmp .ne (key x) k) (K.vcmp .eq · v) ((Core.iter s).drop (n + 1)) with
      | error e => rw [hs] at this; exact this
      | ok r =>
        rw [hs] at this
        cases r with
        | none => exact this
        | some i =>
          obtain ⟨p'', x'', w'', h1, h2⟩ := this
          exact ⟨p'', x'', w'', h1, by rw [show n + (i + 1) = n + 1 + i by omega]; exact h2⟩
    rcases hnext with ⟨hx1, hp1, hlen⟩ | ⟨hx1, hp1, w', hat'⟩ | ⟨hx1, w', hat'⟩
    · rw [if_pos hx1, if_pos hp1]
      have e : (Core.iter s).length = n + 1 := hlen
      rw [List.drop_eq_nil_of_le (by omega)]
      rfl
    · rw [if_pos hx1, if_neg hp1]
      obtain ⟨l', hl', _⟩ := hat'.getItem
      simp only [hl']
      exact go hat' hl'
    · rw [if_neg hx1]
      exact go hat' hl

theorem countLoop_step {p x : Nat} {w : α} {l : List α} (hl : getItem s.lists p = .ok l) (hx : getItem l x = .ok w) (len total : Nat) :
    countLoop K s.lists s.keys v k p x len total =
      match K.kcmp .ne (key w) k with
      | .error e => .error e
      | .ok true => .ok total
      | .ok false =>
        match K.vcmp .eq w v with
        | .error e => .error e
        | .ok b =>
          let total := if b then total + 1 else total
          if x + 1 = len then
            if p + 1 = s.lists.length then .ok total
            else
              match getItem s.lists (p + 1) with
              | .error e => .error e
              | .ok l' => countLoop K s.lists s.keys v k (p + 1) 0 l'.length total
          else countLoop K s.lists s.keys v k p (x + 1) len total := by
  have hk : getItem s.keys p = .ok (l.map key) := by rw [h.keys_eq rfl]; exact getItem_map hl
  have hkx : getItem (l.map key) x = .ok (key w) := getItem_map hx
  have hlen : s.keys.length = s.lists.length := by rw [h.keys_eq rfl]; simp
  rw [countLoop]
  split
  · rename_i e he; rw [hk] at he; cases he
  rename_i ks hks
  rw [hk] at hks; cases hks
  split
  · rename_i e he; rw [hkx] at he; cases he
  rename_i k' hk'
  rw [hkx] at hk'; cases hk'
  rw [hlen]
  rcases keys_next h p with ⟨e, e1, e2⟩ | ⟨l', e1, e2⟩ <;> simp only [hl, hx, e1, e2, List.length_map] <;>
    (cases K.kcmp .ne (key w) k with
     | error e => rfl
     | ok b =>
       cases b
       case true => rfl
       cases K.vcmp .eq w v with
       | error e => rfl
       | ok b => cases b <;> rfl)

theorem countLoop_ok (m : Nat) :
    ∀ {p x n : Nat} {w : α} {l : List α} (total : Nat), At s.lists p x n w → (Core.iter s).length - n = m →
    getItem s.lists p = .ok l →
    countLoop K s.lists s.keys v k p x l.length total =
      match EqSpec.tally (fun x => K.kcmp .ne (key x) k) (K.vcmp .eq · v) ((Core.iter s).drop n) with
      | .error e => .error e
      | .ok c => .ok (total + c) := by
  induction m with
  | zero =>
    intro p x n w l total hat hm
    have := (List.getElem?_eq_some_iff.1 hat.getElem).1
    have e : Core.iter s = s.lists.flatten := rfl
    rw [e] at hm; omega
  | succ m ih =>
    intro p x n w l total hat hm hl
    obtain ⟨l', hl', hx, hnext⟩ := at_next h.ne_nil hat
    rw [hl] at hl'; cases hl'
    have hw : (Core.iter s)[n]? = some w := hat.getElem
    obtain ⟨hn, hgw⟩ := List.getElem?_eq_some_iff.1 hw
    rw [countLoop_step h hl hx, List.drop_eq_getElem_cons hn, hgw, EqSpec.tally]
    cases K.kcmp .ne (key w) k with
    | error e => rfl
    | ok b =>
    cases b
    case true => rfl
    cases K.vcmp .eq w v with
    | error e => rfl
    | ok b =>
    simp only
    have ht : ∀ r : Except PyErr Nat, (match (match r with
          | .error e => .error e
          | .ok c => .ok (c + if b = true then 1 else 0) : Except PyErr Nat) with
        | .error e => .error e
        | .ok c => .ok (total + c)) =
        (match r with
          | .error e => .error e
          | .ok c => .ok ((if b = true then total + 1 else total) + c) : Except PyErr Nat) := by
      intro r
      cases r with
      | error e => rfl
      | ok c => cases b <;> simp <;> omega
    refine Eq.trans ?_ (ht _).symm
    generalize (if b = true then total + 1 else total) = total'
    rcases hnext with ⟨hx1, hp1, hlen⟩ | ⟨hx1, hp1, w', hat'⟩ | ⟨hx1, w', hat'⟩
    · rw [if_pos hx1, if_pos hp1]
      have e : (Core.iter s).length = n + 1 := hlen
      rw [List.drop_eq_nil_of_le (by omega)]
      rfl
    · rw [if_pos hx1, if_neg hp1]
      obtain ⟨l', hl', _⟩ := hat'.getItem
      simp only [hl']
      exact ih total' hat' (by omega) hl'
    · rw [if_neg hx1]
      exact ih total' hat' (by omega) hl

theorem indexLoop_step {p x : Nat} {w : α} {l : List α} (hl : getItem s.lists p = .ok l) (hx : getItem l x = .ok w)
    (start stop : Int) (len : Nat) :
    indexLoop K s.lists s.keys v k start stop p x len =
      (match K.kcmp .ne (key w) k with
      | .error e => Py.raise e
      | .ok true => Py.raise .valueError
      | .ok false =>
        match K.vcmp .eq w v with
        | .error e => Py.raise e
        | .ok b => do
          let r : Option Int ←
            if b then do
              let loc ← Core.loc K.ilog2 p x
              if start ≤ (loc : Int) ∧ (loc : Int) ≤ stop then pure (some (loc : Int))
              else if (loc : Int) > stop then Py.raise .valueError
              else pure none
            else pure none
          match r with
          | some r => pure r
          | none =>
            if x + 1 = len then
              if p + 1 = s.lists.length then Py.raise .valueError
              else
                match getItem s.lists (p + 1) with
                | .error e => Py.raise e
                | .ok l' => indexLoop K s.lists s.keys v k start stop (p + 1) 0 l'.length
            else indexLoop K s.lists s.keys v k start stop p (x + 1) len) := by
  have hk : getItem s.keys p = .ok (l.map key) := by rw [h.keys_eq rfl]; exact getItem_map hl
  have hkx : getItem (l.map key) x = .ok (key w) := getItem_map hx
  have hlen : s.keys.length = s.lists.length := by rw [h.keys_eq rfl]; simp
  rw [indexLoop]
  split
  · rename_i e he; rw [hk] at he; cases he
  rename_i ks hks
  rw [hk] at hks; cases hks
  split
  · rename_i e he; rw [hkx] at he; cases he
  rename_i k' hk'
  rw [hkx] at hk'; cases hk'
  rw [hlen]
  rcases keys_next h p with ⟨e, e1, e2⟩ | ⟨l', e1, e2⟩ <;> simp only [hl, hx, e1, e2, List.length_map] <;>
    (cases K.kcmp .ne (key w) k with
     | error e => rfl
     | ok b =>
       cases b
       case true => rfl
       cases K.vcmp .eq w v with
       | error e => rfl
       | ok b => cases b <;> rfl)

theorem indexLoop_ok (hlog : ∀ n, 1 ≤ n → n < 2 ^ (K.ilog2 n + 1)) (lo hi : Int) (m : Nat) :
    ∀ {p x n : Nat} {w : α} {l : List α} {t : St α κ}, Reindexed s t → Inv key klt true t →
    At s.lists p x n w → (Core.iter s).length - n = m → getItem s.lists p = .ok l →
    ∃ t', Reindexed s t' ∧ Inv key klt true t' ∧
      indexLoop K s.lists s.keys v k lo (hi - 1) p x l.length t =
        (EqSpec.locate (fun x => K.kcmp .ne (key x) k) (K.vcmp .eq · v) lo hi n ((Core.iter s).drop n), t') := by
  induction m with
  | zero =>
    intro p x n w l t _ _ hat hm
    have := (List.getElem?_eq_some_iff.1 hat.getElem).1
    have e : Core.iter s = s.lists.flatten := rfl
    rw [e] at hm; omega
  | succ m ih =>
    intro p x n w l t hr ht hat hm hl
    obtain ⟨l', hl', hx, hnext⟩ := at_next h.ne_nil hat
    rw [hl] at hl'; cases hl'
    have hw : (Core.iter s)[n]? = some w := hat.getElem
    obtain ⟨hn, hgw⟩ := List.getElem?_eq_some_iff.1 hw
    rw [indexLoop_step h hl hx, List.drop_eq_getElem_cons hn, hgw, EqSpec.locate]
    cases K.kcmp .ne (key w) k with
    | error e => exact ⟨t, hr, ht, rfl⟩
    | ok b =>
    cases b
    case true => exact ⟨t, hr, ht, rfl⟩
    cases K.vcmp .eq w v with
    | error e => exact ⟨t, hr, ht, rfl⟩
    | ok b =>
    simp only
    -- the step to the next position
    have go : ∀ {t : St α κ}, Reindexed s t → Inv key klt true t →
        ∃ t', Reindexed s t' ∧ Inv key klt true t' ∧
        (if x + 1 = l.length then
            if p + 1 = s.lists.length then Py.raise .valueError
            else
              match getItem s.lists (p + 1) with
              | .error e => Py.raise e
              | .ok l' => indexLoop K s.lists s.keys v k lo (hi - 1) (p + 1) 0 l'.length
          else indexLoop K s.lists s.keys v k lo (hi - 1) p (x + 1) l.length : Py (St α κ) Int) t =
        (EqSpec.locate (fun x => K.kcmp .ne (key x) k) (K.vcmp .eq · v) lo hi (n + 1) ((Core.iter s).drop (n + 1)), t') := by
      intro t hr ht
      rcases hnext with ⟨hx1, hp1, hlen⟩ | ⟨hx1, hp1, w', hat'⟩ | ⟨hx1, w', hat'⟩
      · rw [if_pos hx1, if_pos hp1]
        have e : (Core.iter s).length = n + 1 := hlen
        rw [List.drop_eq_nil_of_le (by omega)]
        exact ⟨t, hr, ht, rfl⟩
      · rw [if_pos hx1, if_neg hp1]
        obtain ⟨l', hl', _⟩ := hat'.getItem
        simp only [hl']
        exact ih hr ht hat' (by omega) hl'
      · rw [if_neg hx1]
        exact ih hr ht hat' (by omega) hl
    cases b
    · exact go hr ht
    · simp only [if_true]
      obtain ⟨A, B1, B2, C, e1, e2, e3, e4⟩ := hat
      obtain ⟨t', e, hr', ht'⟩ := ht.loc hlog (hr.lists.trans e1) x
      rw [← e2, show A.flatten.length + x = n by omega] at e
      have hr'' := hr.trans hr'
      simp only [Py.bind_apply, e]
      by_cases hgt : hi ≤ n
      · rw [if_neg (by omega), if_pos (by omega), if_pos hgt]
        exact ⟨t', hr'', ht', rfl⟩
      · rw [if_neg hgt]
        by_cases hlo : lo ≤ n
        · rw [if_pos ⟨hlo, by omega⟩, if_pos hlo]
          exact ⟨t', hr'', ht', rfl⟩
        · rw [if_neg (by omega), if_neg (by omega), if_neg hlo]
          exact go hr'' ht'

end Loops

/-- Where the search begins. -/
theorem split_at {s : St α κ} {A : List (List α)} {B1 B2 : List α} {x : α} {C : List (List α)} {v : α}
    (hl : s.lists = A ++ (B1 ++ x :: B2) :: C) (hP : ∀ y ∈ A.flatten ++ B1, klt (key y) (key v) = true)
    (hx : klt (key x) (key v) = false) :
    ((Core.iter s).dropWhile fun x => klt (key x) (key v)) = (Core.iter s).drop (A.flatten ++ B1).length ∧
    ((Core.iter s).takeWhile fun x => klt (key x) (key v)) = A.flatten ++ B1 := by
  have e := iter_split hl
  rw [e, dropWhile_split hP hx, takeWhile_split hP hx]
  exact ⟨by rw [List.drop_left], rfl⟩

theorem find_ok (hK : K.Ordered key klt) {s : St α κ} (h : Inv key klt true s) (v : α) :
    match EqSpec.keyFind key klt K.kcmp K.vcmp v (Core.iter s) with
    | .error e => find K v s = (.error e, s)
    | .ok none => find K v s = (.ok none, s)
    | .ok (some i) => ∃ p x w, find K v s = (.ok (some (p, x)), s) ∧ At s.lists p x i w := by
  unfold find EqSpec.keyFind
  simp only [Py.get_bind]
  by_cases hm : s.maxes = []
  · simp [hm, iter_nil h hm, EqSpec.seek]
  rw [if_neg hm]
  simp only [hK.key_ok, Py.lift_ok_bind]
  rcases search hK h (key v) with ⟨hall, hb⟩ | ⟨A, B1, x, B2, C, hl, hb, hne, hb2, hP, hx, hQ⟩
  · rw [hb, Py.lift_ok_bind, if_pos rfl, dropWhile_all hall]
    rfl
  simp only [hb, Py.lift_ok_bind, if_neg hne, h.getItem_keys hl, hb2, Py.lift_apply, List.length_map]
  obtain ⟨e1, e2⟩ := split_at hl hP hx
  rw [e1, e2]
  have := findLoop_ok h (K := K) (v := v) (k := key v) _ (at_of_split hl) rfl (getItem_lists hl)
  cases hs : EqSpec.seek (fun x => K.kcmp .ne (key x) (key v)) (K.vcmp .eq · v) ((Core.iter s).drop (A.flatten ++ B1).length) with
  | error e => rw [hs] at this; simp only at this ⊢; rw [this]
  | ok r =>
    rw [hs] at this
    cases r with
    | none => simp only [Option.map_none] at this ⊢; rw [this]
    | some i =>
      simp only [Option.map_some] at this ⊢
      obtain ⟨p', x', w', h1, h2⟩ := this
      exact ⟨p', x', w', by rw [h1], by rw [Nat.add_comm]; exact h2⟩

theorem contains_refines (hK : K.Ordered key klt) (v : α) :
    Refines (Inv key klt true) Core.iter (contains K v) (EqSpec.keyContains key klt K.kcmp K.vcmp v) := by
  refine Refines.of_query (fun s h => ⟨s, ?_, Reindexed.refl s, h⟩) (fun l => by unfold EqSpec.keyContains; split <;> rfl)
  unfold contains EqSpec.keyContains
  have hf := find_ok hK h v
  cases hk : EqSpec.keyFind key klt K.kcmp K.vcmp v (Core.iter s) with
  | error e => rw [hk] at hf; simp only at hf; rw [Py.bind_apply, hf]
  | ok r =>
    rw [hk] at hf
    cases r with
    | none => simp only at hf; rw [Py.bind_ok hf]; rfl
    | some i => obtain ⟨p, x, w, hf, _⟩ := hf; rw [Py.bind_ok hf]; rfl

theorem discard_refines (hK : K.Ordered key klt) (v : α) :
    Refines (Inv key klt true) Core.iter (Verif.SKL.discard K v) (EqSpec.keyDiscard key klt K.kcmp K.vcmp v) := by
  refine Refines.of fun s h => ?_
  unfold Verif.SKL.discard EqSpec.keyDiscard
  have hf := find_ok hK h v
  cases hk : EqSpec.keyFind key klt K.kcmp K.vcmp v (Core.iter s) with
  | error e => rw [hk] at hf; simp only at hf; exact ⟨s, by rw [Py.bind_apply, hf], rfl, h⟩
  | ok r =>
    rw [hk] at hf
    cases r with
    | none => simp only at hf; exact ⟨s, by rw [Py.bind_ok hf]; rfl, rfl, h⟩
    | some i =>
      obtain ⟨p, x, w, hf, hat⟩ := hf
      obtain ⟨s', e', h1, h2⟩ := delete_ok h hat
      exact ⟨s', by rw [Py.bind_ok hf]; exact e', h2, h1⟩

theorem remove_refines (hK : K.Ordered key klt) (v : α) :
    Refines (Inv key klt true) Core.iter (remove K v) (EqSpec.keyRemove key klt K.kcmp K.vcmp v) := by
  refine Refines.of fun s h => ?_
  unfold remove EqSpec.keyRemove
  have hf := find_ok hK h v
  cases hk : EqSpec.keyFind key klt K.kcmp K.vcmp v (Core.iter s) with
  | error e => rw [hk] at hf; simp only at hf; exact ⟨s, by rw [Py.bind_apply, hf], rfl, h⟩
  | ok r =>
    rw [hk] at hf
    cases r with
    | none => simp only at hf; exact ⟨s, by rw [Py.bind_ok hf]; rfl, rfl, h⟩
    | some i =>
      obtain ⟨p, x, w, hf, hat⟩ := hf
      obtain ⟨s', e', h1, h2⟩ := delete_ok h hat
      exact ⟨s', by rw [Py.bind_ok hf]; exact e', h2, h1⟩

theorem count_refines (hK : K.Ordered key klt) (v : α) :
    Refines (Inv key klt true) Core.iter (do let n ← count K v; pure (n : Int)) (EqSpec.keyCount key klt K.kcmp K.vcmp v) := by
  refine Refines.of_query (fun s h => ⟨s, ?_, Reindexed.refl s, h⟩) (fun l => by unfold EqSpec.keyCount; split <;> rfl)
  unfold count EqSpec.keyCount
  have hbind : ∀ m : Except PyErr Nat, ((Py.lift m : Py (St α κ) Nat) >>= fun n => pure (n : Int)) s =
      (match m with | .error e => .error e | .ok n => .ok (n : Int), s) := by
    intro m; cases m <;> rfl
  rw [Py.bind_apply]
  simp only [Py.get_bind]
  by_cases hm : s.maxes = []
  · simp [hm, iter_nil h hm, EqSpec.tally]
  rw [if_neg hm]
  simp only [hK.key_ok, Py.lift_ok_bind]
  rcases search hK h (key v) with ⟨hall, hb⟩ | ⟨A, B1, x, B2, C, hl, hb, hne, hb2, hP, hx, hQ⟩
  · rw [hb, Py.lift_ok_bind, if_pos rfl, dropWhile_all hall]
    rfl
  simp only [hb, Py.lift_ok_bind, if_neg hne, h.getItem_keys hl, hb2, Py.lift_apply, List.length_map]
  obtain ⟨e1, e2⟩ := split_at hl hP hx
  rw [countLoop_ok h _ 0 (at_of_split hl) rfl (getItem_lists hl), e1]
  cases EqSpec.tally (fun x => K.kcmp .ne (key x) (key v)) (K.vcmp .eq · v) ((Core.iter s).drop (A.flatten ++ B1).length) with
  | error e => rfl
  | ok n => simp

theorem index_refines (hK : K.Ordered key klt) (v : α) (start stop : Option Int) :
    Refines (Inv key klt true) Core.iter (index K v start stop) (EqSpec.keyIndex key klt K.kcmp K.vcmp v start stop) := by
  refine Refines.of_query (fun s h => ?_) (fun l => by unfold EqSpec.keyIndex; simp only; split <;> rfl)
  unfold index EqSpec.keyIndex
  simp only [Py.get_bind]
  have hlen : s.len = (Core.iter s).length := h.len_eq
  obtain ⟨b1, b2, b3⟩ := bounds s.len start stop
  rw [hlen] at b1 b2 b3
  by_cases h0 : s.len = 0
  · rw [if_pos h0]
    rw [hlen] at h0
    refine ⟨s, ?_, Reindexed.refl s, h⟩
    rw [if_pos]
    · rfl
    · omega
  rw [if_neg h0, hlen]
  rcases hbd : SL.indexBounds (Core.iter s).length start stop with ⟨lo, hi⟩
  rw [hbd] at b1 b2 b3
  simp only at b1 b2 b3 ⊢
  rw [← b1]
  by_cases hle : hi ≤ lo
  · rw [if_pos hle, if_pos (by omega)]
    exact ⟨s, rfl, Reindexed.refl s, h⟩
  obtain rfl : hi = min (Spec.indexBound (Core.iter s).length (Core.iter s).length stop) (Core.iter s).length := by omega
  clear b3 b1 hbd
  generalize min (Spec.indexBound (Core.iter s).length (Core.iter s).length stop) (Core.iter s).length = hi at hle ⊢
  rw [if_neg hle, if_neg hle]
  simp only [hK.key_ok, Py.lift_ok_bind]
  rcases search hK h (key v) with ⟨hall, hb⟩ | ⟨A, B1, x, B2, C, hl, hb, hne, hb2, hP, hx, hQ⟩
  · rw [hb, Py.lift_ok_bind, if_pos rfl, dropWhile_all hall]
    exact ⟨s, rfl, Reindexed.refl s, h⟩
  simp only [hb, Py.lift_ok_bind, if_neg hne, h.getItem_keys hl, hb2, List.length_map]
  obtain ⟨e1, e2⟩ := split_at hl hP hx
  rw [e1, e2]
  obtain ⟨t', hr', ht', e'⟩ := indexLoop_ok h hK.ilog2 (v := v) (k := key v) lo hi _ (Reindexed.refl s) h (at_of_split hl) rfl
    (getItem_lists hl)
  exact ⟨t', e', hr', ht'⟩

/-- One call. -/
theorem kstep_refines (hK : K.Ordered key klt) (op : KOp α κ) (hv : op.Valid) :
    Refines (Inv key klt true) Core.iter (SKL.kstep K op) (EqSpec.kstep key klt K.kcmp K.vcmp op) := by
  let O : Spec.Order α := { lt := fun a b => klt (key a) (key b), same := fun _ _ => false, cmp := K.vcmp }
  have he : ∀ op' : KOp α κ, op'.Valid → SKL.kstep K op' = SKL.kstep (K.byOrder klt) op' →
      Spec.kstep key klt O op' = Spec.kstep key klt (Spec.Order.ofKey key klt (fun _ _ => true) (K.byOrder klt).vcmp) op' →
      Refines (Inv key klt true) Core.iter (SKL.kstep K op') (Spec.kstep key klt O op') := by
    intro op' hv' h1 h2
    rw [h1, h2]
    exact Verif.SKL.kstep_refines (lawful hK) op' hv'
  have hm := methods_eq hK
  have hn := new_eq hK
  cases op with
  | bisectKeyLeft k => exact he _ hv (by show Spec.out _ (bisect_key_left K k) = _; rw [bisect_key_left_eq hK]; rfl) rfl
  | bisectKeyRight k => exact he _ hv (by show Spec.out _ (bisect_key_right K k) = _; rw [bisect_key_right_eq hK]; rfl) rfl
  | irangeKey lo hi a b r => exact he _ hv (by show Spec.out _ (irange_key K lo hi a b r) = _; rw [irange_key_eq hK]; rfl) rfl
  | op op =>
  cases op with
  | contains v => exact (contains_refines hK v).out _
  | discard v => exact (discard_refines hK v).out _
  | remove v => exact (remove_refines hK v).out _
  | count v => exact (count_refines hK v).out _
  | index v a b => exact (index_refines hK v a b).out _
  | compare op other => exact (compare_refines (O := O) rfl op other).out _
  | add v => exact he _ hv (by show Spec.out _ (add K v) = _; rw [add_eq hK]; rfl) rfl
  | update v => exact he _ hv (by show Spec.out _ (update K v) = _; rw [update_eq hK]; rfl) rfl
  | bisectLeft v => exact he _ hv (by show Spec.out _ (bisect_left K v) = _; rw [bisect_left_eq hK]; rfl) rfl
  | bisectRight v => exact he _ hv (by show Spec.out _ (bisect_right K v) = _; rw [bisect_right_eq hK]; rfl) rfl
  | irange lo hi a b r => exact he _ hv (by show Spec.out _ (irange K lo hi a b r) = _; rw [irange_eq hK]; rfl) rfl
  | delInt i => exact he _ hv (by show Spec.out _ (Core.delInt (methods K) i) = _; rw [hm]; rfl) rfl
  | delSlice i => exact he _ hv (by show Spec.out _ (Core.delSlice (methods K) i) = _; rw [hm]; rfl) rfl
  | pop i => exact he _ hv (by show Spec.out _ (Core.pop (methods K) i) = _; rw [hm]; rfl) rfl
  | iadd i => exact he _ hv (by show Spec.out _ (Core.iadd (methods K) i) = _; rw [hm]; rfl) rfl
  | imul i => exact he _ hv (by show Spec.out _ (Core.imul (methods K) i) = _; rw [hm]; rfl) rfl
  | reset i => exact he _ hv (by show Spec.out _ (Core.reset (methods K) i) = _; rw [hm]; rfl) rfl
  | copy => exact he _ hv (by show Spec.out _ (ListAPI.valuesOf _ fun s => new K (some (Core.iter s))) = _; rw [hn]; rfl) rfl
  | concat xs => exact he _ hv (by show Spec.out _ (ListAPI.valuesOf _ fun s => new K (some (Core.iter s ++ xs))) = _; rw [hn]; rfl) rfl
  | mul n => exact he _ hv (by show Spec.out _ (ListAPI.valuesOf _ fun s => new K (some (repeatList (Core.iter s) n))) = _; rw [hn]; rfl) rfl
  | clear => exact he _ hv rfl rfl
  | getInt => exact he _ hv rfl rfl
  | getSlice => exact he _ hv rfl rfl
  | islice => exact he _ hv rfl rfl
  | iter => exact he _ hv rfl rfl
  | reversed => exact he _ hv rfl rfl
  | len => exact he _ hv rfl rfl
  | unsupported => exact he _ hv rfl rfl

theorem reachable_inv (hK : K.Ordered key klt) {s : St α κ} (hs : SKL.Reachable K s) : Inv key klt true s := by
  induction hs with
  | new e =>
    rename_i xs s
    obtain ⟨s', e', hi, _⟩ := SKL.new_ok (cmp := K.vcmp) (lawful hK) xs
    rw [new_eq hK, e'] at e
    cases e
    exact hi
  | step op hv _ ih => exact (kstep_refines hK op hv _ ih).2.2

end Equality.SKL
end Verif
