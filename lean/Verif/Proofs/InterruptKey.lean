import Verif.Proofs.InterruptMut
/-!
# Interrupted calls: the methods that change a SortedKeyList
-/

namespace Verif
namespace Interrupt
namespace SKL
variable {α κ : Type} {R : List α → Prop} {s : St α κ} {K : KEnv α κ}
open Verif.SKL (W expand_sim expand_ok delete_whole)

theorem expand_tr {pos : Nat}
    (hR : ∀ B, getItem s.lists pos = .ok B → R (s.lists.set pos (B.take s.load)).flatten) :
    Tr (On R) (expand pos) (Verif.SKL.expand pos) s := by
  refine Tr.assume fun hs => Tr.get_bind (Tr.lift_bind fun KB hKB => Tr.ite (fun _ => Tr.lift_bind fun B hB => ?_)
    fun _ => touchIndex_tr (On.noIndex R) _ _)
  have h1 : R (s.lists.set pos (B.take s.load)).flatten := hR B hB
  have h2 : R (insertAt (s.lists.set pos (B.take s.load)) (pos + 1) (B.drop s.load)).flatten := by
    rw [flatten_split hB]; exact hs
  refine Tr.write_bind (fun _ => h1) (Tr.write_bind (fun _ => h1) (Tr.lift_bind fun _ _ => Tr.lift_bind fun _ _ => Tr.write_bind (fun _ => h1) ?_))
  exact Tr.write_bind (fun _ => h2) (Tr.write_bind (fun _ => h2) (Tr.lift_bind fun _ _ => Tr.write_bind (fun _ => h2) (Tr.write fun _ => h2)))

/-- `AddAt K s v p l`: `add` puts the value into sublist number `p`, which becomes `l`. -/
def AddAt (K : KEnv α κ) (s : St α κ) (v : α) (p : Nat) (l' : List α) : Prop :=
  s.maxes ≠ [] ∧ ∃ kv l, K.key v = .ok kv ∧ getItem s.lists p = .ok l ∧
    ((bisectRight K.lt s.maxes kv = .ok s.maxes.length ∧ p = s.maxes.length - 1 ∧ l' = l ++ [v]) ∨
     (bisectRight K.lt s.maxes kv = .ok p ∧ p ≠ s.maxes.length ∧
       ∃ ks i, getItem s.keys p = .ok ks ∧ bisectRight K.lt ks kv = .ok i ∧ l' = insertAt l i v))

theorem add_tr {v : α} (h0 : s.maxes = [] → ∀ kv, K.key v = .ok kv → R (s.lists ++ [[v]]).flatten)
    (hR : ∀ p l', AddAt K s v p l' → R (s.lists.set p l').flatten ∧
      ∀ B, getItem (s.lists.set p l') p = .ok B → R ((s.lists.set p l').set p (B.take s.load)).flatten) :
    Tr (On R) (add K v) (Verif.SKL.add K v) s := by
  refine Tr.get_bind (Tr.lift_bind fun kv hk => Tr.ite (fun hm => ?_) fun hm => ?_)
  · refine Tr.lift_bind fun p hp => Tr.ite (fun he => ?_) fun he => ?_
    · refine Tr.lift_bind fun l hl => ?_
      obtain ⟨h1, h2⟩ := hR (p - 1) (l ++ [v]) ⟨hm, kv, l, hk, hl, .inl ⟨he ▸ hp, by rw [he], rfl⟩⟩
      exact Tr.write_bind (fun _ => h1) (Tr.lift_bind fun _ _ => Tr.write_bind (fun _ => h1) (Tr.write_bind (fun _ => h1)
        (Tr.bind' (expand_tr h2) fun _ _ => Tr.write fun h => h)))
    · refine Tr.lift_bind fun ks hks => Tr.lift_bind fun i hi => Tr.lift_bind fun l hl => ?_
      obtain ⟨h1, h2⟩ := hR p (insertAt l i v) ⟨hm, kv, l, hk, hl, .inr ⟨hp, he, ks, i, hks, hi, rfl⟩⟩
      exact Tr.write_bind (fun _ => h1) (Tr.write_bind (fun _ => h1) (Tr.bind' (expand_tr h2) fun _ _ => Tr.write fun h => h))
  · have h1 := h0 (by simpa using hm) kv hk
    exact Tr.write_bind (fun _ => h1) (Tr.write_bind (fun _ => h1) (Tr.write_bind (fun _ => h1) (Tr.write fun h => h)))

theorem delete_tr {p i : Nat} (hu : ∀ l ∈ s.lists, l.length ≤ s.load * 2) (hkl : s.keys.map List.length = s.lists.map List.length)
    (hR : ∀ l l', getItem s.lists p = .ok l → delItem l i = .ok l' → ∀ x, Torn (s.load * 2) (s.lists.set p l').flatten x → R x) :
    Tr (On R) (delete p i) (Verif.SKL.delete p i) s := by
  refine Tr.get_bind (Tr.lift_bind fun ks hks => Tr.lift_bind fun l hl => Tr.lift_bind fun ks' hks' => Tr.write_bind (fun h => h)
    (Tr.lift_bind fun l' hl' => ?_))
  have hlen : ks'.length = l'.length := by
    have e1 : ks.length = l.length := by
      rw [getItem_ok_iff] at hks hl
      have := congrArg (fun x => x[p]?) hkl
      simpa [hks, hl] using this
    unfold delItem at hks' hl'
    rw [e1] at hks'
    split at hks'
    · rename_i hi
      rw [if_pos hi] at hl'
      cases hks'; cases hl'
      rw [List.length_eraseIdx, List.length_eraseIdx, e1]
    · cases hks'
  have hT := hR l l' hl hl'
  have hF := hT _ (Torn.refl _ _)
  refine Tr.write_bind (fun _ => hF) (Tr.lift_bind fun n _ => Tr.write_bind (fun _ => hF) (Tr.ite (fun _ => ?_) fun hs => Tr.ite (fun _ => ?_) fun _ =>
    Tr.ite (fun _ => ?_) fun hz => ?_))
  · exact Tr.lift_bind fun _ _ => Tr.lift_bind fun _ _ => Tr.write_bind (fun _ => hF) (touchIndex_tr (On.noIndex R) _ _)
  · refine Tr.get_bind (Tr.lift_bind fun ka hka => Tr.lift_bind fun kb hkb => Tr.write_bind (fun h => h) (Tr.lift_bind fun a ha =>
      Tr.lift_bind fun b hb => ?_))
    obtain ⟨prev, hprev⟩ : ∃ prev, prev + 1 = if p = 0 then p + 1 else p := by
      by_cases h0 : p = 0
      · exact ⟨p, by rw [if_pos h0]⟩
      · exact ⟨p - 1, by rw [if_neg h0]; omega⟩
    revert ha hb
    simp only [← hprev, Nat.add_sub_cancel]
    intro ha hb
    obtain ⟨h1, h2⟩ := torn_delete hu (by omega) hprev ha hb
    have h1 := hT _ h1
    refine Tr.write_bind (fun _ => h1) (Tr.lift_bind fun _ _ => Tr.lift_bind fun _ _ => Tr.write_bind (fun _ => h1) ?_)
    refine Tr.get_bind (Tr.lift_bind fun L' hL' => ?_)
    obtain ⟨h3, h4, h5⟩ := h2 L' hL'
    have h3 : R L'.flatten := by rw [h3]; exact hF
    refine Tr.write_bind (fun _ => h3) (Tr.lift_bind fun _ _ => Tr.write_bind (fun _ => h3) (Tr.lift_bind fun _ _ => Tr.write_bind (fun _ => h3)
      (Tr.write_bind (fun _ => h3) (expand_tr fun B hB => ?_))))
    have : B = a ++ b := Except.ok.inj (hB.symm.trans h4)
    rw [this]
    exact hT _ h5
  · exact Tr.lift_bind fun _ _ => Tr.lift_bind fun _ _ => Tr.write fun _ => hF
  · refine Tr.get_bind (Tr.lift_bind fun L' hL' => ?_)
    have h0 : l' = [] := by
      have : ks'.length = 0 := by simpa using hz
      exact List.length_eq_zero_iff.1 (by omega)
    have h3 : R L'.flatten := by
      rw [flatten_delNil (L := s.lists.set p l') _ hL']
      · exact hF
      · obtain ⟨A, C, e1, e2⟩ := split_of_getItem hl
        rw [e1, h0, ← e2]; simp
    exact Tr.write_bind (fun _ => h3) (Tr.lift_bind fun _ _ => Tr.write_bind (fun _ => h3) (Tr.lift_bind fun _ _ => Tr.write_bind (fun _ => h3)
      (Tr.write fun _ => h3)))

/-- An interrupted `_delete`. -/
theorem delete_cut (h : W s) {p i n : Nat} {v : α} (hat : At s.lists p i n v) :
    Tr (On fun l => l = Core.iter s ∨ Torn (s.load * 2) (Core.iter (Verif.SKL.delete p i s).2) l) (delete p i) (Verif.SKL.delete p i) s := by
  refine delete_tr h.upper (h.keys_lens rfl) fun l l' hl hl' x hx => .inr ?_
  obtain ⟨s', e, h1, h2⟩ := delete_whole h hat
  rw [e, h2]
  have : (s.lists.set p l').flatten = (Core.iter s).eraseIdx n := by
    obtain ⟨A, B1, B2, C, hL, rfl, rfl, rfl⟩ := hat
    rw [hL] at hl
    simp at hl
    subst hl
    simp [delItem] at hl'
    subst hl'
    rw [Core.iter, hL]
    simp [List.eraseIdx_append_of_length_le]
  rwa [← this]

theorem key_length (h : W s) {p : Nat} {ks : List κ} {l : List α} (hks : getItem s.keys p = .ok ks) (hl : getItem s.lists p = .ok l) :
    ks.length = l.length := by
  rw [getItem_ok_iff] at hks hl
  have := congrArg (fun x => x[p]?) (h.keys_lens rfl)
  simpa [hks, hl] using this

theorem getItem_key (h : W s) {p : Nat} {l : List α} (hl : getItem s.lists p = .ok l) : ∃ ks, getItem s.keys p = .ok ks := by
  have hk := congrArg List.length (h.keys_lens rfl)
  rw [getItem_ok_iff] at hl
  have hp := (List.getElem?_eq_some_iff.1 hl).1
  exact ⟨_, getItem_ok (i := p) (l := s.keys) (by simp only [List.length_map] at hk; omega)⟩

theorem set_lens (h : W s) {p : Nat} {ks : List κ} {l : List α} (hn : ks.length = l.length) :
    (s.keys.set p ks).map List.length = (s.lists.set p l).map List.length := by
  rw [List.map_set, h.keys_lens rfl, List.map_set, hn]

/-- Where `add` puts the value, if it does not raise. -/
theorem AddAt.iter (h : W s) {v : α} {p : Nat} {l' : List α} (ha : AddAt K s v p l') :
    Core.iter (Verif.SKL.add K v s).2 = (s.lists.set p l').flatten := by
  obtain ⟨hm, kv, l, hk, hl, hb⟩ := ha
  obtain ⟨A, C, hL, rfl⟩ := split_of_getItem hl
  unfold Verif.SKL.add
  simp only [Py.get_bind, hk, Py.lift_ok_bind]
  rw [if_pos hm]
  rcases hb with ⟨hb, hp, rfl⟩ | ⟨hb, hp, ks, i, hks, hi, rfl⟩
  · obtain ⟨ks, hks⟩ := getItem_key h hl
    rw [hb, Py.lift_ok_bind, if_pos rfl, ← hp, hl]
    simp only [Py.lift_ok_bind, Py.modify_bind, hks]
    have hset : s.lists.set A.length (l ++ [v]) = A ++ (l ++ [v]) :: C := by rw [hL]; simp
    obtain ⟨s', e, h1, h2, h3⟩ := h.insert (expand := Verif.SKL.expand) expand_sim expand_ok (A := A) (C := C) (B1 := l) (B2 := []) (v := v)
      (s1 := { s with lists := s.lists.set A.length (l ++ [v]), keys := s.keys.set A.length (ks ++ [kv]), maxes := s.maxes.set A.length kv })
      (by simpa using hL) hset rfl rfl rfl rfl (by simp) (by
        have := set_lens h (p := A.length) (ks := ks ++ [kv]) (l := l ++ [v]) (by simp [key_length h hks hl])
        simpa using this)
    rw [Py.bind_ok e]
    exact h2
  · have hn := key_length h hks hl
    rw [hb, Py.lift_ok_bind, if_neg hp, hks]
    simp only [Py.lift_ok_bind, Py.modify_bind, hi, hl]
    have hlens := set_lens h (p := A.length) (ks := insertAt ks i kv) (l := insertAt l i v) (by simp [insertAt]; omega)
    obtain ⟨B1, B2, rfl, -, hins⟩ := insertAt_eq (l := l) (i := i) (by have := bisectRight_le hi; omega) v
    have hset : s.lists.set A.length (B1 ++ v :: B2) = A ++ (B1 ++ v :: B2) :: C := by rw [hL]; simp
    rw [hins, hset] at hlens ⊢
    obtain ⟨s', e, h1, h2, h3⟩ := h.insert (expand := Verif.SKL.expand) expand_sim expand_ok (A := A) (C := C) (B1 := B1) (B2 := B2) (v := v)
      (s1 := { s with lists := A ++ (B1 ++ v :: B2) :: C, keys := s.keys.set A.length (insertAt ks i kv) }) hL rfl rfl rfl rfl rfl rfl
      (by simpa using hlens)
    rw [Py.bind_ok e]
    exact h2

theorem AddAt.length (h : W s) {v : α} {p : Nat} {l' : List α} (ha : AddAt K s v p l') :
    ∃ l ∈ s.lists, l'.length = l.length + 1 := by
  obtain ⟨hm, kv, l, hk, hl, hb⟩ := ha
  refine ⟨l, by rw [getItem_ok_iff] at hl; exact List.mem_of_getElem? hl, ?_⟩
  rcases hb with ⟨hb, hp, rfl⟩ | ⟨hb, hp, ks, i, hks, hi, rfl⟩
  · simp
  · have hn := key_length h hks hl
    obtain ⟨B1, B2, rfl, -, hins⟩ := insertAt_eq (l := l) (i := i) (by have := bisectRight_le hi; omega) v
    rw [hins]; simp; omega

/-- An interrupted `add`. -/
theorem add_cut (K : KEnv α κ) (h : W s) (v : α) :
    Tr (On fun l => l = Core.iter s ∨ Lost (s.load + 1) (Core.iter (Verif.SKL.add K v s).2) l) (add K v) (Verif.SKL.add K v) s := by
  refine add_tr (fun h0 kv hk => .inr ?_) fun p l' ha => ?_
  · have : Core.iter (Verif.SKL.add K v s).2 = (s.lists ++ [[v]]).flatten := by
      unfold Verif.SKL.add
      simp only [Py.get_bind, hk, Py.lift_ok_bind]
      rw [if_neg (by simp [h0])]
      rfl
    rw [this]; exact Lost.refl _ _
  · rw [ha.iter h]
    refine ⟨.inr (Lost.refl _ _), fun B hB => .inr (lost_split hB ?_)⟩
    obtain ⟨l, hl, e⟩ := ha.length h
    rw [getItem_set_self hB, e]
    have := h.upper l hl
    omega

theorem clear_tr (h0 : R []) : Tr (On R) clear (Verif.SKL.clear) s := fun hs hh =>
  ⟨[{ s with len := 0 }, { s with len := 0, lists := [] }, { s with len := 0, lists := [], keys := [] },
    { s with len := 0, lists := [], keys := [], maxes := [] }, { s with len := 0, lists := [], keys := [], maxes := [], index := [] }],
    by
      show ((((hh ++ _) ++ _) ++ _) ++ _) ++ _ = _
      simp, by
      intro x hx
      simp only [List.mem_cons, List.not_mem_nil, or_false] at hx
      rcases hx with rfl | rfl | rfl | rfl | rfl
      · exact hs
      all_goals exact h0, h0, rfl, Reindexed.refl _, fun _ _ => rfl⟩

theorem fill_tr (hload : 1 ≤ s.load) (hl : s.lists = []) (hk : s.keys = []) {vs : List α} (hR : ∀ a b, vs = a ++ b → R a) :
    Tr (On R) (fill K vs) (Verif.SKL.fill K vs) s := by
  obtain ⟨cs, ec, h1, h2, -⟩ := chunks_ok hload vs
  refine Tr.get_bind ?_
  simp only [ec]
  refine Tr.lift_bind fun cs' e => ?_
  cases e
  refine Tr.bind (Tr.extend (f := Except.ok) (g := fun ls s => { s with lists := s.lists ++ ls }) (by simp) (by simp) cs cs s
    (by simpa using mapE_ok (f := Except.ok) (g := id) cs (fun _ _ => rfl)) ?_) ?_
  · intro a b e
    show R (s.lists ++ a).flatten
    rw [hl]
    exact hR a.flatten b.flatten (by rw [← h1, e]; simp)
  · rintro _ s1 e hs1
    cases e
    refine Tr.get_bind ?_
    simp only [hl, List.nil_append]
    refine Tr.bind (Tr.forEach (I := fun _ => True) (fun l s _ => ?_) (fun _ _ _ _ _ => trivial) cs trivial) ?_
    · exact Tr.lift_bind fun ks _ => Tr.write fun h => h
    intro _ s1 e hs1
    obtain ⟨ks, rfl, hks⟩ := Verif.SKL.fillKeys_whole K cs _ _ e
    refine Tr.get_bind ?_
    simp only [hk, List.nil_append]
    have hne : ∀ l ∈ ks, l ≠ [] := by
      intro l hm he
      have : (0 : Nat) ∈ cs.map List.length := by
        rw [← hks]; exact List.mem_map.2 ⟨l, hm, by rw [he]; rfl⟩
      obtain ⟨c, hc, h0⟩ := List.mem_map.1 this
      exact h2 c hc (List.length_eq_zero_iff.1 h0)
    obtain ⟨ms, em, -⟩ := mapE_lastItem (k := id) ks hne
    simp only [List.map_id_fun, List.map_id, id] at em
    rw [em]
    change Tr (On R) _ ((Py.modify fun s => { s with maxes := s.maxes ++ ms }) >>= fun _ => do
      Py.modify fun s => { s with len := vs.length }
      Py.modify fun s => { s with index := [] }) _
    have hv : R (cs.flatten) := hR _ [] (by rw [h1]; simp)
    refine Tr.bind (Tr.extend (f := lastItem) (g := fun ms s => { s with maxes := s.maxes ++ ms }) (by simp) (by simp) ks ms _ em ?_) ?_
    · intro a b _; exact hv
    · rintro _ s1 e hs1
      cases e
      exact Tr.write_bind (fun h => h) (Tr.write fun h => h)

theorem addAll_cut (K : KEnv α κ) {xs : List α} (vs : List α) : ∀ {s : St α κ}, W s → PartOf xs (Core.iter s ++ vs) →
    Tr (On (PartOf xs)) (IPy.forEach (add K) vs) (Py.forEach (Verif.SKL.add K) vs) s := by
  induction vs with
  | nil => intro s _ _; exact Tr.pure ()
  | cons v vs ih =>
    intro s h hw
    have hs : PartOf xs (Core.iter s) := hw.trans PartOf.of_prefix
    have hstep : Tr (On (PartOf xs)) (add K v) (Verif.SKL.add K v) s := by
      refine (add_cut K h v).weaken (.inl rfl) fun x hx => ?_
      rcases hx with hx | hx
      · show PartOf xs (Core.iter x)
        rw [hx]; exact hs
      · refine PartOf.trans ?_ hx.within
        rcases Verif.SKL.add_whole K h v with ⟨e, he⟩ | ⟨s', e, -, h2⟩
        · rw [he]; exact hs
        · rw [e]
          refine hw.trans ?_
          refine ⟨vs, (h2.perm.append_right vs).trans List.perm_middle.symm⟩
    refine Tr.bind hstep fun _ s1 e _ => ?_
    rcases Verif.SKL.add_whole K h v with ⟨e', he⟩ | ⟨s', e', h1, h2⟩
    · rw [he] at e; cases e
    · rw [e'] at e; cases e
      exact ih h1 (hw.trans (PartOf.of_perm ((h2.perm.append_right vs).trans List.perm_middle.symm)))

/-- An interrupted `update`. -/
theorem update_cut (hK : K.Sane) (h : W s) (xs : List α) :
    Tr (On (PartOf (Core.iter s ++ xs))) (update K xs) (Verif.SKL.update K xs) s := by
  refine Tr.lift_bind fun ys hys => Tr.get_bind (Tr.ite (fun hm => Tr.ite (fun _ => ?_) fun _ => ?_) fun hm => ?_)
  all_goals have hp := hK.perm _ _ hys
  · have h1 : PartOf (Core.iter s ++ xs) (s.lists ++ [ys]).flatten := by
      refine PartOf.of_perm ?_
      simpa [Core.iter] using hp.append_left s.lists.flatten
    refine Tr.write_bind (fun _ => h1) (Tr.get_bind (Tr.lift_bind fun zs hzs => Tr.bind (clear_tr (PartOf.nil _)) ?_))
    rintro _ s1 e -
    cases e
    refine fill_tr (R := PartOf (Core.iter s ++ xs))
      (s := { s with lists := [], len := 0, keys := [], maxes := [], index := [] }) h.load_pos rfl rfl fun a b e => h1.trans ?_
    refine PartOf.trans (PartOf.of_perm (hK.perm _ _ hzs)) ?_
    rw [e]; exact PartOf.of_prefix
  · exact addAll_cut K ys h (PartOf.of_perm (hp.append_left _))
  · have hm : s.maxes = [] := by simpa using hm
    have hl0 := h.maxes_nil.1 hm
    have hk0 : s.keys = [] := by have := h.keys_lens rfl; rw [hl0] at this; simpa using this
    refine fill_tr h.load_pos hl0 hk0 fun a b e => ?_
    rw [Core.iter, hl0]
    refine PartOf.trans (PartOf.of_perm hp) ?_
    rw [e]; exact PartOf.of_prefix

end SKL
end Interrupt
end Verif
