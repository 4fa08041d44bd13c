import Verif.Proofs.SLMut
/-!
# SortedKeyList: the methods that change the list
-/

namespace Verif
variable {α κ : Type} {key : α → κ} {klt : κ → κ → Bool}

namespace SKL

theorem getLast?_map' {l : List α} : (l.map key).getLast? = l.getLast?.map key := List.getLast?_map ..

theorem expand_ok : ExpandOK (expand (α := α) (κ := κ)) key klt true := by
  intro s A B C MA m MC n hseg hl hm hA hB hC hn hix hkeys
  have hlen := hA.length_eq
  have hk : s.keys = A.map (List.map key) ++ B.map key :: C.map (List.map key) := by
    rw [hkeys rfl, hl]; simp
  unfold expand
  simp only [Py.get_bind]
  have hg : getItem s.lists A.length = .ok B := by rw [hl]; simp
  have hgk : getItem s.keys A.length = .ok (B.map key) := by rw [hk]; exact getItem_append_cons _ _ _ (by simp)
  rw [hgk, Py.lift_ok_bind, List.length_map]
  by_cases hlong : B.length > s.load * 2
  · rw [if_pos hlong]
    obtain ⟨m1, h1⟩ := take_getLast? (B := B) hseg.load_pos (by have := hseg.load_pos; omega)
    obtain ⟨m2, h2⟩ := drop_getLast? (B := B) (n := s.load) (by omega)
    have h1' : lastItem ((B.map key).take s.load) = .ok (key m1) :=
      lastItem_of_getLast? (by rw [← List.map_take, getLast?_map', h1]; rfl)
    have h2' : lastItem ((B.map key).drop s.load) = .ok (key m2) :=
      lastItem_of_getLast? (by rw [← List.map_drop, getLast?_map', h2]; rfl)
    refine ⟨{ s with lists := A ++ B.take s.load :: B.drop s.load :: C, maxes := MA ++ key m1 :: key m2 :: MC,
                     keys := (A ++ B.take s.load :: B.drop s.load :: C).map (List.map key), index := [] },
      ?_, rfl, ?_, ?_⟩
    · rw [hg, Py.lift_ok_bind]
      simp only [Py.modify_bind, h1', h2', Py.lift_ok_bind, hm,
        setItem_append_cons _ _ _ _ hlen.symm, Py.modify_apply, hl, set_append_cons _ _ _ _ rfl, hk,
        set_append_cons (A.map (List.map key)) _ _ _ (by simp : A.length = _)]
      have e1 : A ++ B.take s.load :: C = (A ++ [B.take s.load]) ++ C := by simp
      have e2 : MA ++ key m1 :: MC = (MA ++ [key m1]) ++ MC := by simp
      have e3 : A.map (List.map key) ++ (B.map key).take s.load :: C.map (List.map key) =
        (A.map (List.map key) ++ [(B.map key).take s.load]) ++ C.map (List.map key) := by simp
      rw [e1, e2, e3, insertAt_append _ _ _ (by simp), insertAt_append _ _ _ (by simp),
        insertAt_append _ _ _ (by simp [hlen])]
      simp
    · simp only [hl, List.flatten_append, List.flatten_cons]
      rw [← List.append_assoc (B.take s.load), List.take_append_drop]
    · exact hseg.inv_split rfl hlong rfl rfl hA (by rw [h1]; rfl) (by rw [h2]; rfl) hC rfl rfl (fun _ => rfl)
  · rw [if_neg hlong]
    obtain ⟨ix, e, hix'⟩ := touchIndex_incr hl hn hix
    refine ⟨_, e, rfl, rfl, ?_⟩
    exact hseg.inv_keep rfl hl hm hA hB hC (by omega) rfl hix' hkeys

theorem delete_ok {s : St α κ} {p x n : Nat} {v : α} (h : Inv key klt true s) (hat : At s.lists p x n v) :
    ∃ s', delete p x s = (.ok (), s') ∧ Inv key klt true s' ∧ Core.iter s' = (Core.iter s).eraseIdx n := by
  obtain ⟨A, B1, B2, C, hl, rfl, rfl, rfl⟩ := hat
  obtain ⟨hflat, hsorted, hlen⟩ := h.delete_facts hl
  obtain ⟨f1, f2, f3, f4, f5, f6, f7, f8, f9⟩ := h.seg_facts hl
  have hmax := h.maxes
  rw [hl] at hmax
  obtain ⟨MA, m, MC, hm, hA, hB, hC⟩ := hmax.split_cons
  have hMA := hA.length_eq
  have hload := h.load_pos
  have hBl : (B1 ++ v :: B2).length = (B1 ++ B2).length + 1 := by simp; omega
  have hk : s.keys = A.map (List.map key) ++ (B1.map key ++ key v :: B2.map key) :: C.map (List.map key) := by
    rw [h.keys_eq rfl, hl]; simp
  unfold delete
  simp only [Py.get_bind]
  have hg : getItem s.lists A.length = .ok (B1 ++ v :: B2) := by rw [hl]; simp
  have hgk : getItem s.keys A.length = .ok (B1.map key ++ key v :: B2.map key) := by
    rw [hk]; exact getItem_append_cons _ _ _ (by simp)
  have hdk : delItem (B1.map key ++ key v :: B2.map key) B1.length = .ok ((B1 ++ B2).map key) := by
    rw [delItem_append_cons _ _ _ (by simp)]; simp
  have hset : s.lists.set A.length (B1 ++ B2) = A ++ (B1 ++ B2) :: C := by rw [hl]; simp
  have hsetk : s.keys.set A.length ((B1 ++ B2).map key) = (A ++ (B1 ++ B2) :: C).map (List.map key) := by
    rw [hk, set_append_cons _ _ _ _ (by simp)]; simp
  have hdecr : Core.decr s.len = .ok (A ++ (B1 ++ B2) :: C).flatten.length := by rw [hlen]; rfl
  have hKlen : s.keys.length = A.length + C.length + 1 := by rw [hk]; simp; omega
  simp only [hg, hgk, Py.lift_ok_bind, hdk, delItem_append_cons _ _ _ rfl, Py.modify_bind, hset, hsetk, hdecr]
  clear hk hgk hdk hsetk
  generalize hB12 : B1 ++ B2 = B at *
  rw [List.length_map]
  by_cases hbig : B.length > s.load / 2
  · -- the sublist is still long enough
    rw [if_pos hbig]
    have hBne : B ≠ [] := List.ne_nil_of_length_pos (by omega)
    have hlast : lastItem (B.map key) = .ok (key (B.getLast hBne)) :=
      lastItem_of_getLast? (by rw [getLast?_map', List.getLast?_eq_some_getLast hBne]; rfl)
    simp only [hlast, Py.lift_ok_bind, hm, setItem_append_cons _ _ _ _ hMA.symm, Py.modify_bind]
    have hseg : Seg key klt s.load A B C :=
      ⟨hload, f1, hBne, f3, hsorted, f4, by omega, f6, f7, fun _ => by omega, f9⟩
    obtain ⟨ix, e, hix'⟩ := touchIndex_decr (s := { s with
        lists := A ++ B :: C, keys := (A ++ B :: C).map (List.map key), len := (A ++ B :: C).flatten.length,
        maxes := MA ++ key (B.getLast hBne) :: MC })
      (A := A) (B := B) (C := C) rfl (fun hne => by
        obtain ⟨ht, h2⟩ := h.index_ok hne
        rw [hl, List.map_append, List.map_cons, hBl] at ht
        rw [hl] at h2
        exact ⟨ht, by simpa using h2⟩)
    refine ⟨_, e, ?_, hflat⟩
    exact hseg.inv_keep rfl rfl rfl hA (by simp [List.getLast?_eq_some_getLast hBne]) hC
      (by omega) rfl hix' (fun _ => rfl)
  rw [if_neg hbig]
  have hLlen : s.lists.length = A.length + C.length + 1 := by rw [hl]; simp; omega
  by_cases hmany : s.keys.length > 1
  · -- merge with a neighbour
    rw [if_pos hmany]
    rcases List.eq_nil_or_concat A with rfl | ⟨A', P, rfl⟩
    · -- with the next one
      have hMA' : MA = [] := List.length_eq_zero_iff.1 (by simpa using hMA)
      subst hMA'
      obtain ⟨Q, C', rfl⟩ : ∃ Q C', C = Q :: C' := by
        cases C with
        | nil => simp at hKlen; omega
        | cons Q C' => exact ⟨Q, C', rfl⟩
      obtain ⟨M0, m', MC', hMC, hM0, hQ, hC'⟩ := MaxesOK.split_cons (A := []) hC
      have hM0' : M0 = [] := List.length_eq_zero_iff.1 (by simpa using hM0.length_eq)
      subst hM0' hMC
      have hQne := f3 Q (by simp)
      have hBQ : B ++ Q ≠ [] := by simp [hQne]
      have hBQlast : (B ++ Q).getLast?.map key = some m' := by
        rw [List.getLast?_append, List.getLast?_eq_some_getLast hQne]
        rw [List.getLast?_eq_some_getLast hQne] at hQ
        exact hQ
      have hlast : lastItem (B.map key ++ Q.map key) = .ok m' := by
        apply lastItem_of_getLast?
        rw [← List.map_append, getLast?_map', hBQlast]
      have e0 : getItem (B :: Q :: C') 0 = .ok B := rfl
      have e1 : getItem (B :: Q :: C') 1 = .ok Q := rfl
      have e0k : getItem (B.map key :: Q.map key :: C'.map (List.map key)) 0 = .ok (B.map key) := rfl
      have e1k : getItem (B.map key :: Q.map key :: C'.map (List.map key)) 1 = .ok (Q.map key) := rfl
      have e2 : setItem (m :: m' :: MC') 0 m' = .ok (m' :: m' :: MC') := rfl
      have e3 : delItem ((B ++ Q) :: Q :: C') 1 = .ok ((B ++ Q) :: C') := rfl
      have e3k : delItem ((B.map key ++ Q.map key) :: Q.map key :: C'.map (List.map key)) 1 =
        .ok ((B.map key ++ Q.map key) :: C'.map (List.map key)) := rfl
      have e4 : delItem (m' :: m' :: MC') 1 = .ok (m' :: MC') := rfl
      simp only [List.length_nil, if_pos trivial, List.nil_append, Py.get_bind, Nat.zero_add, Nat.sub_self, e0, e1,
        List.map_cons, e0k, e1k, e3k,
        Py.lift_ok_bind, Py.modify_bind, hlast, hm, e2, List.set_cons_zero, e3, e4]
      have hseg : Seg key klt s.load [] (B ++ Q) C' := by
        refine ⟨hload, by simp, hBQ, fun l hl => f3 l (by simp [hl]), ?_, by simp, ?_, fun l hl => f6 l (by simp [hl]),
          by simp, ?_, ?_⟩
        · simpa using hsorted
        · have := f6 Q (by simp); simp; omega
        · intro hC'ne
          have := f9 Q (by rw [List.dropLast_cons_of_ne_nil hC'ne]; simp)
          simp; omega
        · intro l hl
          exact f9 l (by rw [List.dropLast_cons_of_ne_nil (by rintro rfl; simp at hl)]; simp [hl])
      obtain ⟨s', e, hlen', hflat', hinv⟩ := expand_ok (klt := klt)
        { s with lists := (B ++ Q) :: C', len := (B :: Q :: C').flatten.length, maxes := m' :: MC', index := [],
                 keys := (B.map key ++ Q.map key) :: C'.map (List.map key) }
        [] (B ++ Q) C' [] m' MC' ((B ++ Q).length - 1) hseg rfl rfl rfl hBQlast hC'
        (by have := List.length_pos_iff.2 hBQ; omega) (by simp) (by simp)
      have hf : s'.lists.flatten = (B :: Q :: C').flatten := by rw [hflat']; simp
      refine ⟨s', e, ?_, ?_⟩
      · have : s' = { s' with len := s'.lists.flatten.length } := by
          rw [hf]
          have hlen' : s'.len = (B :: Q :: C').flatten.length := hlen'
          rw [← hlen']
        rw [this]; exact hinv
      · rw [Core.iter, hf]; exact hflat
    · -- with the previous one
      rw [List.concat_eq_append] at *
      obtain ⟨MA', mP, M0, hMAeq, hA', hP, hM0⟩ := hA.split_cons
      have hM0' : M0 = [] := List.length_eq_zero_iff.1 (by simpa using hM0.length_eq)
      subst hM0' hMAeq
      have hMA' := hA'.length_eq
      have hPne := f1 P (by simp)
      have hPB : P ++ B ≠ [] := by simp [hPne]
      have hlast : lastItem (P.map key ++ B.map key) = .ok (key ((P ++ B).getLast hPB)) :=
        lastItem_of_getLast? (by rw [← List.map_append, getLast?_map', List.getLast?_eq_some_getLast hPB]; rfl)
      have e0 : (A' ++ [P]).length ≠ 0 := by simp
      have e1 : getItem ((A' ++ [P]) ++ B :: C) ((A' ++ [P]).length - 1) = .ok P := by
        rw [List.append_assoc]; simp
      have e1' : getItem ((A' ++ [P]) ++ B :: C) ((A' ++ [P]).length) = .ok B := getItem_append_cons _ _ _ rfl
      have e1k : getItem (((A' ++ [P]) ++ B :: C).map (List.map key)) ((A' ++ [P]).length - 1) = .ok (P.map key) := by
        rw [List.append_assoc, List.map_append]; exact getItem_append_cons _ _ _ (by simp)
      have e1'k : getItem (((A' ++ [P]) ++ B :: C).map (List.map key)) ((A' ++ [P]).length) = .ok (B.map key) := by
        rw [List.map_append]; exact getItem_append_cons _ _ _ (by simp)
      have e2 : ((A' ++ [P]) ++ B :: C).set ((A' ++ [P]).length - 1) (P ++ B) = A' ++ (P ++ B) :: B :: C := by
        rw [List.append_assoc]; simp
      have e2k : (((A' ++ [P]) ++ B :: C).map (List.map key)).set ((A' ++ [P]).length - 1) (P.map key ++ B.map key) =
          (A' ++ (P ++ B) :: B :: C).map (List.map key) := by
        rw [← List.map_append, ← List.map_set, e2]
      have e3 : setItem ((MA' ++ [mP]) ++ m :: MC) ((A' ++ [P]).length - 1) (key ((P ++ B).getLast hPB)) =
          .ok (MA' ++ key ((P ++ B).getLast hPB) :: m :: MC) := by
        rw [List.append_assoc]; exact setItem_append_cons _ _ _ _ (by simp [hMA'])
      have e4 : delItem (A' ++ (P ++ B) :: B :: C) (A' ++ [P]).length = .ok (A' ++ (P ++ B) :: C) := by
        have := delItem_append_cons (A' ++ [P ++ B]) B C (n := (A' ++ [P]).length) (by simp)
        simpa using this
      have e4k : delItem ((A' ++ (P ++ B) :: B :: C).map (List.map key)) (A' ++ [P]).length =
          .ok ((A' ++ (P ++ B) :: C).map (List.map key)) := by
        have := delItem_append_cons ((A' ++ [P ++ B]).map (List.map key)) (B.map key) (C.map (List.map key))
          (n := (A' ++ [P]).length) (by simp)
        simpa using this
      have e5 : delItem (MA' ++ key ((P ++ B).getLast hPB) :: m :: MC) (A' ++ [P]).length =
          .ok (MA' ++ key ((P ++ B).getLast hPB) :: MC) := by
        have := delItem_append_cons (MA' ++ [key ((P ++ B).getLast hPB)]) m MC (n := (A' ++ [P]).length)
          (by simp [hMA'])
        simpa using this
      simp only [if_neg e0, Py.get_bind, e1, e1', e1k, e1'k, Py.lift_ok_bind, Py.modify_bind, hlast, hm, e2, e2k, e3,
        e4, e4k, e5]
      have hpos : (A' ++ [P]).length - 1 = A'.length := by simp
      rw [hpos]
      have hseg : Seg key klt s.load A' (P ++ B) C := by
        refine ⟨hload, fun l hl => f1 l (by simp [hl]), hPB, f3, ?_, fun l hl => f4 l (by simp [hl]), ?_, f6,
          fun l hl => f7 l (by simp [hl]), ?_, f9⟩
        · simpa using hsorted
        · have := f4 P (by simp); simp; omega
        · intro _; have := f7 P (by simp); simp; omega
      obtain ⟨s', e, hlen', hflat', hinv⟩ := expand_ok (klt := klt)
        { s with lists := A' ++ (P ++ B) :: C, len := ((A' ++ [P]) ++ B :: C).flatten.length,
                 keys := (A' ++ (P ++ B) :: C).map (List.map key),
                 maxes := MA' ++ key ((P ++ B).getLast hPB) :: MC, index := [] }
        A' (P ++ B) C MA' (key ((P ++ B).getLast hPB)) MC ((P ++ B).length - 1) hseg rfl rfl hA'
        (by rw [List.getLast?_eq_some_getLast hPB]; rfl) hC
        (by have := List.length_pos_iff.2 hPB; omega) (by simp) (fun _ => rfl)
      have hf : s'.lists.flatten = ((A' ++ [P]) ++ B :: C).flatten := by rw [hflat']; simp
      refine ⟨s', e, ?_, ?_⟩
      · have : s' = { s' with len := s'.lists.flatten.length } := by
          rw [hf]
          have hlen' : s'.len = ((A' ++ [P]) ++ B :: C).flatten.length := hlen'
          rw [← hlen']
        rw [this]; exact hinv
      · rw [Core.iter, hf]; exact hflat
  · -- a single sublist
    rw [if_neg hmany]
    have hA0 : A = [] := List.length_eq_zero_iff.1 (by omega)
    have hC0 : C = [] := List.length_eq_zero_iff.1 (by omega)
    subst hA0 hC0
    have hMA0 : MA = [] := List.length_eq_zero_iff.1 (by simpa using hMA)
    have hMC0 : MC = [] := List.length_eq_zero_iff.1 (by simpa using hC.length_eq)
    subst hMA0 hMC0
    have hix := h.index_nil (by omega)
    by_cases hne : B.length ≠ 0
    · rw [if_pos hne]
      have hBne : B ≠ [] := List.ne_nil_of_length_pos (by omega)
      have hlast : lastItem (B.map key) = .ok (key (B.getLast hBne)) :=
        lastItem_of_getLast? (by rw [getLast?_map', List.getLast?_eq_some_getLast hBne]; rfl)
      have e2 : setItem ([] ++ [m]) ([] : List (List α)).length (key (B.getLast hBne)) =
        .ok [key (B.getLast hBne)] := rfl
      simp only [hlast, Py.lift_ok_bind, hm, e2, Py.modify_apply]
      refine ⟨_, rfl, ?_, hflat⟩
      have hseg : Seg key klt s.load [] B [] :=
        ⟨hload, by simp, hBne, by simp, hsorted, by simp, by omega, by simp, by simp, by simp, by simp⟩
      exact hseg.inv_keep (MA := []) (MC := []) (m := key (B.getLast hBne)) rfl rfl rfl rfl
        (by rw [List.getLast?_eq_some_getLast hBne]; rfl) rfl
        (by omega) rfl (fun h' => absurd hix h') (fun _ => rfl)
    · rw [if_neg hne]
      have hB0 : B = [] := List.length_eq_zero_iff.1 (by omega)
      subst hB0
      have e3 : delItem (([] : List (List α)) ++ [[]]) ([] : List (List α)).length = .ok [] := rfl
      have e3k : delItem ((([] : List (List α)) ++ [[]]).map (List.map key)) ([] : List (List α)).length = .ok [] := rfl
      have e4 : delItem ([] ++ [m]) ([] : List (List α)).length = .ok [] := rfl
      simp only [Py.get_bind, e3, e3k, Py.lift_ok_bind, Py.modify_bind, hm, e4, Py.modify_apply]
      refine ⟨_, rfl, ?_, hflat⟩
      exact Inv.of_empty hload rfl rfl rfl rfl (by simp)

variable {veq : α → α → Bool} {cmp : CmpOp → α → α → Except PyErr Bool}

theorem add_ok {K : KEnv α κ} (hK : K.Lawful key klt veq) {s : St α κ} (h : Inv key klt true s) (v : α) :
    ∃ s', add K v s = (.ok (), s') ∧ Inv key klt true s' ∧
      Core.iter s' = Spec.insert (Spec.Order.ofKey key klt veq cmp) (Core.iter s) v := by
  have hO : StrictWeakOrder (Spec.Order.ofKey key klt veq cmp).lt := hK.order.comap key
  have hs : Sorted (Spec.Order.ofKey key klt veq cmp).lt s.lists.flatten := h.sorted
  have hlt : ∀ a b, K.lt a b = .ok (klt a b) := fun a b => hK.kcmp_ok .lt a b
  have hsort := Spec.insert_sorted hO hs v
  -- the end of the method
  have done : ∀ s1 : St α κ, s1.len = s.len →
      s1.lists.flatten = Spec.insert (Spec.Order.ofKey key klt veq cmp) (Core.iter s) v →
      Inv key klt true { s1 with len := s1.lists.flatten.length } →
      Inv key klt true { s1 with len := s1.len + 1 } := by
    intro s1 h1 h2 h3
    have : s1.len + 1 = s1.lists.flatten.length := by
      rw [h2, h1, (Spec.insert_perm _ v).length_eq, h.len_eq]; simp [Core.iter]
    rw [this]; exact h3
  unfold add
  simp only [Py.get_bind, hK.key_ok, Py.lift_ok_bind]
  by_cases hm0 : s.maxes = []
  · have hl0 : s.lists = [] := h.maxes.nil_iff.1 hm0
    have hk0 : s.keys = [] := by rw [h.keys_eq rfl, hl0]; rfl
    have hix := h.index_nil (by rw [hl0]; simp)
    simp only [hm0, ne_eq, not_true_eq_false, if_false, Py.modify_bind, Py.modify_apply, hl0, hk0, List.nil_append]
    have hi : Core.iter s = [] := by rw [Core.iter, hl0]; rfl
    refine ⟨_, rfl, ?_, by rw [hi]; rfl⟩
    refine done { s with lists := [[v]], keys := [[key v]], maxes := [key v] } rfl (by rw [hi]; rfl) ?_
    have hseg : Seg key klt s.load [] [v] [] :=
      ⟨h.load_pos, by simp, by simp, by simp, by simp [Sorted], by simp,
        by have := h.load_pos; simp; omega, by simp, by simp, by simp, by simp⟩
    exact hseg.inv_keep (MA := []) (MC := []) (m := key v) rfl rfl rfl rfl rfl rfl
      (by have := h.load_pos; simp; omega) rfl (fun h' => absurd hix h') (fun _ => rfl)
  rw [if_pos hm0]
  have hmono : Mono ((fun m => !klt (key v) m) ∘ key) s.lists.flatten := by
    refine List.Pairwise.imp (fun {a b} hab hb => ?_) h.sorted
    simp only [Function.comp, Bool.not_eq_true'] at *
    exact hK.order.negtrans _ _ _ hb hab
  rcases locate (p := fun m => !klt (key v) m) h.maxes hmono with ⟨hall, hallm⟩ |
    ⟨A, B1, B2, C, MA, m, MC, hl, hB2, hm, hA, hB, hC, pA, pB1, pB2, pC, pMA, pm, pMC⟩
  · -- at the very end
    have hb : bisectRight K.lt s.maxes (key v) = .ok s.maxes.length := by
      have := bisectRight_eq K.lt s.maxes [] (key v) (fun a ha => by rw [hlt]; simpa using hallm a ha) (by simp)
      simpa using this
    rw [hb, Py.lift_ok_bind, if_pos rfl]
    have hlne : s.lists ≠ [] := fun e => hm0 (h.maxes.nil_iff.2 e)
    obtain ⟨A, B, hl⟩ : ∃ A B, s.lists = A ++ [B] := ⟨_, _, (List.dropLast_concat_getLast hlne).symm⟩
    have hmax := h.maxes
    rw [hl] at hmax
    obtain ⟨MA, m, M0, hm, hA, hB, hM0⟩ := hmax.split_cons
    have hM0' : M0 = [] := List.length_eq_zero_iff.1 (by simpa using hM0.length_eq)
    subst hM0'
    have hMA := hA.length_eq
    obtain ⟨f1, f2, f3, f4, f5, f6, f7, f8, f9⟩ := h.seg_facts hl
    have hins : Spec.insert (Spec.Order.ofKey key klt veq cmp) (Core.iter s) v = (A ++ [B ++ [v]]).flatten := by
      rw [Spec.insert_split (A := Core.iter s) (B := []) (by simp)
        (fun a ha => by simpa [Spec.Order.ofKey] using hall a ha) (by simp)]
      rw [Core.iter, hl]; simp
    have hseg : Seg key klt s.load A (B ++ [v]) [] := by
      refine ⟨h.load_pos, f1, by simp, by simp, ?_, f4, ?_, by simp, f7, by simp, by simp⟩
      · rw [← hins]; exact hsort
      · have := h.load_pos; simp; omega
    have hpos : s.maxes.length - 1 = A.length := by rw [hm]; simp [hMA]
    have hg : getItem s.lists A.length = .ok B := by rw [hl]; simp
    have hk : s.keys = A.map (List.map key) ++ [B.map key] := by rw [h.keys_eq rfl, hl]; simp
    have hgk : getItem s.keys A.length = .ok (B.map key) := by rw [hk]; exact getItem_append_cons _ _ _ (by simp)
    have hset : s.lists.set A.length (B ++ [v]) = A ++ [B ++ [v]] := by rw [hl]; simp
    have hsetk : s.keys.set A.length (B.map key ++ [key v]) = (A ++ [B ++ [v]]).map (List.map key) := by
      rw [hk, set_append_cons _ _ _ _ (by simp)]; simp
    have hset' : s.maxes.set A.length (key v) = MA ++ [key v] := by rw [hm, set_append_cons _ _ _ _ hMA.symm]
    simp only [hpos, hg, hgk, Py.lift_ok_bind, Py.modify_bind, hset, hset', hsetk]
    obtain ⟨s', e, hlen', hflat', hinv⟩ := expand_ok (klt := klt)
      { s with lists := A ++ [B ++ [v]], keys := (A ++ [B ++ [v]]).map (List.map key), maxes := MA ++ [key v] }
      A (B ++ [v]) [] MA (key v) [] B.length hseg rfl rfl hA
      (by simp) rfl (by simp) (fun hne => by
        obtain ⟨ht, h2⟩ := h.index_ok hne
        rw [hl] at ht h2
        exact ⟨by simpa using ht, by simpa using h2⟩) (fun _ => rfl)
    rw [Py.bind_ok e]
    refine ⟨_, rfl, done s' hlen' ?_ hinv, ?_⟩
    · rw [hflat', hins]
    · rw [Core.iter, hflat', hins]
  · -- inside
    have hMA := hA.length_eq
    have hb : bisectRight K.lt s.maxes (key v) = .ok A.length := by
      rw [hm, ← hMA]
      refine bisectRight_eq K.lt MA (m :: MC) (key v) (fun a ha => by rw [hlt]; simpa using pMA a ha) ?_
      intro b hb
      rw [hlt]
      rcases List.mem_cons.1 hb with rfl | hb
      · simpa using pm
      · simpa using pMC b hb
    rw [hb, Py.lift_ok_bind, if_neg (by rw [hm]; simp; omega)]
    obtain ⟨f1, f2, f3, f4, f5, f6, f7, f8, f9⟩ := h.seg_facts hl
    have hins : Spec.insert (Spec.Order.ofKey key klt veq cmp) (Core.iter s) v =
        (A ++ (B1 ++ v :: B2) :: C).flatten := by
      rw [Spec.insert_split (A := A.flatten ++ B1) (B := B2 ++ C.flatten) (by rw [Core.iter, hl]; simp)]
      · simp
      · intro a ha
        rcases List.mem_append.1 ha with ha | ha
        · simpa [Spec.Order.ofKey] using pA a ha
        · simpa [Spec.Order.ofKey] using pB1 a ha
      · intro a ha
        rcases List.mem_append.1 ha with ha | ha
        · simpa [Spec.Order.ofKey] using pB2 a ha
        · simpa [Spec.Order.ofKey] using pC a ha
    have hbis : bisectRight K.lt (B1.map key ++ B2.map key) (key v) = .ok B1.length := by
      rw [bisectRight_eq K.lt (B1.map key) (B2.map key) (key v)]
      · simp
      · intro a ha
        obtain ⟨x, hx, rfl⟩ := List.mem_map.1 ha
        rw [hlt]; simpa using pB1 x hx
      · intro a ha
        obtain ⟨x, hx, rfl⟩ := List.mem_map.1 ha
        rw [hlt]; simpa using pB2 x hx
    have hseg : Seg key klt s.load A (B1 ++ v :: B2) C := by
      refine ⟨h.load_pos, f1, by simp, f3, ?_, f4, ?_, f6, f7, ?_, f9⟩
      · rw [← hins]; exact hsort
      · have := h.load_pos; simp at f5 ⊢; omega
      · intro hC; have := f8 hC; simp at this ⊢; omega
    have hk : s.keys = A.map (List.map key) ++ (B1.map key ++ B2.map key) :: C.map (List.map key) := by
      rw [h.keys_eq rfl, hl]; simp
    have hg : getItem s.lists A.length = .ok (B1 ++ B2) := by rw [hl]; simp
    have hgk : getItem s.keys A.length = .ok (B1.map key ++ B2.map key) := by
      rw [hk]; exact getItem_append_cons _ _ _ (by simp)
    have hset : s.lists.set A.length (insertAt (B1 ++ B2) B1.length v) = A ++ (B1 ++ v :: B2) :: C := by
      rw [hl, insertAt_append _ _ _ rfl]; simp
    have hsetk : s.keys.set A.length (insertAt (B1.map key ++ B2.map key) B1.length (key v)) =
        (A ++ (B1 ++ v :: B2) :: C).map (List.map key) := by
      rw [hk, insertAt_append _ _ _ (by simp), set_append_cons _ _ _ _ (by simp)]; simp
    simp only [hg, hgk, Py.lift_ok_bind, hbis, Py.modify_bind, hset, hsetk]
    have hlast : (B1 ++ v :: B2).getLast? = (B1 ++ B2).getLast? := by
      simp [List.getLast?_append, List.getLast?_cons, List.getLast?_eq_some_getLast hB2]
    obtain ⟨s', e, hlen', hflat', hinv⟩ := expand_ok (klt := klt)
      { s with lists := A ++ (B1 ++ v :: B2) :: C, keys := (A ++ (B1 ++ v :: B2) :: C).map (List.map key) }
      A (B1 ++ v :: B2) C MA m MC (B1 ++ B2).length hseg rfl hm hA
      (by rw [hlast]; exact hB) hC (by simp; omega) (fun hne => by
        obtain ⟨ht, h2⟩ := h.index_ok hne
        rw [hl] at ht h2
        exact ⟨by simpa using ht, by simpa using h2⟩) (fun _ => rfl)
    rw [Py.bind_ok e]
    refine ⟨_, rfl, done s' hlen' ?_ hinv, ?_⟩
    · rw [hflat', hins]
    · rw [Core.iter, hflat', hins]

theorem add_refines {K : KEnv α κ} (hK : K.Lawful key klt veq) (v : α) :
    Refines (Inv key klt true) Core.iter (add K v) (Spec.add (Spec.Order.ofKey key klt veq cmp) v) :=
  Refines.of fun s hs => by
    obtain ⟨s', e, h1, h2⟩ := add_ok (cmp := cmp) hK hs v
    exact ⟨s', e, h2, h1⟩

theorem fillKeys_ok {K : KEnv α κ} (hK : K.Lawful key klt veq) (L : List (List α)) (s : St α κ) :
    Py.forEach (fun l => do
      let ks ← Py.lift (mapE K.key l)
      Py.modify fun s => { s with keys := s.keys ++ [ks] }) L s =
    (.ok (), { s with keys := s.keys ++ L.map (List.map key) }) := by
  induction L generalizing s with
  | nil => simp [Py.forEach]
  | cons l L ih =>
    simp only [Py.forEach, mapE_ok (g := key) l (fun a _ => hK.key_ok a)]
    rw [Py.bind_ok (m := Py.lift (.ok (l.map key)) >>= _) rfl, ih]
    simp

/-- Filling an empty object with sorted values. -/
theorem fill_ok {K : KEnv α κ} (hK : K.Lawful key klt veq) {s : St α κ} (hload : 1 ≤ s.load) (hl : s.lists = [])
    (hm : s.maxes = []) (hk : s.keys = []) {vs : List α} (hs : Sorted (fun a b => klt (key a) (key b)) vs) :
    ∃ s', fill K vs s = (.ok (), s') ∧ Inv key klt true s' ∧ Core.iter s' = vs := by
  obtain ⟨cs, e, h1, h2, h3, h4⟩ := chunks_ok hload vs
  obtain ⟨ms, e', h5⟩ := mapE_lastItem (k := key) cs h2
  unfold fill
  simp only [Py.get_bind, e, Py.lift_ok_bind, Py.modify_bind, hl, List.nil_append]
  rw [Py.bind_ok (fillKeys_ok hK cs _)]
  simp only [Py.get_bind, hk, List.nil_append, e', Py.lift_ok_bind, Py.modify_bind, hm, Py.modify_apply]
  exact ⟨_, rfl, Inv.of_chunks rfl hload hs h1 h2 h3 h4 h5 rfl rfl (fun _ => rfl), h1⟩

theorem update_ok {K : KEnv α κ} (hK : K.Lawful key klt veq) {s : St α κ} (h : Inv key klt true s) (xs : List α) :
    ∃ s', update K xs s = (.ok (), s') ∧ Inv key klt true s' ∧
      Core.iter s' = Spec.insertAll (Spec.Order.ofKey key klt veq cmp) (Core.iter s) xs := by
  have hO : StrictWeakOrder (Spec.Order.ofKey key klt veq cmp).lt := hK.order.comap key
  have hs : Sorted (Spec.Order.ofKey key klt veq cmp).lt (Core.iter s) := h.sorted
  obtain ⟨ys, e, hys⟩ := hK.sorted xs
  have hys' : IsStableSort (Spec.Order.ofKey key klt veq cmp).lt xs ys := hys
  unfold update
  simp only [e, Py.lift_ok_bind, Py.get_bind]
  by_cases hm : s.maxes = []
  · have hl := h.maxes.nil_iff.1 hm
    rw [if_neg (by simp [hm])]
    obtain ⟨s', e', h1, h2⟩ := fill_ok hK h.load_pos hl hm (by rw [h.keys_eq rfl, hl]; rfl) hys.sorted
    refine ⟨s', e', h1, ?_⟩
    rw [h2, Core.iter, hl]
    exact Spec.sort_eq_insertAll_nil hO hys'
  rw [if_pos hm]
  by_cases hbig : ys.length * 4 ≥ s.len
  · rw [if_pos hbig]
    simp only [Py.modify_bind, Py.get_bind]
    obtain ⟨zs, ez, hzs⟩ := hK.sorted (Core.iter s ++ ys)
    have hit : Core.iter { s with lists := s.lists ++ [ys] } = Core.iter s ++ ys := by simp [Core.iter]
    simp only [hit, ez, Py.lift_ok_bind, clear, Py.modify_bind]
    obtain ⟨s', e', h1, h2⟩ := fill_ok hK
      (s := { s with lists := [], len := 0, maxes := [], index := [], keys := [] }) h.load_pos rfl rfl rfl
      hzs.sorted
    refine ⟨s', e', h1, ?_⟩
    rw [h2]
    exact Spec.insertAll_sort hO hs hys' hzs
  · rw [if_neg hbig]
    obtain ⟨s', e', h1, h2⟩ := (Refines.forEach ys fun y _ => add_refines (cmp := cmp) hK y).eq_of h
      (SL.forEach_spec_add (Spec.Order.ofKey key klt veq cmp) ys (Core.iter s))
    refine ⟨s', e', h2, ?_⟩
    rw [h1]
    exact Spec.insertAll_of_sort hO hs hys'

theorem update_refines {K : KEnv α κ} (hK : K.Lawful key klt veq) (xs : List α) :
    Refines (Inv key klt true) Core.iter (update K xs) (Spec.update (Spec.Order.ofKey key klt veq cmp) xs) :=
  Refines.of fun s hs => by
    obtain ⟨s', e, h1, h2⟩ := update_ok (cmp := cmp) hK hs xs
    exact ⟨s', e, h2, h1⟩

theorem methods_ok {K : KEnv α κ} (hK : K.Lawful key klt veq) :
    MethodsOK (methods K) (Spec.Order.ofKey key klt veq cmp) key klt true where
  order := hK.order.comap key
  olt := rfl
  log := hK.ilog2
  clear := fun s => ⟨_, rfl, rfl, rfl, rfl, rfl, rfl, fun _ => rfl⟩
  update := update_refines hK
  delete := fun _ _ _ _ _ h hat => delete_ok h hat

theorem new_ok {K : KEnv α κ} (hK : K.Lawful key klt veq) (xs : Option (List α)) :
    ∃ s, new K xs = .ok s ∧ Inv key klt true s ∧
      Core.iter s = Spec.insertAll (Spec.Order.ofKey key klt veq cmp) [] (xs.getD []) := by
  have h0 : Inv key klt true (St.empty : St α κ) := Inv.of_empty (show 1 ≤ 1000 by decide) rfl rfl rfl rfl (fun _ => rfl)
  cases xs with
  | none => exact ⟨_, rfl, h0, rfl⟩
  | some xs =>
    obtain ⟨s', e, h1, h2⟩ := update_ok (cmp := cmp) hK h0 xs
    exact ⟨s', by simp [new, e], h1, h2⟩

end SKL
end Verif
