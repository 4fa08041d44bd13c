import Verif.Proofs.RaceAloneSL
/-!
# The methods of SortedKeyList, run alone
-/

namespace Verif
variable {α κ β γ δ : Type}
namespace Race
namespace Agrees
variable {s : Shared α κ} {t : St α κ} {K : KEnv α κ}

theorem len_up' (hM : Mirrors s t) : Agrees id (Race.addLen 1) s (Py.modify fun s => { s with len := s.len + 1 }) t :=
  .inr ⟨_, rfl, hM.setLen (by rw [hM.len]; rfl)⟩

theorem SKL_clear (hM : Mirrors s t) : Agrees id Race.SKL.clear s Verif.SKL.clear t :=
  .inr ⟨_, rfl, ((((hM.setLen (n := 0) (m := 0) rfl).noLists).noKeys).setMaxes []).dropIndex⟩

theorem SKL_expand (fuel : Nat) {p : Nat} (hM : Mirrors s t) (hf : Fits t) (hk : t.keys.length = t.lists.length) :
    Agrees id (Race.SKL.expand fuel p) s (Verif.SKL.expand p) t := by
  unfold Race.SKL.expand Verif.SKL.expand
  refine get (subkeys hM fun b hb => see (see ?_))
  have hp' : p < t.lists.length := by rw [← hk, hM.keys_length]; exact (List.getElem?_eq_some_iff.1 hb).1
  refine ite (by rw [hM.load]) (fun h => see (sublist hM fun a ha => kagain hb (alloc (kalloc (alter (modify (kalter (modify ?_)))))))) fun _ => touchUp fuel hM fun hn => by have := hf hn; omega
  have hva := hM.lt ha
  have hvb := hM.klt hb
  have hva' : a < ({ s with cells := s.cells ++ [(s.cell a).drop s.load], kcells := s.kcells ++ [(s.kcell b).drop s.load] } : Shared α κ).cells.length := by simp; omega
  have hvb' : b < ({ s with cells := s.cells ++ [(s.cell a).drop s.load], kcells := s.kcells ++ [(s.kcell b).drop s.load] } : Shared α κ).kcells.length := by simp; omega
  have e1 : ({ s with cells := s.cells ++ [(s.cell a).drop s.load], kcells := s.kcells ++ [(s.kcell b).drop s.load] } : Shared α κ).cell a = s.cell a := cell_alloc hva
  have e2 : ({ s with cells := s.cells ++ [(s.cell a).drop s.load], kcells := s.kcells ++ [(s.kcell b).drop s.load] } : Shared α κ).kcell b = s.kcell b := kcell_alloc hvb
  have hM2 := (hM.alloc ((s.cell a).drop s.load)).kalloc ((s.kcell b).drop s.load)
  have hM4 := (hM2.put ha ((s.cell a).take s.load)).kput hb ((s.kcell b).take s.load)
  show Agrees id _ ((({ s with cells := s.cells ++ [(s.cell a).drop s.load], kcells := s.kcells ++ [(s.kcell b).drop s.load] } : Shared α κ).put a
    ((({ s with cells := s.cells ++ [(s.cell a).drop s.load], kcells := s.kcells ++ [(s.kcell b).drop s.load] } : Shared α κ).cell a).take s.load)).kput b
    ((({ s with cells := s.cells ++ [(s.cell a).drop s.load], kcells := s.kcells ++ [(s.kcell b).drop s.load] } : Shared α κ).kcell b).take s.load)) _ _
  rw [e1, e2]
  have c1 : ((({ s with cells := s.cells ++ [(s.cell a).drop s.load], kcells := s.kcells ++ [(s.kcell b).drop s.load] } : Shared α κ).put a ((s.cell a).take s.load)).kput b
      ((s.kcell b).take s.load)).cell s.cells.length = (s.cell a).drop s.load := by
    show ((({ s with cells := s.cells ++ [(s.cell a).drop s.load] } : Shared α κ).put a ((s.cell a).take s.load))).cell s.cells.length = _
    rw [cell_put_ne (by omega), cell_new]
  have c2 : ((({ s with cells := s.cells ++ [(s.cell a).drop s.load], kcells := s.kcells ++ [(s.kcell b).drop s.load] } : Shared α κ).put a ((s.cell a).take s.load)).kput b
      ((s.kcell b).take s.load)).kcell s.kcells.length = (s.kcell b).drop s.load := by
    rw [kcell_kput_ne (by omega)]
    exact kcell_new (s := s)
  have c3 : ((({ s with cells := s.cells ++ [(s.cell a).drop s.load], kcells := s.kcells ++ [(s.kcell b).drop s.load] } : Shared α κ).put a ((s.cell a).take s.load)).kput b
      ((s.kcell b).take s.load)).kcell b = (s.kcell b).take s.load := kcell_kput hvb'
  have hv1 : s.cells.length < ((({ s with cells := s.cells ++ [(s.cell a).drop s.load], kcells := s.kcells ++ [(s.kcell b).drop s.load] } : Shared α κ).put a ((s.cell a).take s.load)).kput b
      ((s.kcell b).take s.load)).cells.length := by simp [Shared.put, Shared.kput]
  have hv2 : s.kcells.length < ((({ s with cells := s.cells ++ [(s.cell a).drop s.load], kcells := s.kcells ++ [(s.kcell b).drop s.load] } : Shared α κ).put a ((s.cell a).take s.load)).kput b
      ((s.kcell b).take s.load)).kcells.length := by simp [Shared.put, Shared.kput]
  have hn1 := hM.new
  have hn2 := hM.knew
  have hl1 : ((({ s with cells := s.cells ++ [(s.cell a).drop s.load], kcells := s.kcells ++ [(s.kcell b).drop s.load] } : Shared α κ).put a ((s.cell a).take s.load)).kput b
      ((s.kcell b).take s.load)).lists = s.lists := rfl
  have hl2 : ((({ s with cells := s.cells ++ [(s.cell a).drop s.load], kcells := s.kcells ++ [(s.kcell b).drop s.load] } : Shared α κ).put a ((s.cell a).take s.load)).kput b
      ((s.kcell b).take s.load)).keys = s.keys := rfl
  rw [← hl1] at hn1
  rw [← hl2] at hn2
  generalize ((({ s with cells := s.cells ++ [(s.cell a).drop s.load], kcells := s.kcells ++ [(s.kcell b).drop s.load] } : Shared α κ).put a ((s.cell a).take s.load)).kput b
      ((s.kcell b).take s.load)) = s4 at *
  rw [← hM.load] at c1 c2 c3 hM4
  refine kentry_last c3 hM4 fun m _ => setMax hM4.maxes hM4 fun ms _ => modify (assign (modify (assign (modify ?_))))
  rw [show ((p : Int) + 1) = ((p + 1 : Nat) : Int) by omega, insert_nat, insert_nat]
  have hM5 := (hM4.setMaxes ms).insertList (p + 1) (a := s.cells.length) hn1 hv1
  have hM6 := hM5.insertKeys (p + 1) (a := s.kcells.length) hn2 hv2
  rw [show ({ s4 with maxes := ms } : Shared α κ).cell s.cells.length = _ from c1] at hM6
  rw [show ({ s4 with maxes := ms, lists := _ } : Shared α κ).kcell s.kcells.length = _ from c2] at hM6
  refine kentry_last c2 hM6 fun m _ => assign (modify ?_)
  rw [insert_nat]
  have hM7 := (hM6.setMaxes (insertAt ms (p + 1) m)).dropIndex
  exact .inr ⟨_, rfl, hM7⟩

theorem _root_.Verif.Race.Fits.kset {t : St α κ} (h : Fits t) (p : Nat) (l : List α) (q : List (List κ)) (m : List κ) : Fits { t with lists := t.lists.set p l, keys := q, maxes := m } := fun hn => by
  have := h hn
  simpa using this

theorem insertAt_end {l : List β} {n : Nat} {x : β} (h : n = l.length) : insertAt l n x = l ++ [x] := by subst h; exact insertAt_length _ _

theorem SKL_add (fuel : Nat) (v : α) (hM : Mirrors s t) (hf : Fits t) (hk : t.keys.length = t.lists.length) (hl : t.maxes.length = t.lists.length) :
    Agrees id (Race.SKL.add K fuel v) s (Verif.SKL.add K v) t := by
  unfold Race.SKL.add Verif.SKL.add
  refine get (lift hM fun key _ => see ?_)
  dsimp only
  by_cases h : t.maxes = []
  · rw [if_pos (hM.maxes ▸ h), if_neg (fun h' => h' h)]
    refine alloc (assign (kalloc (assign (assign (modify (modify (modify ?_)))))))
    have h1 := (hM.alloc [v]).insertList s.lists.length (a := s.cells.length) hM.new (by simp)
    have := ((h1.kalloc [key]).insertKeys s.keys.length (a := s.kcells.length) hM.knew (by simp)).setMaxes (s.maxes ++ [key])
    rw [cell_new] at this
    dsimp only at this
    rw [insertAt_end hM.lists_length.symm, insertAt_end hM.keys_length.symm, insertAt_length, insertAt_length] at this
    have e : ({ s with cells := s.cells ++ [[v]], lists := s.lists ++ [s.cells.length], kcells := s.kcells ++ [[key]] } : Shared α κ).kcell s.kcells.length = [key] := kcell_new (s := s)
    rw [e] at this
    rw [← hM.maxes] at this
    rw [← hM.maxes]
    exact len_up' this
  · rw [if_neg (hM.maxes ▸ h), if_pos h]
    refine reads' (by rw [alone_bisectMaxes, hM.maxes]; rfl) hM fun p hp => see ?_
    refine ite (by rw [hM.maxes]) (fun h1 => ?_) fun h1 => ?_
    · have hpos : 0 < s.maxes.length := by rw [← hM.maxes]; exact List.length_pos_iff.2 h
      have e : ((p : Int) - 1) = ((p - 1 : Nat) : Int) := by omega
      rw [e]
      refine sublist hM fun a ha => alter (modify ?_)
      have hM1 := hM.put ha (s.cell a ++ [v])
      refine subkeys hM1 fun b hb => kalter (modify (modify ?_))
      have hM2 := hM1.kput hb (s.kcell b ++ [key])
      refine left (b := ()) (s' := { (s.put a (s.cell a ++ [v])).kput b (s.kcell b ++ [key]) with maxes := s.maxes.set (p - 1) key }) ?_ ?_
      · rw [Race.setMax, Task.alone_change, store_nat, setItem, if_pos (by show p - 1 < s.maxes.length; omega)]; rfl
      have hM3 := hM2.setMaxes (s.maxes.set (p - 1) key)
      rw [← hM.maxes] at hM3 ⊢
      exact (SKL_expand fuel hM3 (hf.kset _ _ _ _) (by simpa using hk)).bind fun _ s' t' _ _ hM' => len_up' hM'
    · refine subkeys hM fun b hb => reads' (by rw [alone_SKL_bisectCell]; rfl) hM fun i _ => sublist hM fun a ha => alter (kagain hb (kalter (modify (modify ?_))))
      rw [insert_nat, insert_nat]
      have hM1 := hM.put ha (insertAt (s.cell a) i v)
      have hM2 := hM1.kput hb (insertAt (s.kcell b) i key)
      exact (SKL_expand fuel hM2 (hf.kset _ _ _ _) (by simpa using hk)).bind fun _ s' t' _ _ hM' => len_up' hM'

theorem SKL_delete (fuel : Nat) {p i : Nat} (hM : Mirrors s t) (hf : Fits t) (hk : t.keys.length = t.lists.length) : Agrees id (Race.SKL.delete fuel p i) s (Verif.SKL.delete p i) t := by
  unfold Race.SKL.delete Verif.SKL.delete
  refine get (subkeys hM fun b hb => sublist hM fun a ha => ?_)
  refine writes (put := fun l => s.kput b l) (by rw [remove_nat]) hM fun kl _ => modify ?_
  have hp : p < t.lists.length := by rw [hM.lists_length]; exact (List.getElem?_eq_some_iff.1 ha).1
  have hMk := hM.kput hb kl
  refine writes (put := fun l => (s.kput b kl).put a l) (by rw [remove_nat]; rfl) hMk fun l _ => modify ?_
  have hM1 := hMk.put ha l
  have hv := hM.klt hb
  obtain hn | ⟨n, hn⟩ : t.len = 0 ∨ ∃ n, t.len = n + 1 := by cases t.len <;> simp
  · rw [show Core.decr t.len = .error .modelGap by rw [hn]; rfl]
    exact .inl rfl
  refine right_ok (c := n) (by rw [hn]; rfl) (modify (addLen (see (see ?_))))
  have hM2 := hM1.setLen (n := ((s.kput b kl).put a l).len + -1) (m := n) (by show s.len + -1 = _; rw [hM.len, hn]; omega)
  have hc : ({ (s.kput b kl).put a l with len := ((s.kput b kl).put a l).len + -1 } : Shared α κ).kcell b = kl := kcell_kput hv
  refine ite (by rw [hc, hM2.load]) (fun _ => ?_) fun _ => see ?_
  · refine kentry_last hc hM2 fun m _ => setMax hM2.maxes hM2 fun ms _ => modify ?_
    exact touchDown (hM2.setMaxes ms) fun h => by have := hf h; show t.offset + p < t.index.length; omega
  refine ite (by show s.keys.length > 1 ↔ _; rw [hM.keys_length]) (fun _ => ?_) fun _ => ite (by rw [hc]) (fun _ => ?_) fun _ => ?_
  · dsimp only
    obtain ⟨r, hr, hr'⟩ : ∃ r, (if p = 0 then p + 1 else p) = r + 1 ∧ (if (p : Int) = 0 then (p : Int) + 1 else p) = ((r + 1 : Nat) : Int) := by
      by_cases h : p = 0
      · exact ⟨0, by rw [if_pos h, h], by rw [if_pos (by omega), h]; rfl⟩
      · exact ⟨p - 1, by rw [if_neg h]; omega, by rw [if_neg (by omega)]; omega⟩
    rw [hr, hr', show ((r + 1 : Nat) : Int) - 1 = (r : Int) by omega, show r + 1 - 1 = r from rfl]
    have hlen2 : (({ (s.kput b kl).put a l with len := ((s.kput b kl).put a l).len + -1 } : Shared α κ)).load = s.load := rfl
    have hkk : (({ t with keys := t.keys.set p kl, lists := t.lists.set p l, len := n } : St α κ)).keys.length = (({ t with keys := t.keys.set p kl, lists := t.lists.set p l, len := n } : St α κ)).lists.length := by simpa using hk
    generalize (({ (s.kput b kl).put a l with len := ((s.kput b kl).put a l).len + -1 } : Shared α κ)) = s2 at *
    refine get ?_
    have hkk' := hkk
    generalize (({ t with keys := t.keys.set p kl, lists := t.lists.set p l, len := n } : St α κ)) = t2 at *
    refine subkeys hM2 fun b' hb' => subkeys hM2 fun c' hc' => assign (modify ?_)
    have hM3 := hM2.kput hb' (s2.kcell b' ++ s2.kcell c')
    refine sublist hM3 fun a' ha' => sublist hM3 fun d' hd' => assign (modify (kagain hb' ?_))
    have hM4 := hM3.put ha' (s2.cell a' ++ s2.cell d')
    have hc4 : ((s2.kput b' (s2.kcell b' ++ s2.kcell c')).put a' (s2.cell a' ++ s2.cell d')).kcell b' = s2.kcell b' ++ s2.kcell c' := kcell_kput (hM2.klt hb')
    refine kentry_last hc4 hM4 fun m _ => setMax hM4.maxes hM4 fun ms _ => modify (get ?_)
    have hM5 := hM4.setMaxes ms
    refine dropList rfl hM5 fun _ => modify ?_
    have hM6 := hM5.eraseList (r + 1)
    refine dropKeys rfl hM6 fun _ => modify ?_
    have hM7 := hM6.eraseKeys (r + 1)
    refine dropMax hM7.maxes hM7 fun ms' _ => modify (dropIndex (modify ?_))
    refine SKL_expand fuel ((hM7.setMaxes ms').dropIndex) (fun h => absurd rfl h) ?_
    simp [List.length_eraseIdx, hkk]
  · exact kentry_last hc hM2 fun m _ => setMax_last hM2.maxes hM2
  · refine get (dropList rfl hM2 fun _ => modify ?_)
    have hM5 := hM2.eraseList p
    refine dropKeys rfl hM5 fun _ => modify ?_
    have hM6 := hM5.eraseKeys p
    exact dropMax hM6.maxes hM6 fun ms' _ => modify (.inr ⟨_, rfl, (hM6.setMaxes ms').dropIndex⟩)

theorem alone_subkeys (hM : Mirrors s t) (p : Nat) : (∃ e, getItem t.keys p = .error e ∧ (Race.subkeys p).alone s = some (.error e, s)) ∨
    ∃ b, getItem t.keys p = .ok (s.kcell b) ∧ (Race.subkeys p).alone s = some (.ok b, s) := by
  rw [Race.subkeys, Task.alone_see, fetch_nat, hM.getItem_keys]
  cases getItem s.keys p with
  | error e => exact .inl ⟨e, rfl, rfl⟩
  | ok b => exact .inr ⟨b, rfl, rfl⟩

theorem alone_sublist (hM : Mirrors s t) (p : Nat) : (∃ e, getItem t.lists p = .error e ∧ (Race.sublist p).alone s = some (.error e, s)) ∨
    ∃ a, getItem t.lists p = .ok (s.cell a) ∧ (Race.sublist p).alone s = some (.ok a, s) := by
  rw [Race.sublist, Task.alone_see, fetch_nat, hM.getItem_lists]
  cases getItem s.lists p with
  | error e => exact .inl ⟨e, rfl, rfl⟩
  | ok b => exact .inr ⟨b, rfl, rfl⟩

theorem alone_kentry (b i : Nat) (s : Shared α κ) : (Race.kentry b i).alone s = some (getItem (s.kcell b) i, s) := by
  rw [Race.kentry, Task.alone_see, fetch_nat]

theorem alone_ok {m : Run α κ β} {k : β → Run α κ δ} {b : β} {s s' : Shared α κ} (h : m.alone s = some (.ok b, s')) : (m >>= k).alone s = (k b).alone s' := by
  rw [Task.alone_bind', h]

theorem alone_err {m : Run α κ β} {k : β → Run α κ δ} {e : PyErr} {s s' : Shared α κ} (h : m.alone s = some (.error e, s')) : (m >>= k).alone s = some (.error e, s') := by
  rw [Task.alone_bind', h]

/-- The keys from a place on. -/
def ahead (keys : List (List κ)) (pos idx : Nat) : Nat := ((keys[pos]?.getD []).length - idx) + (keys.drop (pos + 1)).flatten.length

theorem ahead_here {keys : List (List κ)} {pos idx : Nat} {ks : List κ} {k : κ} (h : getItem keys pos = .ok ks) (h' : getItem ks idx = .ok k) :
    ahead keys pos (idx + 1) + 1 = ahead keys pos idx := by
  rw [getItem_ok_iff] at h h'
  have := (List.getElem?_eq_some_iff.1 h').1
  simp only [ahead, h, Option.getD_some]
  omega

theorem ahead_next {keys : List (List κ)} {pos idx : Nat} {ks : List κ} {k : κ} (h : getItem keys pos = .ok ks) (h' : getItem ks idx = .ok k) :
    ahead keys (pos + 1) 0 < ahead keys pos idx := by
  rw [getItem_ok_iff] at h h'
  have := (List.getElem?_eq_some_iff.1 h').1
  simp only [ahead, h, Option.getD_some]
  cases e : keys[pos + 1]? with
  | none =>
    have := List.getElem?_eq_none_iff.1 e
    simp only [Option.getD_none, List.length_nil]
    rw [List.drop_of_length_le (show keys.length ≤ pos + 1 + 1 by omega)]
    simp; omega
  | some l =>
    obtain ⟨h2, h3⟩ := List.getElem?_eq_some_iff.1 e
    rw [List.drop_eq_getElem_cons h2]
    simp [h3]; omega

theorem ahead_le (keys : List (List κ)) (pos idx : Nat) : ahead keys pos idx ≤ keys.flatten.length := by
  unfold ahead
  cases e : keys[pos]? with
  | none =>
    have := List.getElem?_eq_none_iff.1 e
    rw [List.drop_of_length_le (show keys.length ≤ pos + 1 by omega)]
    simp
  | some l =>
    obtain ⟨h2, h3⟩ := List.getElem?_eq_some_iff.1 e
    have : keys.flatten.length = (keys.take pos).flatten.length + (keys.drop pos).flatten.length := by
      rw [← List.length_append, ← List.flatten_append, List.take_append_drop]
    rw [this, List.drop_eq_getElem_cons h2]
    simp [h3]; omega

theorem alone_find (hM : Mirrors s t) (key : κ) (v : α) : ∀ (fuel pos idx n : Nat), ahead t.keys pos idx < fuel →
    (Race.SKL.find K key v t.keys.length fuel pos idx n).alone s = some (Verif.SKL.findLoop K t.lists t.keys v key pos idx n, s) := by
  intro fuel
  induction fuel with
  | zero => intro _ _ _ h; omega
  | succ fuel ih =>
    intro pos idx n h
    rw [Verif.SKL.findLoop]
    split
    · rename_i e e1
      rw [Race.SKL.find, Task.alone_bind']
      obtain ⟨e', f1, f2⟩ | ⟨b, f1, f2⟩ := alone_subkeys hM pos
      · rw [f2]; rw [e1] at f1; cases f1; rfl
      · rw [e1] at f1; cases f1
    rename_i ks e1
    obtain ⟨e', f1, f2⟩ | ⟨b, f1, f2⟩ := alone_subkeys hM pos
    · rw [e1] at f1; cases f1
    rw [e1] at f1; cases f1
    split
    · rename_i h'; rw [Race.SKL.find, alone_ok f2, alone_err (by rw [alone_kentry, h'])]
    rename_i k h'
    rw [Race.SKL.find, alone_ok f2, alone_ok (by rw [alone_kentry, h'])]
    rw [Task.alone_bind', Task.alone_lift]
    cases K.kcmp .ne k key with
    | error e => rfl
    | ok ne =>
    cases ne with
    | true => rfl
    | false =>
    dsimp only
    rw [if_neg (by simp), Task.alone_bind']
    obtain ⟨e, l1, l2⟩ | ⟨a, l1, l2⟩ := alone_sublist hM pos
    · rw [l2, l1]
    rw [l2, l1]
    dsimp only
    rw [Task.alone_bind', alone_entry (by omega), Int.toNat_natCast]
    cases getItem (s.cell a) idx with
    | error e => rfl
    | ok x =>
    dsimp only
    rw [Task.alone_bind', Task.alone_lift]
    cases K.vcmp .eq x v with
    | error e => rfl
    | ok eq =>
    cases eq with
    | true => rfl
    | false =>
    dsimp only
    rw [if_neg (by simp)]
    by_cases hn : idx + 1 = n
    · rw [if_pos hn, if_pos hn]
      by_cases hk : pos + 1 = t.keys.length
      · rw [if_pos hk, if_pos hk]; rfl
      · rw [if_neg hk, if_neg hk, Task.alone_bind']
        obtain ⟨e, k1, k2⟩ | ⟨c, k1, k2⟩ := alone_subkeys hM (pos + 1)
        · rw [k1, k2]
        · rw [k1, k2]
          dsimp only
          rw [Task.alone_bind', alone_see]
          exact ih _ _ _ (by have := ahead_next e1 h'; omega)
    · rw [if_neg hn, if_neg hn]
      exact ih _ _ _ (by have := ahead_here e1 h'; omega)

theorem alone_countLoop (hM : Mirrors s t) (key : κ) (v : α) : ∀ (fuel pos idx n total : Nat), ahead t.keys pos idx < fuel →
    (Race.SKL.countLoop K key v t.keys.length fuel pos idx n total).alone s = some ((Verif.SKL.countLoop K t.lists t.keys v key pos idx n total).map Int.ofNat, s) := by
  intro fuel
  induction fuel with
  | zero => intro _ _ _ _ h; omega
  | succ fuel ih =>
    intro pos idx n total h
    rw [Verif.SKL.countLoop]
    split
    · rename_i e e1
      rw [Race.SKL.countLoop, Task.alone_bind']
      obtain ⟨e', f1, f2⟩ | ⟨b, f1, f2⟩ := alone_subkeys hM pos
      · rw [f2]; rw [e1] at f1; cases f1; rfl
      · rw [e1] at f1; cases f1
    rename_i ks e1
    obtain ⟨e', f1, f2⟩ | ⟨b, f1, f2⟩ := alone_subkeys hM pos
    · rw [e1] at f1; cases f1
    rw [e1] at f1; cases f1
    split
    · rename_i h'; rw [Race.SKL.countLoop, alone_ok f2, alone_err (by rw [alone_kentry, h'])]; rfl
    rename_i k h'
    rw [Race.SKL.countLoop, alone_ok f2, alone_ok (by rw [alone_kentry, h'])]
    rw [Task.alone_bind', Task.alone_lift]
    cases K.kcmp .ne k key with
    | error e => rfl
    | ok ne =>
    cases ne with
    | true => rfl
    | false =>
    dsimp only
    rw [if_neg (by simp), Task.alone_bind']
    obtain ⟨e, l1, l2⟩ | ⟨a, l1, l2⟩ := alone_sublist hM pos
    · rw [l2, l1]; rfl
    rw [l2, l1]
    dsimp only
    rw [Task.alone_bind', alone_entry (by omega), Int.toNat_natCast]
    cases getItem (s.cell a) idx with
    | error e => rfl
    | ok x =>
    dsimp only
    rw [Task.alone_bind', Task.alone_lift]
    cases K.vcmp .eq x v with
    | error e => rfl
    | ok eq =>
    dsimp only
    have et : (if eq = true then (total : Int) + 1 else total) = ((if eq = true then total + 1 else total : Nat) : Int) := by cases eq <;> simp
    rw [et]
    by_cases hn : idx + 1 = n
    · rw [if_pos hn, if_pos hn]
      by_cases hk : pos + 1 = t.keys.length
      · rw [if_pos hk, if_pos hk]; rfl
      · rw [if_neg hk, if_neg hk, Task.alone_bind']
        obtain ⟨e, k1, k2⟩ | ⟨c, k1, k2⟩ := alone_subkeys hM (pos + 1)
        · rw [k1, k2]; rfl
        · rw [k1, k2]
          dsimp only
          rw [Task.alone_bind', alone_see]
          exact ih _ _ _ _ (by have := ahead_next e1 h'; omega)
    · rw [if_neg hn, if_neg hn]
      exact ih _ _ _ _ (by have := ahead_here e1 h'; omega)

theorem SKL_search {fuel : Nat} (v : α) (hM : Mirrors s t) (hf : t.keys.flatten.length < fuel) : ∃ x, (Race.SKL.search K fuel v).alone s = some (x, s) ∧ Verif.SKL.find K v t = (x, t) := by
  unfold Race.SKL.search Verif.SKL.find
  show ∃ x, (if s.maxes = [] then _ else _ : Run α κ _).alone s = some (x, s) ∧ (if t.maxes = [] then _ else _ : Py (St α κ) _) t = (x, t)
  rw [hM.maxes]
  by_cases h : s.maxes = []
  · rw [if_pos h, if_pos h]; exact ⟨_, rfl, rfl⟩
  rw [if_neg h, if_neg h]
  cases hk : K.key v with
  | error e => exact ⟨_, rfl, rfl⟩
  | ok key =>
  rw [alone_ok (Task.alone_lift _ _)]
  show ∃ x, _ ∧ (Py.lift (bisectLeft K.lt s.maxes key) >>= _) t = (x, t)
  have hb := alone_bisectMaxes K.lt false key s
  cases hb' : bisectLeft K.lt s.maxes key with
  | error e =>
    rw [alone_err (by rw [hb]; simp [hb']; exact ⟨rfl, rfl⟩)]
    exact ⟨_, rfl, rfl⟩
  | ok p =>
  rw [alone_ok (b := p) (s' := s) (by rw [hb]; simp [hb'])]
  rw [alone_ok (alone_see _ _)]
  show ∃ x, (if p = s.maxes.length then _ else _ : Run α κ _).alone s = some (x, s) ∧ (if p = s.maxes.length then _ else _ : Py (St α κ) _) t = (x, t)
  by_cases hn : p = s.maxes.length
  · rw [if_pos hn, if_pos hn]; exact ⟨_, rfl, rfl⟩
  rw [if_neg hn, if_neg hn]
  obtain ⟨e, f1, f2⟩ | ⟨b, f1, f2⟩ := alone_subkeys hM p
  · rw [alone_err f2]; exact ⟨_, rfl, by rw [f1]; rfl⟩
  rw [alone_ok f2, f1]
  show ∃ x, _ ∧ (Py.lift (bisectLeft K.lt (s.kcell b) key) >>= _) t = (x, t)
  have hc := alone_SKL_bisectCell K false b key s
  cases hc' : bisectLeft K.lt (s.kcell b) key with
  | error e =>
    rw [alone_err (by rw [hc]; simp [hc']; exact ⟨rfl, rfl⟩)]
    exact ⟨_, rfl, rfl⟩
  | ok i =>
  rw [alone_ok (b := i) (s' := s) (by rw [hc]; simp [hc'])]
  rw [alone_ok (alone_see _ _), alone_ok f2, alone_ok (alone_see _ _), ← hM.keys_length]
  exact ⟨_, alone_find hM key v fuel p i _ (Nat.lt_of_le_of_lt (ahead_le _ _ _) hf), rfl⟩

theorem SKL_contains {fuel : Nat} (v : α) (hM : Mirrors s t) (hf : t.keys.flatten.length < fuel) : Agrees id (Race.SKL.contains K fuel v) s (Verif.SKL.contains K v) t := by
  obtain ⟨x, e1, e2⟩ := SKL_search (K := K) v hM hf
  unfold Race.SKL.contains Verif.SKL.contains
  cases x with
  | error e => exact .inr ⟨s, by rw [alone_err e1, show (Verif.SKL.find K v >>= _) t = (.error e, t) from Py.bind_error e2]; rfl, by rw [show (Verif.SKL.find K v >>= _) t = (.error e, t) from Py.bind_error e2]; exact hM⟩
  | ok r =>
    unfold Agrees
    rw [alone_ok e1, Py.bind_ok e2]
    cases r with
    | none => exact pure hM rfl
    | some r => exact pure hM rfl

theorem SKL_discard {fuel : Nat} (v : α) (hM : Mirrors s t) (hf : Fits t) (hk : t.keys.length = t.lists.length) (hr : t.keys.flatten.length < fuel) :
    Agrees id (Race.SKL.discard K fuel v) s (Verif.SKL.discard K v) t := by
  obtain ⟨x, e1, e2⟩ := SKL_search (K := K) v hM hr
  unfold Race.SKL.discard Verif.SKL.discard
  cases x with
  | error e => exact .inr ⟨s, by rw [alone_err e1, show (Verif.SKL.find K v >>= _) t = (.error e, t) from Py.bind_error e2]; rfl, by rw [show (Verif.SKL.find K v >>= _) t = (.error e, t) from Py.bind_error e2]; exact hM⟩
  | ok r =>
    unfold Agrees
    rw [alone_ok e1, Py.bind_ok e2]
    cases r with
    | none => exact pure hM rfl
    | some r => exact SKL_delete fuel hM hf hk

theorem SKL_remove {fuel : Nat} (v : α) (hM : Mirrors s t) (hf : Fits t) (hk : t.keys.length = t.lists.length) (hr : t.keys.flatten.length < fuel) :
    Agrees id (Race.SKL.remove K fuel v) s (Verif.SKL.remove K v) t := by
  obtain ⟨x, e1, e2⟩ := SKL_search (K := K) v hM hr
  unfold Race.SKL.remove Verif.SKL.remove
  cases x with
  | error e => exact .inr ⟨s, by rw [alone_err e1, show (Verif.SKL.find K v >>= _) t = (.error e, t) from Py.bind_error e2]; rfl, by rw [show (Verif.SKL.find K v >>= _) t = (.error e, t) from Py.bind_error e2]; exact hM⟩
  | ok r =>
    unfold Agrees
    rw [alone_ok e1, Py.bind_ok e2]
    cases r with
    | none => exact raise hM
    | some r => exact SKL_delete fuel hM hf hk

section
variable {key : α → κ} {klt : κ → κ → Bool} {veq : α → α → Bool}

theorem keys_length (h : Inv key klt true t) : t.keys.length = t.lists.length := by rw [h.keys_eq rfl, List.length_map]

theorem keys_flat (h : Inv key klt true t) : t.keys.flatten.length = (Core.iter t).length := by
  rw [h.keys_eq rfl, Core.iter, ← List.map_flatten, List.length_map]

theorem SKL_deletes (K : KEnv α κ) (fuel : Nat) : Deletes key klt true (Race.SKL.delete fuel) (Verif.SKL.methods K) :=
  fun _ _ _ _ hM h => SKL_delete fuel hM (Fits.of_inv h) (keys_length h)

theorem SKL_delInt (hK : K.Lawful key klt veq) (fuel : Nat) (i : Int) (hM : Mirrors s t) (h : Inv key klt true t) : Agrees id (Race.SKL.delInt K fuel i) s (Core.delInt (Verif.SKL.methods K) i) t :=
  delInt (M := Verif.SKL.methods K) hK.ilog2 (SKL_deletes K fuel) i hM h

theorem SKL_pop (hK : K.Lawful key klt veq) (fuel : Nat) (i : Int) (hM : Mirrors s t) (h : Inv key klt true t) : Agrees id (Race.SKL.pop K fuel i) s (Core.pop (Verif.SKL.methods K) i) t :=
  pop (M := Verif.SKL.methods K) hK.ilog2 (SKL_deletes K fuel) i hM h

theorem SKL_bisect_key_left (k : κ) (hM : Mirrors s t) (h : Inv key klt true t) : Agrees Int.ofNat (Race.SKL.bisectKey K false k) s (Verif.SKL.bisect_key_left K k) t := by
  unfold Race.SKL.bisectKey Verif.SKL.bisect_key_left
  refine see (get (ite (by rw [hM.maxes]) (fun _ => pure hM rfl) fun hn => ?_))
  have hne : t.lists ≠ [] := fun h' => hn (hM.maxes ▸ h.maxes.nil_iff.2 h')
  refine reads' (by rw [alone_bisectMaxes, hM.maxes]; rfl) hM fun p _ => see (ite (by rw [hM.maxes]) (fun _ => .inr ⟨s, by rw [alone_see, hM.len]; rfl, hM⟩) fun _ => ?_)
  exact subkeys hM fun a ha => reads' (by rw [alone_SKL_bisectCell]; rfl) hM fun i _ => loc _ _ _ hM hne

theorem SKL_bisect_left (v : α) (hM : Mirrors s t) (h : Inv key klt true t) : Agrees Int.ofNat (Race.SKL.bisect K false v) s (Verif.SKL.bisect_left K v) t :=
  lift hM fun k _ => SKL_bisect_key_left k hM h

theorem SKL_bisect_key_right (k : κ) (hM : Mirrors s t) (h : Inv key klt true t) : Agrees Int.ofNat (Race.SKL.bisectKey K true k) s (Verif.SKL.bisect_key_right K k) t := by
  unfold Race.SKL.bisectKey Verif.SKL.bisect_key_right
  refine see (get (ite (by rw [hM.maxes]) (fun _ => pure hM rfl) fun hn => ?_))
  have hne : t.lists ≠ [] := fun h' => hn (hM.maxes ▸ h.maxes.nil_iff.2 h')
  refine reads' (by rw [alone_bisectMaxes, hM.maxes]; rfl) hM fun p _ => see (ite (by rw [hM.maxes]) (fun _ => .inr ⟨s, by rw [alone_see, hM.len]; rfl, hM⟩) fun _ => ?_)
  exact subkeys hM fun a ha => reads' (by rw [alone_SKL_bisectCell]; rfl) hM fun i _ => loc _ _ _ hM hne

theorem SKL_bisect_right (v : α) (hM : Mirrors s t) (h : Inv key klt true t) : Agrees Int.ofNat (Race.SKL.bisect K true v) s (Verif.SKL.bisect_right K v) t :=
  lift hM fun k _ => SKL_bisect_key_right k hM h

theorem SKL_count {fuel : Nat} (v : α) (hM : Mirrors s t) (hf : t.keys.flatten.length < fuel) : Agrees Int.ofNat (Race.SKL.count K fuel v) s (Verif.SKL.count K v) t := by
  unfold Race.SKL.count Verif.SKL.count
  refine see (get (ite (by rw [hM.maxes]) (fun _ => pure hM rfl) fun hn => lift hM fun key _ => ?_))
  refine reads' (by rw [alone_bisectMaxes, hM.maxes]; rfl) hM fun p _ => see (ite (by rw [hM.maxes]) (fun _ => pure hM rfl) fun _ => ?_)
  refine subkeys hM fun b hb => reads' (by rw [alone_SKL_bisectCell]; rfl) hM fun i _ => see (kagain hb (see ?_))
  rw [← hM.keys_length]
  refine .inr ⟨s, alone_countLoop hM key v fuel p i _ 0 (Nat.lt_of_le_of_lt (ahead_le _ _ _) hf), hM⟩

theorem alone_mapKeys (hK : K.Lawful key klt veq) (a : Nat) : ∀ (fuel i : Nat) (acc : List κ) (s : Shared α κ), (s.cell a).length < fuel + i → i ≤ (s.cell a).length →
    (Race.SKL.mapKeys K a fuel i acc).alone s = some (.ok (acc ++ ((s.cell a).drop i).map key), s) := by
  intro fuel
  induction fuel with
  | zero => intro i acc s h h'; omega
  | succ fuel ih =>
    intro i acc s h h'
    unfold Race.SKL.mapKeys
    rw [alone_ok (alone_see _ _)]
    by_cases hi : i < (s.cell a).length
    · rw [List.getElem?_eq_getElem hi]
      dsimp only
      rw [hK.key_ok, alone_ok (Task.alone_lift _ _), ih _ _ _ (by omega) (by omega), List.drop_eq_getElem_cons hi, List.map_cons, List.append_assoc]
      rfl
    · rw [List.getElem?_eq_none (by omega), List.drop_of_length_le (by omega)]
      simp

theorem SKL_addKeys (hK : K.Lawful key klt veq) {L : List (List α)} (hne : ∀ l ∈ L, l ≠ []) : ∀ (fuel i : Nat) (s : Shared α κ) (t : St α κ), Mirrors s t → t.lists = L →
    (L.drop i).flatten.length + 1 < fuel → i ≤ L.length → ∃ s', (Race.SKL.addKeys K fuel i).alone s = some (.ok (), s') ∧ Mirrors s' { t with keys := t.keys ++ (L.drop i).map (List.map key) } := by
  intro fuel
  induction fuel with
  | zero => intro i s t hM hL h h'; omega
  | succ fuel ih =>
    intro i s t hM hL h h'
    unfold Race.SKL.addKeys
    rw [alone_ok (alone_see _ _)]
    have hlen : L.length = s.lists.length := by rw [← hL, hM.lists_length]
    by_cases hi : i < L.length
    · have hs : s.lists[i]? = some (s.lists[i]'(by omega)) := List.getElem?_eq_getElem _
      have e : s.cell (s.lists[i]'(by omega)) = L[i] := by
        have : L[i]? = (s.lists.map s.cell)[i]? := by rw [← hL, hM.lists]
        rw [List.getElem?_map, hs, List.getElem?_eq_getElem hi] at this
        exact (Option.some.inj this).symm
      rw [hs]
      dsimp only
      rw [List.drop_eq_getElem_cons hi, List.flatten_cons, List.length_append] at h
      have hpos : 0 < L[i].length := List.length_pos_iff.2 (hne _ (List.getElem_mem hi))
      rw [alone_ok (alone_mapKeys hK _ fuel 0 [] s (by rw [e]; omega) (Nat.zero_le _)), e]
      rw [List.nil_append, List.drop_zero, alone_ok (alone_kalloc _ _), alone_ok (alone_assign _ _)]
      have hM1 := (hM.kalloc (L[i].map key)).insertKeys s.keys.length (a := s.kcells.length) hM.knew (by simp)
      dsimp only at hM1
      rw [insertAt_end hM.keys_length.symm, insertAt_length] at hM1
      have ek : ({ s with kcells := s.kcells ++ [L[i].map key] } : Shared α κ).kcell s.kcells.length = L[i].map key := kcell_new (s := s)
      rw [ek] at hM1
      obtain ⟨s', a1, a2⟩ := ih (i + 1) _ _ hM1 hL (by omega) (by omega)
      refine ⟨s', a1, ?_⟩
      rw [List.drop_eq_getElem_cons hi, List.map_cons]
      simpa using a2
    · rw [List.getElem?_eq_none (by omega), List.drop_of_length_le (by omega)]
      exact ⟨s, rfl, by simpa using hM⟩

theorem SKL_addMaxes {L : List (List κ)} (hne : ∀ l ∈ L, l ≠ []) : ∀ (fuel i : Nat) (s : Shared α κ), L = s.keys.map s.kcell → i ≤ L.length → L.length < fuel + i →
    ∃ ms, mapE lastItem (L.drop i) = .ok ms ∧ (Race.SKL.addMaxes fuel i).alone s = some (.ok (), { s with maxes := s.maxes ++ ms }) := by
  intro fuel
  induction fuel with
  | zero => intro i s hs h1 h2; omega
  | succ fuel ih =>
    intro i s hs h1 h2
    have hlen : L.length = s.keys.length := by rw [hs, List.length_map]
    unfold Race.SKL.addMaxes
    rw [alone_ok (alone_see _ _)]
    by_cases h : i < L.length
    · have hi : s.keys[i]? = some (s.keys[i]'(by omega)) := List.getElem?_eq_getElem _
      have e : s.kcell (s.keys[i]'(by omega)) = L[i] := by
        have : L[i]? = (s.keys.map s.kcell)[i]? := by rw [hs]
        rw [List.getElem?_map, hi, List.getElem?_eq_getElem h] at this
        exact (Option.some.inj this).symm
      rw [hi]
      dsimp only
      have hn := hne L[i] (List.getElem_mem h)
      have hl : lastItem L[i] = .ok (L[i].getLast hn) := by rw [lastItem, List.getLast?_eq_some_getLast hn]
      rw [Task.alone_bind', Race.kentry, Task.alone_see, fetch_last, e, hl]
      dsimp only
      obtain ⟨ms, m1, m2⟩ := ih (i + 1) { s with maxes := s.maxes ++ [L[i].getLast hn] } hs (by omega) (by omega)
      refine ⟨L[i].getLast hn :: ms, ?_, ?_⟩
      · rw [List.drop_eq_getElem_cons h, mapE, hl, m1]
      · show (Race.SKL.addMaxes fuel (i + 1)).alone _ = _
        rw [m2]; simp
    · rw [List.getElem?_eq_none (by omega)]
      exact ⟨[], by rw [List.drop_of_length_le (by omega)]; rfl, by simp⟩

theorem SKL_fill (hK : K.Lawful key klt veq) {fuel : Nat} {vs : List α} (hM : Mirrors s t) (hl : 1 ≤ t.load) (h0 : t.lists = []) (hk0 : t.keys = []) (hf : vs.length + 1 < fuel) :
    Agrees id (Race.SKL.fill K fuel vs) s (Verif.SKL.fill K vs) t := by
  unfold Race.SKL.fill Verif.SKL.fill
  refine see (get ?_)
  rw [hM.load]
  refine lift hM fun cs e => modify (get ?_)
  rw [← hM.load] at e
  obtain ⟨h1, h2⟩ := chunks_length hl e
  have hflat : cs.flatten = vs := by
    obtain ⟨cs', c1, c2⟩ := chunks_ok hl vs
    rw [c1] at e; cases e; exact c2.1
  obtain ⟨s1, a1, hM1⟩ := addLists cs s t hM
  rw [h0, List.nil_append] at hM1 ⊢
  obtain ⟨s2, a2, hM2⟩ := SKL_addKeys hK h2 fuel 0 s1 _ hM1 rfl (by rw [List.drop_zero, hflat]; omega) (Nat.zero_le _)
  rw [List.drop_zero] at hM2
  have hfk := Verif.SKL.fillKeys_ok hK cs ({ t with lists := cs } : St α κ)
  have hek : ({ t with lists := cs, keys := t.keys ++ cs.map (List.map key) } : St α κ).keys = cs.map (List.map key) := by show t.keys ++ _ = _; rw [hk0]; rfl
  obtain ⟨ms, m1, m2⟩ := SKL_addMaxes (L := cs.map (List.map key)) (by simpa using h2) fuel 0 s2 (hek ▸ hM2.keys) (Nat.zero_le _) (by rw [List.length_map]; omega)
  refine left a1 (left a2 (left m2 ?_))
  unfold Agrees
  rw [Py.bind_ok hfk]
  refine get ?_
  rw [hek]
  refine right_ok m1 (modify ?_)
  rw [show ({ t with lists := cs, keys := t.keys ++ cs.map (List.map key) } : St α κ).maxes = s2.maxes from hM2.maxes]
  exact .inr ⟨_, rfl, ((hM2.setMaxes _).setLen rfl).dropIndex⟩

theorem SKL_update (hK : K.Lawful key klt veq) {fuel : Nat} {xs : List α} (hM : Mirrors s t) (h : Inv key klt true t) (hf : (Core.iter t).length + xs.length + 1 < fuel) :
    Agrees id (Race.SKL.update K fuel xs) s (Verif.SKL.update K xs) t := by
  unfold Race.SKL.update Verif.SKL.update
  refine lift hM fun vs e => see (get ?_)
  have hvs : vs.length = xs.length := by
    obtain ⟨vs', e', hp⟩ := hK.sorted xs
    rw [e'] at e; cases e; exact hp.perm.length_eq
  by_cases hm : t.maxes = []
  · rw [if_pos (hM.maxes ▸ hm), if_neg (fun h' => h' hm)]
    have h0 := h.maxes.nil_iff.1 hm
    exact SKL_fill hK hM h.load_pos h0 (by rw [h.keys_eq rfl, h0]; rfl) (by omega)
  rw [if_neg (hM.maxes ▸ hm), if_pos hm]
  refine see (ite (by rw [hM.len]; omega) (fun _ => ?_) fun _ => ?_)
  · refine alloc (assign (see (modify (get ?_))))
    have hM1 := (hM.alloc vs).insertList s.lists.length (a := s.cells.length) hM.new (by simp)
    rw [cell_new, ← hM.lists_length, insertAt_length, hM.lists_length, insertAt_length] at hM1
    rw [hM1.contents]
    refine lift hM1 fun zs ez => (SKL_clear hM1).bind fun _ s' t' e2 _ hM' => ?_
    cases e2
    refine SKL_fill hK hM' h.load_pos rfl rfl ?_
    obtain ⟨zs', e', hp⟩ := hK.sorted (Core.iter { t with lists := t.lists ++ [vs] })
    rw [e'] at ez; cases ez
    have := hp.perm.length_eq
    simp only [Core.iter, List.flatten_append, List.length_append, List.flatten_cons, List.flatten_nil, List.append_nil] at this hf
    omega
  · refine forEach (I := Inv key klt true) (fun x _ s t hM h => ⟨SKL_add fuel x hM (Fits.of_inv h) (keys_length h) h.maxes.length_eq, ?_⟩) hM h
    exact ((Verif.SKL.add_refines (cmp := K.vcmp) hK x) t h).2.2

end

end Agrees
end Race
end Verif
