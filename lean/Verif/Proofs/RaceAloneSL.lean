import Verif.Proofs.RaceAloneCore
import Verif.Proofs.Iter
/-!
# The methods of SortedList, run alone
-/

namespace Verif
variable {α κ β γ δ : Type}
namespace Race

section
variable {s : Shared α κ} {a b : Nat} {l : List α}

theorem cell_put (h : a < s.cells.length) : (s.put a l).cell a = l := by simp [Shared.cell, Shared.put, List.getD_eq_getElem?_getD, h]
theorem cell_put_ne (h : a ≠ b) : (s.put a l).cell b = s.cell b := by simp [Shared.cell, Shared.put, List.getD_eq_getElem?_getD, List.getElem?_set_ne h]
theorem kcell_kput {l : List κ} (h : a < s.kcells.length) : (s.kput a l).kcell a = l := by simp [Shared.kcell, Shared.kput, List.getD_eq_getElem?_getD, h]
theorem kcell_kput_ne {l : List κ} (h : a ≠ b) : (s.kput a l).kcell b = s.kcell b := by simp [Shared.kcell, Shared.kput, List.getD_eq_getElem?_getD, List.getElem?_set_ne h]
theorem cell_alloc (h : a < s.cells.length) : ({ s with cells := s.cells ++ [l] } : Shared α κ).cell a = s.cell a := by
  simp [Shared.cell, List.getD_eq_getElem?_getD, List.getElem?_append_left h]
theorem cell_new : ({ s with cells := s.cells ++ [l] } : Shared α κ).cell s.cells.length = l := by simp [Shared.cell, List.getD_eq_getElem?_getD]
theorem kcell_alloc {l : List κ} (h : a < s.kcells.length) : ({ s with kcells := s.kcells ++ [l] } : Shared α κ).kcell a = s.kcell a := by
  simp [Shared.kcell, List.getD_eq_getElem?_getD, List.getElem?_append_left h]
theorem kcell_new {l : List κ} : ({ s with kcells := s.kcells ++ [l] } : Shared α κ).kcell s.kcells.length = l := by simp [Shared.kcell, List.getD_eq_getElem?_getD]

theorem insertAt_length (l : List β) (x : β) : insertAt l l.length x = l ++ [x] := by simp [insertAt]

theorem Mirrors.lt {t : St α κ} (h : Mirrors s t) {p : Nat} (ha : s.lists[p]? = some a) : a < s.cells.length := h.valid a (List.mem_of_getElem? ha)
theorem Mirrors.klt {t : St α κ} (h : Mirrors s t) {p : Nat} (ha : s.keys[p]? = some a) : a < s.kcells.length := h.kvalid a (List.mem_of_getElem? ha)
theorem Mirrors.new {t : St α κ} (h : Mirrors s t) : s.cells.length ∉ s.lists := fun h' => Nat.lt_irrefl _ (h.valid _ h')
theorem Mirrors.knew {t : St α κ} (h : Mirrors s t) : s.kcells.length ∉ s.keys := fun h' => Nat.lt_irrefl _ (h.kvalid _ h')
end

namespace Agrees
variable {s : Shared α α} {t : St α α} {E : Env α}

theorem SL_clear (hM : Mirrors s t) : Agrees id Race.SL.clear s Verif.SL.clear t :=
  .inr ⟨_, rfl, ((((hM.setLen (n := 0) (m := 0) rfl).noLists).setMaxes []).dropIndex).setOffset 0⟩

theorem SL_expand (fuel : Nat) {p : Nat} (hM : Mirrors s t) (hf : Fits t) :
    Agrees id (Race.SL.expand fuel p) s (Verif.SL.expand p) t := by
  unfold Race.SL.expand Verif.SL.expand
  refine see (get (sublist hM fun a ha => see ?_))
  have hp' : p < t.lists.length := by rw [hM.lists_length]; exact (List.getElem?_eq_some_iff.1 ha).1
  refine ite (by rw [hM.load]) (fun h => again ha (alloc (alter ?_))) fun _ => touchUp fuel hM fun hn => by have := hf hn; omega
  have hv := hM.lt ha
  have hv' : a < ({ s with cells := s.cells ++ [(s.cell a).drop s.load] } : Shared α α).cells.length := by simp; omega
  rw [cell_alloc hv]
  rw [hM.load]
  refine modify ?_
  have hM1 := (hM.alloc ((s.cell a).drop s.load)).put ha ((s.cell a).take s.load)
  refine entry_last (cell_put hv') hM1 fun m _ => setMax hM1.maxes hM1 fun ms _ => modify (assign (modify ?_))
  have hM2 := (hM1.setMaxes ms).insertList (p + 1) (a := s.cells.length) hM.new (by simp [Shared.put])
  have hc : ({ (({ s with cells := s.cells ++ [(s.cell a).drop s.load] } : Shared α α).put a ((s.cell a).take s.load)) with maxes := ms } : Shared α α).cell s.cells.length = (s.cell a).drop s.load := by
    show ((({ s with cells := s.cells ++ [(s.cell a).drop s.load] } : Shared α α).put a ((s.cell a).take s.load))).cell s.cells.length = _
    rw [cell_put_ne (by omega), cell_new]
  rw [hc] at hM2
  rw [show ((p : Int) + 1) = ((p + 1 : Nat) : Int) by omega, insert_nat]
  refine entry_last ?_ hM2 fun m _ => assign (modify ?_)
  · exact hc
  rw [insert_nat]
  have hM3 := (hM2.setMaxes (insertAt ms (p + 1) m)).dropIndex
  exact .inr ⟨_, rfl, hM3⟩

theorem _root_.Verif.Race.Fits.set {t : St α κ} (h : Fits t) (p : Nat) (l : List α) (m : List κ) : Fits { t with lists := t.lists.set p l, maxes := m } := fun hn => by
  have := h hn
  simpa using this

theorem len_up (hM : Mirrors s t) : Agrees id (Race.addLen 1) s (Py.modify fun s => { s with len := s.len + 1 }) t :=
  .inr ⟨_, rfl, hM.setLen (by rw [hM.len]; rfl)⟩

theorem SL_add (fuel : Nat) (v : α) (hM : Mirrors s t) (hf : Fits t) (hl : t.maxes.length = t.lists.length) : Agrees id (Race.SL.add E fuel v) s (Verif.SL.add E v) t := by
  unfold Race.SL.add Verif.SL.add
  refine see (get ?_)
  dsimp only
  by_cases h : t.maxes = []
  · rw [if_pos (hM.maxes ▸ h), if_neg (fun h' => h' h)]
    refine alloc (assign (assign (modify (modify ?_))))
    have := ((hM.alloc [v]).insertList s.lists.length (a := s.cells.length) hM.new (by simp)).setMaxes (s.maxes ++ [v])
    rw [cell_new, ← hM.lists_length, insertAt_length, hM.lists_length, insertAt_length] at this
    rw [← hM.maxes] at this
    rw [← hM.maxes]
    exact len_up this
  · rw [if_neg (hM.maxes ▸ h), if_pos h]
    refine reads' (by rw [alone_bisectMaxes, hM.maxes]; rfl) hM fun p hp => see ?_
    refine ite (by rw [hM.maxes]) (fun h1 => ?_) fun h1 => ?_
    · have hpos : 0 < s.maxes.length := by rw [← hM.maxes]; exact List.length_pos_iff.2 h
      have e : ((p : Int) - 1) = ((p - 1 : Nat) : Int) := by omega
      rw [e]
      refine sublist hM fun a ha => alter (modify (modify ?_))
      have hM1 := hM.put ha (s.cell a ++ [v])
      refine left (b := ()) (s' := { s.put a (s.cell a ++ [v]) with maxes := s.maxes.set (p - 1) v }) ?_ ?_
      · rw [Race.setMax, Task.alone_change, store_nat, setItem, if_pos (by show p - 1 < s.maxes.length; omega)]; rfl
      have hM2 := hM1.setMaxes (s.maxes.set (p - 1) v)
      rw [← hM.maxes] at hM2 ⊢
      exact (SL_expand fuel hM2 (hf.set _ _ _)).bind fun _ s' t' _ _ hM' => len_up hM'
    · refine sublist hM fun a ha => ?_
      unfold insort
      have hx := alone_SL_bisectCell E true a v s
      cases hb : bisectRight E.lt (s.cell a) v with
      | error e => exact .inr ⟨s, by rw [Task.alone_bind', hx]; simp [hb], hM⟩
      | ok i =>
        refine left (b := i) (s' := s) (by rw [hx]; simp [hb]) (alter (right_ok rfl (modify ?_)))
        rw [insert_nat]
        have hM1 := hM.put ha (insertAt (s.cell a) i v)
        exact (SL_expand fuel hM1 (hf.set _ _ _)).bind fun _ s' t' _ _ hM' => len_up hM'

theorem setMax_last {s : Shared α κ} {t : St α κ} {i : Nat} {m : κ} {ms : List κ} (e : ms = s.maxes) (hM : Mirrors s t) :
    Agrees id (Race.setMax i m) s (Py.lift (setItem ms i m) >>= fun x => Py.modify fun s => { s with maxes := x }) t := by
  subst e
  unfold Race.setMax
  cases h : setItem s.maxes i m with
  | error e => exact .inr ⟨s, by rw [Task.alone_change, store_nat, h]; rfl, hM⟩
  | ok x => exact .inr ⟨_, by rw [Task.alone_change, store_nat, h]; rfl, hM.setMaxes x⟩

theorem SL_delete (fuel : Nat) {p i : Nat} (hM : Mirrors s t) (hf : Fits t) : Agrees id (Race.SL.delete fuel p i) s (Verif.SL.delete p i) t := by
  unfold Race.SL.delete Verif.SL.delete
  refine get (sublist hM fun a ha => ?_)
  refine writes (put := fun l => s.put a l) (by rw [remove_nat]) hM fun l hl => modify ?_
  have hp : p < t.lists.length := by rw [hM.lists_length]; exact (List.getElem?_eq_some_iff.1 ha).1
  have hM1 := hM.put ha l
  have hv := hM.lt ha
  obtain hn | ⟨n, hn⟩ : t.len = 0 ∨ ∃ n, t.len = n + 1 := by cases t.len <;> simp
  · rw [show Core.decr t.len = .error .modelGap by rw [hn]; rfl]
    exact .inl rfl
  refine right_ok (c := n) (by rw [hn]; rfl) (modify (addLen (see (see ?_))))
  have hM2 := hM1.setLen (n := (s.put a l).len + -1) (m := n) (by show s.len + -1 = _; rw [hM.len, hn]; omega)
  have hc : ({ s.put a l with len := (s.put a l).len + -1 } : Shared α α).cell a = l := cell_put hv
  refine ite (by rw [hc, hM2.load]) (fun _ => ?_) fun _ => see ?_
  · refine entry_last hc hM2 fun m _ => setMax hM2.maxes hM2 fun ms _ => modify ?_
    exact touchDown (hM2.setMaxes ms) fun h => by have := hf h; show t.offset + p < t.index.length; omega
  refine ite (by show s.lists.length > 1 ↔ _; rw [hM.lists_length]) (fun _ => ?_) fun _ => ite (by rw [hc]) (fun _ => ?_) fun _ => ?_
  · dsimp only
    obtain ⟨r, hr, hr'⟩ : ∃ r, (if p = 0 then p + 1 else p) = r + 1 ∧ (if (p : Int) = 0 then (p : Int) + 1 else p) = ((r + 1 : Nat) : Int) := by
      by_cases h : p = 0
      · exact ⟨0, by rw [if_pos h, h], by rw [if_pos (by omega), h]; rfl⟩
      · exact ⟨p - 1, by rw [if_neg h]; omega, by rw [if_neg (by omega)]; omega⟩
    rw [hr, hr', show ((r + 1 : Nat) : Int) - 1 = (r : Int) by omega, show r + 1 - 1 = r from rfl]
    refine get (sublist hM2 fun b hb => sublist hM2 fun c hc' => assign (modify (again hb ?_)))
    have hM3 := hM2.put hb (({ s.put a l with len := (s.put a l).len + -1 } : Shared α α).cell b ++ ({ s.put a l with len := (s.put a l).len + -1 } : Shared α α).cell c)
    refine entry_last (cell_put (hM2.lt hb)) hM3 fun m _ => setMax hM3.maxes hM3 fun ms _ => modify (get ?_)
    have hM4 := hM3.setMaxes ms
    refine dropList rfl hM4 fun _ => modify ?_
    have hM5 := hM4.eraseList (r + 1)
    refine dropMax hM5.maxes hM5 fun ms' _ => modify (dropIndex (modify ?_))
    exact SL_expand fuel ((hM5.setMaxes ms').dropIndex) fun h => absurd rfl h
  · exact entry_last hc hM2 fun m _ => setMax_last hM2.maxes hM2
  · refine get (dropList rfl hM2 fun _ => modify ?_)
    have hM5 := hM2.eraseList p
    exact dropMax hM5.maxes hM5 fun ms' _ => modify (.inr ⟨_, rfl, (hM5.setMaxes ms').dropIndex⟩)

theorem SL_contains (v : α) (hM : Mirrors s t) : Agrees id (Race.SL.contains E v) s (Verif.SL.contains E v) t := by
  unfold Race.SL.contains Verif.SL.contains
  refine see (get (ite (by rw [hM.maxes]) (fun _ => pure hM rfl) fun _ => ?_))
  refine reads' (by rw [alone_bisectMaxes, hM.maxes]; rfl) hM fun p _ => see (ite (by rw [hM.maxes]) (fun _ => pure hM rfl) fun _ => ?_)
  refine sublist hM fun a ha => reads' (by rw [alone_SL_bisectCell]; rfl) hM fun i _ => again ha (entry rfl hM fun x _ => ?_)
  exact last rfl hM

theorem SL_discard (fuel : Nat) (v : α) (hM : Mirrors s t) (hf : Fits t) : Agrees id (Race.SL.discard E fuel v) s (Verif.SL.discard E v) t := by
  unfold Race.SL.discard Verif.SL.discard
  refine see (get (ite (by rw [hM.maxes]) (fun _ => pure hM rfl) fun _ => ?_))
  refine reads' (by rw [alone_bisectMaxes, hM.maxes]; rfl) hM fun p _ => see (ite (by rw [hM.maxes]) (fun _ => pure hM rfl) fun _ => ?_)
  refine sublist hM fun a ha => reads' (by rw [alone_SL_bisectCell]; rfl) hM fun i _ => again ha (entry rfl hM fun x _ => lift hM fun b _ => ?_)
  exact ite Iff.rfl (fun _ => SL_delete fuel hM hf) fun _ => pure hM rfl

theorem SL_remove (fuel : Nat) (v : α) (hM : Mirrors s t) (hf : Fits t) : Agrees id (Race.SL.remove E fuel v) s (Verif.SL.remove E v) t := by
  unfold Race.SL.remove Verif.SL.remove
  refine see (get (ite (by rw [hM.maxes]) (fun _ => raise hM) fun _ => ?_))
  refine reads' (by rw [alone_bisectMaxes, hM.maxes]; rfl) hM fun p _ => see (ite (by rw [hM.maxes]) (fun _ => raise hM) fun _ => ?_)
  refine sublist hM fun a ha => reads' (by rw [alone_SL_bisectCell]; rfl) hM fun i _ => again ha (entry rfl hM fun x _ => lift hM fun b _ => ?_)
  exact ite Iff.rfl (fun _ => SL_delete fuel hM hf) fun _ => raise hM

section
variable {lt : α → α → Bool}

theorem SL_deletes (E : Env α) (fuel : Nat) : Deletes id lt false (Race.SL.delete fuel) (Verif.SL.methods E) :=
  fun _ _ _ _ hM h => SL_delete fuel hM (Fits.of_inv h)

theorem SL_delInt (hE : E.Lawful lt) (fuel : Nat) (i : Int) (hM : Mirrors s t) (h : Inv id lt false t) : Agrees id (Race.SL.delInt E fuel i) s (Core.delInt (Verif.SL.methods E) i) t :=
  delInt (M := Verif.SL.methods E) hE.ilog2 (SL_deletes E fuel) i hM h

theorem SL_pop (hE : E.Lawful lt) (fuel : Nat) (i : Int) (hM : Mirrors s t) (h : Inv id lt false t) : Agrees id (Race.SL.pop E fuel i) s (Core.pop (Verif.SL.methods E) i) t :=
  pop (M := Verif.SL.methods E) hE.ilog2 (SL_deletes E fuel) i hM h

theorem SL_bisect_left (v : α) (hM : Mirrors s t) (h : Inv id lt false t) : Agrees Int.ofNat (Race.SL.bisect E false v) s (Verif.SL.bisect_left E v) t := by
  unfold Race.SL.bisect Verif.SL.bisect_left
  refine see (get (ite (by rw [hM.maxes]) (fun _ => pure hM rfl) fun hn => ?_))
  have hne : t.lists ≠ [] := fun h' => hn (hM.maxes ▸ h.maxes.nil_iff.2 h')
  refine reads' (by rw [alone_bisectMaxes, hM.maxes]; rfl) hM fun p _ => see (ite (by rw [hM.maxes]) (fun _ => .inr ⟨s, by rw [alone_see, hM.len]; rfl, hM⟩) fun _ => ?_)
  exact sublist hM fun a ha => reads' (by rw [alone_SL_bisectCell]; rfl) hM fun i _ => loc _ _ _ hM hne

theorem SL_bisect_right (v : α) (hM : Mirrors s t) (h : Inv id lt false t) : Agrees Int.ofNat (Race.SL.bisect E true v) s (Verif.SL.bisect_right E v) t := by
  unfold Race.SL.bisect Verif.SL.bisect_right
  refine see (get (ite (by rw [hM.maxes]) (fun _ => pure hM rfl) fun hn => ?_))
  have hne : t.lists ≠ [] := fun h' => hn (hM.maxes ▸ h.maxes.nil_iff.2 h')
  refine reads' (by rw [alone_bisectMaxes, hM.maxes]; rfl) hM fun p _ => see (ite (by rw [hM.maxes]) (fun _ => .inr ⟨s, by rw [alone_see, hM.len]; rfl, hM⟩) fun _ => ?_)
  exact sublist hM fun a ha => reads' (by rw [alone_SL_bisectCell]; rfl) hM fun i _ => loc _ _ _ hM hne

theorem SL_count (v : α) (hM : Mirrors s t) (h : Inv id lt false t) : Agrees id (Race.SL.count E v) s (Verif.SL.count E v) t := by
  unfold Race.SL.count Verif.SL.count
  refine see (get (ite (by rw [hM.maxes]) (fun _ => pure hM rfl) fun hn => ?_))
  have hne : t.lists ≠ [] := fun h' => hn (hM.maxes ▸ h.maxes.nil_iff.2 h')
  refine reads' (by rw [alone_bisectMaxes, hM.maxes]; rfl) hM fun p _ => see (ite (by rw [hM.maxes]) (fun _ => pure hM rfl) fun _ => ?_)
  refine sublist hM fun a ha => reads' (by rw [alone_SL_bisectCell]; rfl) hM fun i _ => ?_
  refine reads' (by rw [alone_bisectMaxes, hM.maxes]; rfl) hM fun q _ => see (ite (by rw [hM.maxes]) (fun _ => see ?_) fun _ => ?_)
  · exact (loc _ _ _ hM hne).bind fun c s' t' _ _ hM' => pure hM' (by rw [hM.len]; rfl)
  refine sublist hM fun b hb => reads' (by rw [alone_SL_bisectCell]; rfl) hM fun j _ => ite Iff.rfl (fun _ => pure hM rfl) fun _ => ?_
  refine (loc _ _ _ hM hne).bind fun c s' t' e _ hM' => ?_
  have hr : Reindexed t t' := by have := (Core.loc_quiet E.ilog2 q j).reindexed t; rwa [e] at this
  exact (loc _ _ _ hM' (hr.lists ▸ hne)).bind fun c s' t' _ _ hM' => pure hM' rfl

theorem SL_addMaxes {L : List (List α)} (hne : ∀ l ∈ L, l ≠ []) : ∀ (fuel i : Nat) (s : Shared α α), L = s.lists.map s.cell → i ≤ L.length → L.length < fuel + i →
    ∃ ms, mapE lastItem (L.drop i) = .ok ms ∧ (Race.SL.addMaxes fuel i).alone s = some (.ok (), { s with maxes := s.maxes ++ ms }) := by
  intro fuel
  induction fuel with
  | zero => intro i s hs h1 h2; omega
  | succ fuel ih =>
    intro i s hs h1 h2
    have hlen : L.length = s.lists.length := by rw [hs, List.length_map]
    unfold Race.SL.addMaxes
    rw [Task.alone_bind', alone_see]
    dsimp only
    by_cases h : i < L.length
    · have hi : s.lists[i]? = some (s.lists[i]'(by omega)) := List.getElem?_eq_getElem _
      have e : s.cell (s.lists[i]'(by omega)) = L[i] := by
        have : L[i]? = (s.lists.map s.cell)[i]? := by rw [hs]
        rw [List.getElem?_map, hi, List.getElem?_eq_getElem h] at this
        exact (Option.some.inj this).symm
      rw [hi]
      dsimp only
      have hn := hne L[i] (List.getElem_mem h)
      have hl : lastItem L[i] = .ok (L[i].getLast hn) := by rw [lastItem, List.getLast?_eq_some_getLast hn]
      rw [Task.alone_bind', Race.entry, Task.alone_see, fetch_last, e, hl]
      dsimp only
      obtain ⟨ms, m1, m2⟩ := ih (i + 1) { s with maxes := s.maxes ++ [L[i].getLast hn] } hs (by omega) (by omega)
      refine ⟨L[i].getLast hn :: ms, ?_, ?_⟩
      · rw [List.drop_eq_getElem_cons h, mapE, hl, m1]
      · show (Race.SL.addMaxes fuel (i + 1)).alone _ = _
        rw [m2]; simp
    · rw [List.getElem?_eq_none (by omega)]
      exact ⟨[], by rw [List.drop_of_length_le (by omega)]; rfl, by simp⟩

theorem SL_fill {fuel : Nat} {vs : List α} (hM : Mirrors s t) (hl : 1 ≤ t.load) (h0 : t.lists = []) (hf : vs.length < fuel) : Agrees id (Race.SL.fill fuel vs) s (Verif.SL.fill vs) t := by
  unfold Race.SL.fill Verif.SL.fill
  refine see (get ?_)
  rw [hM.load]
  refine lift hM fun cs e => modify (get ?_)
  rw [← hM.load] at e
  obtain ⟨h1, h2⟩ := chunks_length hl e
  obtain ⟨s1, a1, hM1⟩ := addLists cs s t hM
  rw [h0, List.nil_append] at hM1 ⊢
  obtain ⟨ms, m1, m2⟩ := SL_addMaxes h2 fuel 0 s1 hM1.lists (Nat.zero_le _) (by omega)
  refine left a1 (left m2 (right_ok m1 (modify ?_)))
  rw [show ({ t with lists := cs } : St α α).maxes = s1.maxes from hM1.maxes]
  exact .inr ⟨_, rfl, ((hM1.setMaxes _).setLen rfl).dropIndex⟩

theorem SL_update (hE : E.Lawful lt) {fuel : Nat} {xs : List α} (hM : Mirrors s t) (h : Inv id lt false t) (hf : (Core.iter t).length + xs.length < fuel) :
    Agrees id (Race.SL.update E fuel xs) s (Verif.SL.update E xs) t := by
  unfold Race.SL.update Verif.SL.update
  refine lift hM fun vs e => see (get ?_)
  have hvs : vs.length = xs.length := by
    obtain ⟨vs', e', hp⟩ := hE.sorted xs
    rw [e'] at e; cases e; exact hp.perm.length_eq
  by_cases hm : t.maxes = []
  · rw [if_pos (hM.maxes ▸ hm), if_neg (fun h' => h' hm)]
    exact SL_fill hM h.load_pos (h.maxes.nil_iff.1 hm) (by omega)
  rw [if_neg (hM.maxes ▸ hm), if_pos hm]
  refine see (ite (by rw [hM.len]; omega) (fun _ => ?_) fun _ => ?_)
  · refine alloc (assign (see (modify (get ?_))))
    have hM1 := (hM.alloc vs).insertList s.lists.length (a := s.cells.length) hM.new (by simp)
    rw [cell_new, ← hM.lists_length, insertAt_length, hM.lists_length, insertAt_length] at hM1
    rw [hM1.contents]
    refine lift hM1 fun zs ez => (SL_clear hM1).bind fun _ s' t' e2 _ hM' => ?_
    cases e2
    refine SL_fill hM' h.load_pos rfl ?_
    obtain ⟨zs', e', hp⟩ := hE.sorted (Core.iter { t with lists := t.lists ++ [vs] })
    rw [e'] at ez; cases ez
    have := hp.perm.length_eq
    simp only [Core.iter, List.flatten_append, List.length_append, List.flatten_cons, List.flatten_nil, List.append_nil] at this hf
    omega
  · refine forEach (I := Inv id lt false) (fun x _ s t hM h => ⟨SL_add fuel x hM (Fits.of_inv h) h.maxes.length_eq, ?_⟩) hM h
    exact ((Verif.SL.add_refines hE x) t h).2.2

end

end Agrees
end Race
end Verif
