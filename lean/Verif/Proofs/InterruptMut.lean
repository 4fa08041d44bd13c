import Verif.Cut
import Verif.Proofs.Interrupt
/-!
# Interrupted calls: the methods that change a list
-/

namespace Verif
variable {α κ κ' β γ δ : Type}

/-- The values one iterates over have `R`. -/
def On (R : List α → Prop) (s : St α κ) : Prop := R (Core.iter s)

theorem On.noIndex (R : List α → Prop) : NoIndex (On R : St α κ → Prop) := fun _ _ _ h => h

theorem Tr.assume {P : St α κ → Prop} {s : St α κ} {mt : IPy (St α κ) β} {m : Py (St α κ) β} (h : P s → Tr P mt m s) : Tr P mt m s :=
  fun hs => h hs hs

theorem Tr.of_query {P : St α κ → Prop} {s : St α κ} {mt : IPy (St α κ) β} {m : Py (St α κ) β} (h : Tr (Reindexed s) mt m s)
    (hP : NoIndex P) : Tr P mt m s := fun hs => h.weaken (Reindexed.refl s) (fun _ hx => hP.reindexed hx hs) hs

/-- Entries handed over one by one. -/
theorem Tr.extend {P : St α κ → Prop} {f : β → Except PyErr γ} {g : List γ → St α κ → St α κ} (h0 : ∀ s, g [] s = s)
    (hg : ∀ xs ys s, g ys (g xs s) = g (xs ++ ys) s) (xs : List β) :
    ∀ (ys : List γ) (s : St α κ), mapE f xs = .ok ys → (∀ a b, ys = a ++ b → P (g a s)) →
    Tr P (IPy.forEach (fun x => do
      let y ← IPy.lift (f x)
      IPy.write (g [y])) xs) (Py.modify (g ys)) s := by
  induction xs with
  | nil =>
    intro ys s e h
    obtain rfl : [] = ys := Except.ok.inj e
    intro hs hh
    refine ⟨[], (List.append_nil _).symm, by simp, hs, rfl, ?_, fun _ _ => ?_⟩
    · show Reindexed (g [] s) s
      rw [h0]; exact Reindexed.refl s
    · exact (h0 s).symm
  | cons x xs ih =>
    intro ys s e h
    cases e1 : f x with
    | error er => simp [mapE, e1, bind, Except.bind] at e
    | ok y =>
      cases e2 : mapE f xs with
      | error er => simp [mapE, e1, e2, bind, Except.bind] at e
      | ok ys' =>
        simp [mapE, e1, e2, bind, Except.bind, pure, Except.pure] at e
        subst e
        intro hs hh
        have hy : P (g [y] s) := h [y] ys' rfl
        obtain ⟨d, g1, g2, g3, g4, g5, g6⟩ := ih ys' (g [y] s) e2 (fun a b e => by rw [hg]; exact h (y :: a) b (by rw [e]; rfl)) hy
          (hh ++ [g [y] s])
        have e3 : IPy.forEach (fun x => do
            let y ← IPy.lift (f x)
            IPy.write (g [y])) (x :: xs) (s, hh) = IPy.forEach (fun x => do
            let y ← IPy.lift (f x)
            IPy.write (g [y])) xs (g [y] s, hh ++ [g [y] s]) := by
          show ((do
            let y ← IPy.lift (f x)
            IPy.write (g [y]) : IPy (St α κ) Unit) >>= fun _ => _) (s, hh) = _
          rw [e1]; rfl
        have e4 : g ys' (g [y] s) = g (y :: ys') s := hg _ _ _
        rw [e3]
        simp only [Py.modify_apply, e4] at g4 g5 g6 ⊢
        refine ⟨g [y] s :: d, by rw [g1]; simp, ?_, g3, g4, g5, g6⟩
        intro z hz
        rcases List.mem_cons.1 hz with rfl | hz
        · exact hy
        · exact g2 z hz

namespace Interrupt

/-! ## Lists of lists -/

theorem split_of_getItem {L : List β} {p : Nat} {B : β} (h : getItem L p = .ok B) : ∃ A C, L = A ++ B :: C ∧ A.length = p := by
  rw [getItem_ok_iff] at h
  obtain ⟨hp, rfl⟩ := List.getElem?_eq_some_iff.1 h
  obtain ⟨A, b, C, e1, e2, -, e3⟩ := take_drop_split hp
  exact ⟨A, C, by rw [← e3]; exact e1, e2.symm⟩

theorem flatten_split {L : List (List α)} {p : Nat} {B : List α} (h : getItem L p = .ok B) (n : Nat) :
    (insertAt (L.set p (B.take n)) (p + 1) (B.drop n)).flatten = L.flatten := by
  obtain ⟨A, C, rfl, rfl⟩ := split_of_getItem h
  simp [insertAt, List.take_append, List.drop_append]
  rw [List.take_of_length_le (l := A) (by omega), List.drop_of_length_le (l := A) (by omega)]
  simp [← List.append_assoc]

theorem flatten_merge {L L' : List (List α)} {p : Nat} {a b : List α} (h1 : getItem L p = .ok a) (h2 : getItem L (p + 1) = .ok b)
    (h3 : delItem (L.set p (a ++ b)) (p + 1) = .ok L') : L'.flatten = L.flatten := by
  obtain ⟨A, C, rfl, rfl⟩ := split_of_getItem h1
  rw [getItem_ok_iff] at h2
  cases C with
  | nil => simp at h2
  | cons c C =>
    simp at h2
    subst h2
    simp [delItem] at h3
    subst h3
    simp [List.eraseIdx_append_of_length_le]

theorem flatten_delNil {L L' : List (List α)} {p : Nat} (h1 : getItem L p = .ok []) (h3 : delItem L p = .ok L') :
    L'.flatten = L.flatten := by
  obtain ⟨A, C, rfl, rfl⟩ := split_of_getItem h1
  simp [delItem] at h3
  subst h3
  simp [List.eraseIdx_append_of_length_le]

theorem _root_.Verif.Lost.refl (n : Nat) (F : List α) : Lost n F F := ⟨F, [], [], by simp, by simp, by simp⟩

theorem _root_.Verif.Lost.torn {n : Nat} {F l : List α} (h : Lost n F l) : Torn n F l := by
  obtain ⟨a, b, c, h1, h2, h3⟩ := h; exact ⟨a, b, c, h1, h2, .inl h3⟩

theorem _root_.Verif.Torn.refl (n : Nat) (F : List α) : Torn n F F := (Lost.refl n F).torn

theorem lost_split {L : List (List α)} {p n N : Nat} {B : List α} (h : getItem L p = .ok B) (hN : B.length ≤ n + N) :
    Lost N L.flatten (L.set p (B.take n)).flatten := by
  obtain ⟨A, C, rfl, rfl⟩ := split_of_getItem h
  exact ⟨A.flatten ++ B.take n, B.drop n, C.flatten, by simp, by simp; omega, by simp⟩

theorem torn_merge {L : List (List α)} {p N : Nat} {a b : List α} (h1 : getItem L p = .ok a) (h2 : getItem L (p + 1) = .ok b)
    (hN : b.length ≤ N) : Torn N L.flatten (L.set p (a ++ b)).flatten := by
  obtain ⟨A, C, rfl, rfl⟩ := split_of_getItem h1
  rw [getItem_ok_iff] at h2
  cases C with
  | nil => simp at h2
  | cons c C =>
    simp at h2
    subst h2
    exact ⟨A.flatten ++ a, c, C.flatten, by simp, hN, .inr (by simp)⟩

theorem getItem_merged {L L' : List (List α)} {p : Nat} {a : List α} (hp : p < L.length)
    (h : delItem (L.set p a) (p + 1) = .ok L') : getItem L' p = .ok a := by
  unfold delItem at h
  split at h
  · cases h
    rw [getItem_ok_iff, List.getElem?_eraseIdx_of_lt (by omega)]
    simp [hp]
  · cases h

theorem getItem_set_self {L : List (List α)} {p : Nat} {a l : List α} (h : getItem (L.set p l) p = .ok a) : a = l := by
  rw [getItem_ok_iff] at h
  have hp := (List.getElem?_eq_some_iff.1 h).1
  rw [List.length_set] at hp
  simpa [hp, eq_comm] using h

theorem mem_of_getItem_set {L : List (List α)} {p q : Nat} {a l : List α} (h : getItem (L.set p l) q = .ok a) : a = l ∨ a ∈ L := by
  rw [getItem_ok_iff] at h
  have := List.mem_of_getElem? h
  exact (List.mem_or_eq_of_mem_set this).symm

/-- After a deletion: the two neighbours that are merged, and what is cut off the merged one. -/
theorem torn_delete {L : List (List α)} {load pos prev : Nat} {l' a b : List α} (hu : ∀ l ∈ L, l.length ≤ load * 2)
    (hs : l'.length ≤ load / 2) (hp : prev + 1 = if pos = 0 then pos + 1 else pos) (h1 : getItem (L.set pos l') prev = .ok a)
    (h2 : getItem (L.set pos l') (prev + 1) = .ok b) :
    Torn (load * 2) (L.set pos l').flatten ((L.set pos l').set prev (a ++ b)).flatten ∧
    ∀ L', delItem ((L.set pos l').set prev (a ++ b)) (prev + 1) = .ok L' →
      L'.flatten = (L.set pos l').flatten ∧ getItem L' prev = .ok (a ++ b) ∧
      Torn (load * 2) (L.set pos l').flatten (L'.set prev ((a ++ b).take load)).flatten := by
  have hle : ∀ q x, getItem (L.set pos l') q = .ok x → x.length ≤ load * 2 := by
    intro q x hx
    rcases mem_of_getItem_set hx with rfl | hm
    · omega
    · exact hu x hm
  have ha := hle _ _ h1
  have hb := hle _ _ h2
  have hsum : (a ++ b).length ≤ load + load * 2 := by
    rw [List.length_append]
    by_cases h0 : pos = 0
    · rw [if_pos h0] at hp
      have : prev = pos := by omega
      subst this
      obtain rfl := getItem_set_self h1
      omega
    · rw [if_neg h0] at hp
      rw [hp] at h2
      obtain rfl := getItem_set_self h2
      omega
  refine ⟨torn_merge h1 h2 hb, fun L' e => ?_⟩
  have hf := flatten_merge h1 h2 e
  have hg := getItem_merged (by rw [getItem_ok_iff] at h1; exact (List.getElem?_eq_some_iff.1 h1).1) e
  exact ⟨hf, hg, hf ▸ (lost_split hg hsum).torn⟩

theorem _root_.Verif.PartOf.refl (l : List α) : PartOf l l := ⟨[], by simp⟩

theorem _root_.Verif.PartOf.nil (l : List α) : PartOf l [] := ⟨l, by simp⟩

theorem _root_.Verif.PartOf.trans {a b c : List α} (h1 : PartOf a b) (h2 : PartOf b c) : PartOf a c := by
  obtain ⟨r1, h1⟩ := h1
  obtain ⟨r2, h2⟩ := h2
  exact ⟨r2 ++ r1, by rw [← List.append_assoc]; exact (h2.append_right r1).trans h1⟩

theorem _root_.Verif.PartOf.of_perm {a b : List α} (h : b.Perm a) : PartOf a b := ⟨[], by simpa using h⟩

theorem _root_.Verif.PartOf.of_prefix {a b : List α} : PartOf (a ++ b) a := ⟨b, List.Perm.refl _⟩

theorem _root_.Verif.Lost.within {n : Nat} {F l : List α} (h : Lost n F l) : PartOf F l := by
  obtain ⟨a, b, c, rfl, -, rfl⟩ := h
  exact ⟨b, by rw [List.append_assoc, List.append_assoc]; exact List.perm_append_comm.append_left a⟩

theorem _root_.Verif.PartOf.eraseIdx (l : List α) (n : Nat) : PartOf l (l.eraseIdx n) := by
  by_cases h : n < l.length
  · exact ⟨[l[n]], (List.perm_append_comm).trans (by
      rw [List.eraseIdx_eq_take_drop_succ]
      show (l[n] :: (l.take n ++ l.drop (n + 1))).Perm l
      refine (List.perm_middle (l₁ := l.take n)).symm.trans ?_
      rw [← List.drop_eq_getElem_cons h, List.take_append_drop])⟩
  · rw [List.eraseIdx_of_length_le (by omega)]; exact PartOf.refl l

variable {R : List α → Prop}

namespace SL
variable {s : St α α} {E : Env α}
open Verif.SL (W expand_sim expand_ok delete_whole)

theorem expand_tr {pos : Nat}
    (hR : ∀ B, getItem s.lists pos = .ok B → R (s.lists.set pos (B.take s.load)).flatten) :
    Tr (On R) (expand pos) (Verif.SL.expand pos) s := by
  refine Tr.assume fun hs => Tr.get_bind (Tr.lift_bind fun B hB => Tr.ite (fun _ => ?_) fun _ => touchIndex_tr (On.noIndex R) _ _)
  have h1 : R (s.lists.set pos (B.take s.load)).flatten := hR B hB
  have h2 : R (insertAt (s.lists.set pos (B.take s.load)) (pos + 1) (B.drop s.load)).flatten := by
    rw [flatten_split hB]; exact hs
  refine Tr.write_bind (fun _ => h1) (Tr.lift_bind fun _ _ => Tr.lift_bind fun _ _ => Tr.write_bind (fun _ => h1) ?_)
  exact Tr.write_bind (fun _ => h2) (Tr.lift_bind fun _ _ => Tr.write_bind (fun _ => h2) (Tr.write fun _ => h2))

/-- `AddAt E s v p l`: `add` puts the value into sublist number `p`, which becomes `l`. -/
def AddAt (E : Env α) (s : St α α) (v : α) (p : Nat) (l' : List α) : Prop :=
  s.maxes ≠ [] ∧ ∃ l, getItem s.lists p = .ok l ∧
    ((bisectRight E.lt s.maxes v = .ok s.maxes.length ∧ p = s.maxes.length - 1 ∧ l' = l ++ [v]) ∨
     (bisectRight E.lt s.maxes v = .ok p ∧ p ≠ s.maxes.length ∧ insort E.lt l v = .ok l'))

theorem add_tr {v : α} (h0 : s.maxes = [] → R (s.lists ++ [[v]]).flatten)
    (hR : ∀ p l', AddAt E s v p l' → R (s.lists.set p l').flatten ∧
      ∀ B, getItem (s.lists.set p l') p = .ok B → R ((s.lists.set p l').set p (B.take s.load)).flatten) :
    Tr (On R) (add E v) (Verif.SL.add E v) s := by
  refine Tr.get_bind (Tr.ite (fun hm => ?_) fun hm => ?_)
  · refine Tr.lift_bind fun p hp => Tr.ite (fun he => ?_) fun he => ?_
    · refine Tr.lift_bind fun l hl => ?_
      obtain ⟨h1, h2⟩ := hR (p - 1) (l ++ [v]) ⟨hm, l, hl, .inl ⟨he ▸ hp, by rw [he], rfl⟩⟩
      exact Tr.write_bind (fun _ => h1) (Tr.write_bind (fun _ => h1) (Tr.bind' (expand_tr h2) fun _ _ => Tr.write fun h => h))
    · refine Tr.lift_bind fun l hl => Tr.lift_bind fun l' hl' => ?_
      obtain ⟨h1, h2⟩ := hR p l' ⟨hm, l, hl, .inr ⟨hp, he, hl'⟩⟩
      exact Tr.write_bind (fun _ => h1) (Tr.bind' (expand_tr h2) fun _ _ => Tr.write fun h => h)
  · have h1 := h0 (by simpa using hm)
    exact Tr.write_bind (fun _ => h1) (Tr.write_bind (fun _ => h1) (Tr.write fun h => h))

theorem delete_tr {p i : Nat} (hu : ∀ l ∈ s.lists, l.length ≤ s.load * 2)
    (hR : ∀ l l', getItem s.lists p = .ok l → delItem l i = .ok l' → ∀ x, Torn (s.load * 2) (s.lists.set p l').flatten x → R x) :
    Tr (On R) (delete p i) (Verif.SL.delete p i) s := by
  refine Tr.get_bind (Tr.lift_bind fun l hl => Tr.lift_bind fun l' hl' => ?_)
  have hT := hR l l' hl hl'
  have hF := hT _ (Torn.refl _ _)
  refine Tr.write_bind (fun _ => hF) (Tr.lift_bind fun n _ => Tr.write_bind (fun _ => hF) (Tr.ite (fun _ => ?_) fun hs => Tr.ite (fun _ => ?_) fun _ =>
    Tr.ite (fun _ => ?_) fun hz => ?_))
  · exact Tr.lift_bind fun _ _ => Tr.lift_bind fun _ _ => Tr.write_bind (fun _ => hF) (touchIndex_tr (On.noIndex R) _ _)
  · refine Tr.get_bind (Tr.lift_bind fun a ha => Tr.lift_bind fun b hb => ?_)
    obtain ⟨prev, hprev⟩ : ∃ prev, prev + 1 = if p = 0 then p + 1 else p := by
      by_cases h0 : p = 0
      · exact ⟨p, by rw [if_pos h0]⟩
      · exact ⟨p - 1, by rw [if_neg h0]; omega⟩
    revert ha hb
    simp only [← hprev, Nat.add_sub_cancel]
    intro ha hb
    obtain ⟨h1, h2⟩ := torn_delete hu (by omega) hprev ha hb
    have h1 := hT _ h1
    refine Tr.write_bind (fun _ => h1) (Tr.lift_bind fun _ _ => Tr.lift_bind fun _ _ => Tr.write_bind (fun _ => h1) ?_)
    refine Tr.get_bind (Tr.lift_bind fun L' hL' => ?_)
    obtain ⟨h3, h4, h5⟩ := h2 L' hL'
    have h3 : R L'.flatten := by rw [h3]; exact hF
    refine Tr.write_bind (fun _ => h3) (Tr.lift_bind fun _ _ => Tr.write_bind (fun _ => h3) (Tr.write_bind (fun _ => h3) (expand_tr fun B hB => ?_)))
    have : B = a ++ b := Except.ok.inj (hB.symm.trans h4)
    rw [this]
    exact hT _ h5
  · exact Tr.lift_bind fun _ _ => Tr.lift_bind fun _ _ => Tr.write fun _ => hF
  · refine Tr.get_bind (Tr.lift_bind fun L' hL' => ?_)
    have h0 : l' = [] := by simpa using hz
    have h3 : R L'.flatten := by
      rw [flatten_delNil (L := s.lists.set p l') _ hL']
      · exact hF
      · obtain ⟨A, C, e1, e2⟩ := split_of_getItem hl
        rw [e1, h0, ← e2]; simp
    exact Tr.write_bind (fun _ => h3) (Tr.lift_bind fun _ _ => Tr.write_bind (fun _ => h3) (Tr.write fun _ => h3))

/-- Where `add` puts the value, if it does not raise. -/
theorem AddAt.iter (h : W s) {v : α} {p : Nat} {l' : List α} (ha : AddAt E s v p l') :
    Core.iter (Verif.SL.add E v s).2 = (s.lists.set p l').flatten := by
  obtain ⟨hm, l, hl, hb⟩ := ha
  obtain ⟨A, C, hL, rfl⟩ := split_of_getItem hl
  unfold Verif.SL.add
  simp only [Py.get_bind]
  rw [if_pos hm]
  rcases hb with ⟨hb, hp, rfl⟩ | ⟨hb, hp, hi⟩
  · rw [hb, Py.lift_ok_bind, if_pos rfl, ← hp, hl]
    simp only [Py.lift_ok_bind, Py.modify_bind]
    have hset : s.lists.set A.length (l ++ [v]) = A ++ (l ++ [v]) :: C := by rw [hL]; simp
    obtain ⟨s', e, h1, h2, h3⟩ := h.insert (expand := Verif.SL.expand) expand_sim expand_ok (A := A) (C := C) (B1 := l) (B2 := []) (v := v)
      (s1 := { s with lists := s.lists.set A.length (l ++ [v]), maxes := s.maxes.set A.length v }) (by simpa using hL) hset rfl rfl rfl rfl
      (by simp) (by simp)
    rw [Py.bind_ok e]
    exact h2
  · rw [hb, Py.lift_ok_bind, if_neg hp, hl]
    simp only [Py.lift_ok_bind, Py.modify_bind, hi]
    unfold insort at hi
    cases ei : bisectRight E.lt l v with
    | error e => rw [ei] at hi; cases hi
    | ok i =>
      rw [ei] at hi
      obtain rfl : insertAt l i v = l' := Except.ok.inj hi
      obtain ⟨B1, B2, rfl, -, hins⟩ := insertAt_eq (bisectRight_le ei) v
      have hset : s.lists.set A.length (B1 ++ v :: B2) = A ++ (B1 ++ v :: B2) :: C := by rw [hL]; simp
      rw [hins, hset]
      obtain ⟨s', e, h1, h2, h3⟩ := h.insert (expand := Verif.SL.expand) expand_sim expand_ok (A := A) (C := C) (B1 := B1) (B2 := B2) (v := v)
        (s1 := { s with lists := A ++ (B1 ++ v :: B2) :: C }) hL rfl rfl rfl rfl rfl rfl (by simp)
      rw [Py.bind_ok e]
      exact h2

theorem AddAt.length {v : α} {p : Nat} {l' : List α} (ha : AddAt E s v p l') :
    ∃ l ∈ s.lists, l'.length = l.length + 1 := by
  obtain ⟨hm, l, hl, hb⟩ := ha
  refine ⟨l, by rw [getItem_ok_iff] at hl; exact List.mem_of_getElem? hl, ?_⟩
  rcases hb with ⟨hb, hp, rfl⟩ | ⟨hb, hp, hi⟩
  · simp
  · unfold insort at hi
    cases ei : bisectRight E.lt l v with
    | error e => rw [ei] at hi; cases hi
    | ok i =>
      rw [ei] at hi
      obtain rfl : insertAt l i v = l' := Except.ok.inj hi
      obtain ⟨B1, B2, rfl, -, hins⟩ := insertAt_eq (bisectRight_le ei) v
      rw [hins]; simp; omega

theorem _root_.Verif.Whole.upper {k0 : α → κ'} {keyed : Bool} {s : St α κ} (h : Whole k0 keyed s) : ∀ l ∈ s.lists, l.length ≤ s.load * 2 := by
  obtain ⟨t, hl, hi⟩ := h
  rw [hl.lists, hl.load]; exact hi.upper

/-- An interrupted `add`. -/
theorem add_cut (E : Env α) (h : W s) (v : α) :
    Tr (On fun l => l = Core.iter s ∨ Lost (s.load + 1) (Core.iter (Verif.SL.add E v s).2) l) (add E v) (Verif.SL.add E v) s := by
  refine add_tr (fun h0 => .inr ?_) fun p l' ha => ?_
  · have : Core.iter (Verif.SL.add E v s).2 = (s.lists ++ [[v]]).flatten := by
      unfold Verif.SL.add
      simp only [Py.get_bind]
      rw [if_neg (by simp [h0])]
      rfl
    rw [this]; exact Lost.refl _ _
  · rw [ha.iter h]
    refine ⟨.inr (Lost.refl _ _), fun B hB => .inr (lost_split hB ?_)⟩
    obtain ⟨l, hl, e⟩ := ha.length
    rw [getItem_set_self hB, e]
    have := h.upper l hl
    omega

/-- An interrupted `_delete`. -/
theorem delete_cut (h : W s) {p i n : Nat} {v : α} (hat : At s.lists p i n v) :
    Tr (On fun l => l = Core.iter s ∨ Torn (s.load * 2) (Core.iter (Verif.SL.delete p i s).2) l) (delete p i) (Verif.SL.delete p i) s := by
  refine delete_tr h.upper fun l l' hl hl' x hx => .inr ?_
  obtain ⟨s', e, h1, h2⟩ := delete_whole h hat
  rw [e, h2]
  have : (s.lists.set p l').flatten = (Core.iter s).eraseIdx n := by
    obtain ⟨A, B1, B2, C, hL, rfl, rfl, rfl⟩ := hat
    rw [hL] at hl
    simp at hl
    subst hl
    simp [delItem] at hl'
    subst hl'
    rw [Core.iter, hL]
    simp [List.eraseIdx_append_of_length_le]
  rwa [← this]

theorem clear_tr (h0 : R []) : Tr (On R) clear Verif.SL.clear s := fun hs hh =>
  ⟨[{ s with len := 0 }, { s with len := 0, lists := [] }, { s with len := 0, lists := [], maxes := [] },
    { s with len := 0, lists := [], maxes := [], index := [] }, { s with len := 0, lists := [], maxes := [], index := [], offset := 0 }],
    by
      show ((((hh ++ _) ++ _) ++ _) ++ _) ++ _ = _
      simp, by
      intro x hx
      simp only [List.mem_cons, List.not_mem_nil, or_false] at hx
      rcases hx with rfl | rfl | rfl | rfl | rfl
      · exact hs
      all_goals exact h0, h0, rfl, Reindexed.refl _, fun _ _ => rfl⟩

theorem fill_tr (hload : 1 ≤ s.load) (hl : s.lists = []) {vs : List α} (hR : ∀ a b, vs = a ++ b → R a) :
    Tr (On R) (fill vs) (Verif.SL.fill vs) s := by
  obtain ⟨cs, ec, h1, h2, -⟩ := chunks_ok hload vs
  refine Tr.get_bind ?_
  simp only [ec]
  refine Tr.lift_bind fun cs' e => ?_
  cases e
  refine Tr.bind (Tr.extend (f := Except.ok) (g := fun ls s => { s with lists := s.lists ++ ls }) (by simp) (by simp) cs cs s (by simpa using mapE_ok (f := Except.ok) (g := id) cs (fun _ _ => rfl)) ?_) ?_
  · intro a b e
    show R (s.lists ++ a).flatten
    rw [hl]
    exact hR a.flatten b.flatten (by rw [← h1, e]; simp)
  · rintro _ s1 e hs1
    cases e
    refine Tr.get_bind ?_
    obtain ⟨ms, em, -⟩ := mapE_lastItem (k := id) cs h2
    simp only [hl, List.nil_append, List.map_id_fun, List.map_id] at em ⊢
    rw [em]
    change Tr (On R) _ ((Py.modify fun s => { s with maxes := s.maxes ++ ms }) >>= fun _ => do
      Py.modify fun s => { s with len := vs.length }
      Py.modify fun s => { s with index := [] }) _
    have hv : R (cs.flatten) := hR _ [] (by rw [h1]; simp)
    refine Tr.bind (Tr.extend (f := lastItem) (g := fun ms s => { s with maxes := s.maxes ++ ms }) (by simp) (by simp) cs ms _ em ?_) ?_
    · intro a b _; exact hv
    · rintro _ s1 e hs1
      cases e
      exact Tr.write_bind (fun h => h) (Tr.write fun h => h)

theorem addAll_cut (E : Env α) {xs : List α} (vs : List α) : ∀ {s : St α α}, W s → PartOf xs (Core.iter s ++ vs) →
    Tr (On (PartOf xs)) (IPy.forEach (add E) vs) (Py.forEach (Verif.SL.add E) vs) s := by
  induction vs with
  | nil => intro s _ _; exact Tr.pure ()
  | cons v vs ih =>
    intro s h hw
    have hs : PartOf xs (Core.iter s) := hw.trans PartOf.of_prefix
    have hstep : Tr (On (PartOf xs)) (add E v) (Verif.SL.add E v) s := by
      refine (add_cut E h v).weaken (.inl rfl) fun x hx => ?_
      rcases hx with hx | hx
      · show PartOf xs (Core.iter x)
        rw [hx]; exact hs
      · refine PartOf.trans ?_ hx.within
        rcases Verif.SL.add_whole E h v with ⟨e, he⟩ | ⟨s', e, -, h2⟩
        · rw [he]; exact hs
        · rw [e]
          refine hw.trans ?_
          refine ⟨vs, (h2.perm.append_right vs).trans List.perm_middle.symm⟩
    refine Tr.bind hstep fun _ s1 e _ => ?_
    rcases Verif.SL.add_whole E h v with ⟨e', he⟩ | ⟨s', e', h1, h2⟩
    · rw [he] at e; cases e
    · rw [e'] at e; cases e
      exact ih h1 (hw.trans (PartOf.of_perm ((h2.perm.append_right vs).trans List.perm_middle.symm)))

/-- An interrupted `update`. -/
theorem update_cut (hE : E.Sane) (h : W s) (xs : List α) :
    Tr (On (PartOf (Core.iter s ++ xs))) (update E xs) (Verif.SL.update E xs) s := by
  refine Tr.lift_bind fun ys hys => Tr.get_bind (Tr.ite (fun hm => Tr.ite (fun _ => ?_) fun _ => ?_) fun hm => ?_)
  all_goals have hp := hE.perm _ _ hys
  · have h1 : PartOf (Core.iter s ++ xs) (s.lists ++ [ys]).flatten := by
      refine PartOf.of_perm ?_
      simpa [Core.iter] using hp.append_left s.lists.flatten
    refine Tr.write_bind (fun _ => h1) (Tr.get_bind (Tr.lift_bind fun zs hzs => Tr.bind (clear_tr (PartOf.nil _)) ?_))
    rintro _ s1 e -
    cases e
    refine fill_tr (R := PartOf (Core.iter s ++ xs))
      (s := { s with lists := [], len := 0, maxes := [], index := [], offset := 0 }) h.load_pos rfl fun a b e => h1.trans ?_
    refine PartOf.trans (PartOf.of_perm (hE.perm _ _ hzs)) ?_
    rw [e]; exact PartOf.of_prefix
  · exact addAll_cut E ys h (PartOf.of_perm (hp.append_left _))
  · have hm : s.maxes = [] := by simpa using hm
    refine fill_tr h.load_pos (h.maxes_nil.1 hm) fun a b e => ?_
    rw [Core.iter, h.maxes_nil.1 hm]
    refine PartOf.trans (PartOf.of_perm hp) ?_
    rw [e]; exact PartOf.of_prefix

end SL
end Interrupt
end Verif
