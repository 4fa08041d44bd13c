import Verif.Proofs.Live
/-!
# Iterators that hold list objects, whatever is done to the container meanwhile
-/

namespace Verif
namespace Heap
variable {α κ : Type}

/-! ## One request -/

/-- The list object that a part holds. -/
def HPart.addrs : HPart → List Addr
  | .items a _ | .sub a _ | .subRev a _ => [a]
  | _ => []

/-- The parts of `iter(sl)` and `reversed(sl)`. -/
def HPart.plain : HPart → Bool
  | .items .. | .subs .. => false
  | _ => true

/-- How many requests a part can answer, if nothing changes. -/
def HPart.size (as : List Addr) (cell : Addr → List α) : HPart → Nat
  | .items _ is => is.length
  | .sub a i => (cell a).length - i
  | .subRev _ k => k
  | .subs ps _ => (ps.map fun p => 1 + match as[p]? with
    | some a => (cell a).length
    | none => 0).sum
  | .lists p => ((as.drop p).map fun a => (cell a).length).sum
  | .listsRev k => ((as.take k).map fun a => (cell a).length).sum

namespace HCursor

/-- The list objects that an iterator holds. -/
def addrs (c : HCursor) : List Addr := c.flatMap HPart.addrs

def Plain (c : HCursor) : Prop := ∀ p ∈ c, p.plain = true

def size (as : List Addr) (cell : Addr → List α) (c : HCursor) : Nat := (c.map (HPart.size as cell)).sum

variable {as : List Addr} {cell : Addr → List α}

theorem addrs_cons (p : HPart) (c : HCursor) : addrs (p :: c) = p.addrs ++ addrs c := rfl

theorem size_cons (p : HPart) (c : HCursor) : size as cell (p :: c) = p.size as cell + size as cell c := by
  simp [size]

theorem plain_cons {p : HPart} {c : HCursor} : Plain (p :: c) ↔ p.plain = true ∧ Plain c := by
  simp [Plain]

/-- What a request does. -/
structure Step (as : List Addr) (cell : Addr → List α) (c : HCursor) : Prop where
  addrs : ∀ a ∈ (next as cell c).2.addrs, a ∈ c.addrs ∨ a ∈ as
  value : ∀ v, (next as cell c).1 = .ok (some v) → ∃ a, (a ∈ c.addrs ∨ a ∈ as) ∧ v ∈ cell a
  error : ∀ e, (next as cell c).1 = .error e → e = .indexError ∧ ¬ Plain c
  plain : Plain c → Plain (next as cell c).2
  stop : (next as cell c).1 = .ok none → (next as cell c).2 = []
  size : (next as cell c).1 ≠ .ok none → size as cell (next as cell c).2 < size as cell c

/-- The iterator goes over to another one. -/
theorem Step.over {c c1 : HCursor} (h : Step as cell c1) (e : next as cell c = next as cell c1)
    (ha : ∀ a ∈ c1.addrs, a ∈ c.addrs ∨ a ∈ as) (hp : Plain c → Plain c1) (hs : c1.size as cell ≤ c.size as cell) :
    Step as cell c where
  addrs a h1 := by
    rw [e] at h1
    exact (h.addrs a h1).elim (ha a) .inr
  value v h1 := by
    rw [e] at h1
    obtain ⟨a, h2, h3⟩ := h.value v h1
    exact ⟨a, h2.elim (ha a) .inr, h3⟩
  error er h1 := by
    rw [e] at h1
    exact (h.error er h1).imp id fun h2 h3 => h2 (hp h3)
  plain h1 := by rw [e]; exact h.plain (hp h1)
  stop h1 := by rw [e] at h1 ⊢; exact h.stop h1
  size h1 := by rw [e] at h1 ⊢; exact Nat.lt_of_lt_of_le (h.size h1) hs

/-- The iterator drops a part. -/
theorem Step.drop {p : HPart} {c : HCursor} (h : Step as cell c) (e : next as cell (p :: c) = next as cell c) :
    Step as cell (p :: c) :=
  h.over e (fun a ha => .inl (by rw [addrs_cons]; exact List.mem_append.2 (.inr ha))) (fun h => (plain_cons.1 h).2)
    (by rw [size_cons]; omega)

/-- A part yields a value. -/
theorem Step.yield {p p' : HPart} {c : HCursor} {v : α} {a : Addr} (e : next as cell (p :: c) = (.ok (some v), p' :: c))
    (hp : p.addrs = [a]) (hp' : p'.addrs = [a]) (hv : v ∈ cell a) (hpl : p.plain = p'.plain)
    (hs : p'.size as cell < p.size as cell) : Step as cell (p :: c) where
  addrs b h1 := by rw [e] at h1; simp only [addrs_cons, hp, hp'] at h1 ⊢; exact .inl h1
  value w h1 := by
    rw [e] at h1; cases h1
    exact ⟨a, .inl (by simp [addrs_cons, hp]), hv⟩
  error er h1 := by rw [e] at h1; cases h1
  plain h1 := by
    rw [e]
    rw [plain_cons] at h1 ⊢
    exact ⟨hpl ▸ h1.1, h1.2⟩
  stop h1 := by rw [e] at h1; cases h1
  size _ := by rw [e]; simp only [size_cons]; omega

/-- A part raises. -/
theorem Step.raise {p : HPart} {c c' : HCursor} (e : next as cell (p :: c) = (.error .indexError, c'))
    (ha : ∀ a ∈ c'.addrs, a ∈ HCursor.addrs (p :: c)) (hp : p.plain = false)
    (hs : c'.size as cell < HCursor.size as cell (p :: c)) : Step as cell (p :: c) where
  addrs b h1 := by rw [e] at h1; exact .inl (ha b h1)
  value w h1 := by rw [e] at h1; cases h1
  error er h1 := by
    rw [e] at h1
    have h1 : PyErr.indexError = er := by injection h1
    exact ⟨h1.symm, fun h => by rw [plain_cons, hp] at h; cases h.1⟩
  plain h1 := by rw [plain_cons, hp] at h1; cases h1.1
  stop h1 := by rw [e] at h1; cases h1
  size _ := by rw [e]; exact hs

theorem getItem_err {β : Type} {l : List β} {i : Nat} {e : PyErr} (h : getItem l i = .error e) : e = .indexError := by
  unfold getItem at h
  split at h
  · cases h
  · cases h; rfl

theorem step (c : HCursor) : Step as cell c := by
  induction c using next.induct as cell with
  | case1 =>
    have e : next as cell [] = (.ok none, []) := by rw [next]
    refine ⟨fun a h => ?_, fun v h => ?_, fun er h => ?_, fun h => ?_, fun h => ?_, fun h => ?_⟩ <;>
      simp_all [HCursor.addrs]
  | case2 a c ih => exact ih.drop (by rw [next])
  | case3 a i is c er h =>
    obtain rfl := getItem_err h
    refine Step.raise (c' := .items a is :: c) (by rw [next, h]) (fun b hb => ?_) rfl ?_
    · simpa [addrs_cons, HPart.addrs] using hb
    · simp [size_cons, HPart.size]
  | case4 a i is c v h =>
    exact Step.yield (p' := .items a is) (by rw [next, h]) rfl rfl (List.mem_of_getElem? (getItem_ok_iff.1 h)) rfl
      (by simp [HPart.size])
  | case5 a i c v h =>
    refine Step.yield (p' := .sub a (i + 1)) (by rw [next, h]) rfl rfl (List.mem_of_getElem? h) rfl ?_
    have := (List.getElem?_eq_some_iff.1 h).1
    simp only [HPart.size]; omega
  | case6 a i c h ih => exact ih.drop (by rw [next, h])
  | case7 a c ih => exact ih.drop (by rw [next])
  | case8 a k c v h =>
    exact Step.yield (p' := .subRev a k) (by rw [next, h]) rfl rfl (List.mem_of_getElem? h) rfl (by simp [HPart.size])
  | case9 a k c h ih => exact ih.drop (by rw [next, h])
  | case10 rev c ih => exact ih.drop (by rw [next])
  | case11 p ps rev c er h =>
    obtain rfl := getItem_err h
    refine Step.raise (c' := c) (by rw [next, h]) (fun b hb => ?_) rfl ?_
    · rw [addrs_cons]; exact List.mem_append.2 (.inr hb)
    · rw [size_cons]
      simp only [HPart.size, List.map_cons, List.sum_cons]; omega
  | case12 p ps rev c a h ih =>
    have h := getItem_ok_iff.1 h
    refine ih.over (by rw [next, getItem_ok_iff.2 h]; rfl) (fun b hb => ?_) (fun h => by cases (plain_cons.1 h).1) ?_
    · rw [addrs_cons, List.mem_append] at hb
      rcases hb with hb | hb
      · refine .inr ?_
        have : b = a := by split at hb <;> simpa [HPart.addrs] using hb
        exact this ▸ List.mem_of_getElem? h
      · exact .inl hb
    · simp only [size_cons]
      have : (if _ : rev = true then HPart.subRev a (cell a).length else HPart.sub a 0).size as cell = (cell a).length := by
        split <;> rfl
      rw [this]
      simp only [HPart.size, List.map_cons, List.sum_cons, h]; omega
  | case13 p c h ih =>
    refine ih.over (by conv => lhs; rw [next, dif_pos h]) (fun b hb => ?_) (fun h => ?_) ?_
    · rw [addrs_cons, List.mem_append] at hb
      rcases hb with hb | hb
      · refine .inr ?_
        have : b = as[p] := by simpa [HPart.addrs] using hb
        exact this ▸ List.getElem_mem h
      · exact .inl hb
    · rw [plain_cons] at h
      rw [plain_cons, plain_cons]
      exact ⟨rfl, rfl, h.2⟩
    · simp only [size_cons, HPart.size]
      rw [List.drop_eq_getElem_cons h]
      simp only [List.map_cons, List.sum_cons]; omega
  | case14 p c h ih => exact ih.drop (by rw [next, dif_neg h])
  | case15 c ih => exact ih.drop (by rw [next])
  | case16 k c a h ih =>
    refine ih.over (by rw [next, h]) (fun b hb => ?_) (fun h => ?_) ?_
    · rw [addrs_cons, List.mem_append] at hb
      rcases hb with hb | hb
      · refine .inr ?_
        have : b = a := by simpa [HPart.addrs] using hb
        exact this ▸ List.mem_of_getElem? h
      · exact .inl hb
    · rw [plain_cons] at h
      rw [plain_cons, plain_cons]
      exact ⟨rfl, rfl, h.2⟩
    · simp only [size_cons, HPart.size]
      rw [List.take_add_one, h]
      simp only [Option.toList, List.map_append, List.sum_append, List.map_cons, List.map_nil, List.sum_cons, List.sum_nil]
      omega
  | case17 k c h ih => exact ih.drop (by rw [next, h])

theorem next_nil : next as cell [] = (.ok none, []) := by rw [next]

/-- A new iterator holds sublists of the container. -/
theorem resolve_addrs {c : Cursor} {h : HCursor} (e : resolve as c = .ok h) : ∀ a ∈ h.addrs, a ∈ as := by
  induction c generalizing h with
  | nil => cases e; simp [HCursor.addrs]
  | cons p c ih =>
    unfold resolve at e
    rw [mapE] at e
    cases hp : part as p with
    | error e' => rw [hp] at e; cases e
    | ok q =>
      cases hr : mapE (part as) c with
      | error e' => rw [hp, hr] at e; cases e
      | ok r =>
        rw [hp, hr] at e
        cases e
        intro a ha
        rw [addrs_cons, List.mem_append] at ha
        refine ha.elim (fun ha => ?_) (ih hr a)
        unfold part at hp
        split at hp <;> first
          | (cases hp; simp [HPart.addrs] at ha; done)
          | (cases hg : getItem as _ with
              | error e' => rw [hg] at hp; cases hp
              | ok b =>
                rw [hg] at hp
                cases hp
                simp only [HPart.addrs, List.mem_singleton] at ha
                exact ha ▸ List.mem_of_getElem? (getItem_ok_iff.1 hg))

end HCursor
/-! ## Every history -/

/-- What matters about the calls.  `plain`: the calls whose iterators never raise. -/
structure LiveSys.Lawful {K C R : Type} (A : LiveSys α κ K C R) (plain : K → Prop) : Prop where
  call : ∀ op c, Own c → Own (A.call op c).2 ∧ Live c (A.call op c).2
  opens : ∀ k c, (A.opens k c).2.mem = c.mem ∧ (A.opens k c).2.self.lists = c.self.lists ∧
    (A.opens k c).2.self.keys = c.self.keys
  holds : ∀ k c h, (A.opens k c).1 = .ok h → (∀ a ∈ h.addrs, a ∈ c.self.lists) ∧ (plain k → h.Plain)

namespace LiveSys
variable {K C R : Type} {A : LiveSys α κ K C R} {plain : K → Prop}

/-- The container as an iterable. -/
abbrev contents (s : LiveState α κ) : List α := Verif.Core.iter s.1.view

/-- The list objects that the `j`-th iterator holds have only values with `S`, and so has the container. -/
structure Holds (p : Prop) (j : Nat) (S : α → Prop) (s : LiveState α κ) : Prop where
  own : Own s.1
  now : ∀ v ∈ contents s, S v
  held : ∃ c, s.2[j]? = some c ∧ (∀ a ∈ c.addrs, a < s.1.mem.vals.length ∧ ∀ v ∈ s.1.cell a, S v) ∧ (p → c.Plain)

theorem Own.congr {c c' : Ctx α κ} (h : Own c) (e1 : c'.mem = c.mem) (e2 : c'.self.lists = c.self.lists)
    (e3 : c'.self.keys = c.self.keys) : Own c' := by
  obtain ⟨h1, h2, h3, h4⟩ := h
  exact ⟨e2 ▸ h1, by rw [e1, e2]; exact h2, e3 ▸ h3, by rw [e1, e3]; exact h4⟩

theorem own_step (hA : A.Lawful plain) (ev : Event K C) {s : LiveState α κ} (h : Own s.1) : Own (A.step ev s).2.1 := by
  obtain ⟨c, its⟩ := s
  cases ev with
  | opens k =>
    obtain ⟨e1, e2, e3⟩ := hA.opens k c
    simp only [step]
    split <;> rename_i hx <;> rw [hx] at e1 e2 e3 <;> exact Own.congr h e1 e2 e3
  | next j =>
    simp only [step]
    split
    · exact h
    · split <;> exact h
  | call op =>
    have h1 := (hA.call op c h).1
    simp only [step]
    split <;> rename_i hx <;> rw [hx] at h1 <;> exact h1

theorem own_hist (hA : A.Lawful plain) (evs : List (Event K C)) {s : LiveState α κ} (h : Own s.1) :
    Own (runHist A.step evs s).2.1 := by
  induction evs generalizing s with
  | nil => exact h
  | cons ev evs ih => exact ih (own_step hA ev h)

theorem holds_step (hA : A.Lawful plain) {p : Prop} {j : Nat} {S : α → Prop} (ev : Event K C) {s : LiveState α κ}
    (h : Holds p j S s) : Holds p j (fun v => S v ∨ v ∈ contents (A.step ev s).2) (A.step ev s).2 := by
  have ho := own_step hA ev h.own
  obtain ⟨c, its⟩ := s
  obtain ⟨h1, h2, d, h3, h4, h5⟩ := h
  refine ⟨ho, fun v hv => .inr hv, ?_⟩
  cases ev with
  | opens k =>
    obtain ⟨e1, e2, e3⟩ := hA.opens k c
    simp only [step]
    split <;> rename_i hx <;> rw [hx] at e1
    · refine ⟨d, ?_, fun a ha => ?_, h5⟩
      · show (its ++ _)[j]? = _
        rw [List.getElem?_append_left (List.getElem?_eq_some_iff.1 h3).1]; exact h3
      · obtain ⟨h6, h7⟩ := h4 a ha
        dsimp only at e1
        exact ⟨e1 ▸ h6, fun v hv => .inl (h7 v (by unfold Ctx.cell at hv ⊢; rw [e1] at hv; exact hv))⟩
    · refine ⟨d, h3, fun a ha => ?_, h5⟩
      obtain ⟨h6, h7⟩ := h4 a ha
      dsimp only at e1
      exact ⟨e1 ▸ h6, fun v hv => .inl (h7 v (by unfold Ctx.cell at hv ⊢; rw [e1] at hv; exact hv))⟩
  | next i =>
    by_cases hij : i = j
    · subst hij
      have hs := HCursor.step (as := c.self.lists) (cell := c.cell) d
      have key : ∃ c', (its.set i (HCursor.next c.self.lists c.cell d).2)[i]? = some c' ∧
          (∀ a ∈ c'.addrs, a < c.mem.vals.length ∧ ∀ v ∈ c.cell a, S v) ∧ (p → c'.Plain) := by
        refine ⟨_, List.getElem?_set_self (List.getElem?_eq_some_iff.1 h3).1, fun a ha => ?_, fun hp => hs.plain (h5 hp)⟩
        rcases hs.addrs a ha with h6 | h6
        · exact h4 a h6
        · exact ⟨h1.bound a h6, fun v hv => h2 v (mem_iter.2 ⟨a, h6, hv⟩)⟩
      obtain ⟨c', k1, k2, k3⟩ := key
      have k2' : ∀ a ∈ c'.addrs, a < c.mem.vals.length ∧ ∀ v ∈ c.cell a, S v ∨ v ∈ contents (A.step (.next i) (c, its)).2 :=
        fun a ha => ⟨(k2 a ha).1, fun v hv => .inl ((k2 a ha).2 v hv)⟩
      revert k2'
      dsimp only at h3
      simp only [step, h3]
      split <;> rename_i hx <;> rw [hx] at k1 <;> exact fun k2' => ⟨c', k1, k2', k3⟩
    · have key : ∀ x, (its.set i x)[j]? = some d := fun x => by rw [List.getElem?_set_ne hij]; exact h3
      have h4' : ∀ a ∈ d.addrs, a < c.mem.vals.length ∧ ∀ v ∈ c.cell a, S v ∨ v ∈ contents (A.step (.next i) (c, its)).2 :=
        fun a ha => ⟨(h4 a ha).1, fun v hv => .inl ((h4 a ha).2 v hv)⟩
      revert h4'
      simp only [step]
      split
      · exact fun h4' => ⟨d, h3, h4', h5⟩
      · split <;> exact fun h4' => ⟨d, key _, h4', h5⟩
  | call op =>
    obtain ⟨l1, l2⟩ := (hA.call op c h1).2
    simp only [step]
    split <;> rename_i hx <;> rw [hx] at l1 l2 <;>
    · refine ⟨d, h3, fun a ha => ?_, h5⟩
      obtain ⟨h6, h7⟩ := h4 a ha
      refine ⟨Nat.lt_of_lt_of_le h6 l1, fun v hv => ?_⟩
      rcases l2 a h6 v hv with h8 | h8 | h8
      · exact .inl (h7 v h8)
      · exact .inl (h2 v h8)
      · exact .inr h8

theorem Holds.mono {p : Prop} {j : Nat} {S T : α → Prop} {s : LiveState α κ} (h : Holds p j S s) (hT : ∀ v, S v → T v) :
    Holds p j T s := by
  obtain ⟨h1, h2, d, h3, h4, h5⟩ := h
  exact ⟨h1, fun v hv => hT v (h2 v hv), d, h3, fun a ha => ⟨(h4 a ha).1, fun v hv => hT v ((h4 a ha).2 v hv)⟩, h5⟩

theorem holds_hist (hA : A.Lawful plain) {p : Prop} {j : Nat} {S : α → Prop} (evs : List (Event K C)) {s : LiveState α κ}
    (h : Holds p j S s) : Holds p j (fun v => S v ∨ ∃ evs', evs' <+: evs ∧ v ∈ contents (runHist A.step evs' s).2)
      (runHist A.step evs s).2 := by
  induction evs generalizing s S with
  | nil => exact h.mono fun v hv => .inl hv
  | cons ev evs ih =>
    refine (ih (holds_step hA ev h)).mono fun v hv => ?_
    rcases hv with (hv | hv) | ⟨evs', h1, h2⟩
    · exact .inl hv
    · exact .inr ⟨[ev], List.cons_prefix_cons.2 ⟨rfl, List.nil_prefix⟩, hv⟩
    · exact .inr ⟨ev :: evs', List.cons_prefix_cons.2 ⟨rfl, h1⟩, h2⟩

theorem holds_open (hA : A.Lawful plain) (k : K) {s s' : LiveState α κ} (ho : Own s.1)
    (h : A.step (.opens k) s = (.ok .opened, s')) :
    Holds (plain k) s.2.length (fun v => v ∈ contents s') s' := by
  have ho' := own_step hA (.opens k) ho
  rw [h] at ho'
  obtain ⟨c, its⟩ := s
  obtain ⟨e1, e2, e3⟩ := hA.opens k c
  simp only [step] at h
  split at h
  · rename_i d c' hx
    cases h
    rw [hx] at e1 e2
    obtain ⟨h1, h2⟩ := hA.holds k c d (by rw [hx])
    dsimp only at e1 e2 ho'
    refine ⟨ho', fun _ h => h, d, ?_, fun a ha => ⟨?_, fun v hv => mem_iter.2 ⟨a, ?_, hv⟩⟩, h2⟩
    · show (its ++ [d])[its.length]? = _
      simp
    · rw [e1]; exact ho.bound a (h1 a ha)
    · rw [e2]; exact h1 a ha
  · cases h

/-- What a request can be answered. -/
theorem answer {p : Prop} {j : Nat} {S : α → Prop} {s : LiveState α κ} (h : Holds p j S s)
    (r : Except PyErr (EvOut α R)) (hr : (A.step (.next j) s).1 = r) :
    (∃ v, r = .ok (.value v) ∧ S v) ∨ r = .ok .stop ∨ (r = .error .indexError ∧ ¬ p) := by
  obtain ⟨c, its⟩ := s
  obtain ⟨h1, h2, d, h3, h4, h5⟩ := h
  have hs := HCursor.step (as := c.self.lists) (cell := c.cell) d
  dsimp only at h3
  simp only [step, h3] at hr
  subst hr
  split
  · rename_i hx
    obtain ⟨rfl, h6⟩ := hs.error _ (congrArg Prod.fst hx)
    exact .inr (.inr ⟨rfl, fun hp => h6 (h5 hp)⟩)
  · exact .inr (.inl rfl)
  · rename_i v _ hx
    obtain ⟨a, h6, h7⟩ := hs.value _ (congrArg Prod.fst hx)
    refine .inl ⟨v, rfl, ?_⟩
    rcases h6 with h6 | h6
    · exact (h4 a h6).2 v h7
    · exact h2 v (mem_iter.2 ⟨a, h6, h7⟩)

theorem runHist_append {S O β : Type} (f : O → Py S β) (xs ys : List O) (s : S) :
    (runHist f (xs ++ ys) s).2 = (runHist f ys (runHist f xs s).2).2 := by
  induction xs generalizing s with
  | nil => rfl
  | cons x xs ih => exact ih _

/-- An iterator that was created after `pre`: every answer to a request after `mid`. -/
theorem answers (hA : A.Lawful plain) (pre mid : List (Event K C)) (k : K) {s : LiveState α κ} (ho : Own s.1)
    (hk : (A.step (.opens k) (runHist A.step pre s).2).1 = .ok .opened) (r : Except PyErr (EvOut α R))
    (hr : (A.step (.next (runHist A.step pre s).2.2.length) (runHist A.step (pre ++ .opens k :: mid) s).2).1 = r) :
    (∃ v, r = .ok (.value v) ∧ ∃ mid', mid' <+: mid ∧ v ∈ contents (runHist A.step (pre ++ .opens k :: mid') s).2) ∨
    r = .ok .stop ∨ (r = .error .indexError ∧ ¬ plain k) := by
  have h1 := holds_open hA k (own_hist hA pre ho) (Prod.ext hk rfl)
  have h2 := holds_hist hA mid h1
  have e : ∀ mid, (runHist A.step (pre ++ .opens k :: mid) s).2 =
      (runHist A.step mid (A.step (.opens k) (runHist A.step pre s).2).2).2 := fun mid => runHist_append ..
  rw [e] at hr
  rcases answer h2 r hr with ⟨v, h3, h4⟩ | h3
  · refine .inl ⟨v, h3, ?_⟩
    rcases h4 with h4 | ⟨mid', h5, h6⟩
    · exact ⟨[], List.nil_prefix, by rw [e]; exact h4⟩
    · exact ⟨mid', h5, by rw [e]; exact h6⟩
  · exact .inr h3

end LiveSys

theorem openIter_facts (m : Py (St α κ) Cursor) (c : Ctx α κ) : (openIter m c).2.mem = c.mem ∧
    (openIter m c).2.self.lists = c.self.lists ∧ (openIter m c).2.self.keys = c.self.keys := by
  unfold openIter
  rw [Py.bind_apply]
  split
  · rename_i hx
    have : (reading m c).2 = _ := congrArg Prod.snd hx
    subst this
    rw [self_bind]
    exact ⟨rfl, rfl, rfl⟩
  · rename_i hx
    have : (reading m c).2 = _ := congrArg Prod.snd hx
    subst this
    exact ⟨rfl, rfl, rfl⟩

theorem openIter_holds {m : Py (St α κ) Cursor} {c : Ctx α κ} {h : HCursor} (e : (openIter m c).1 = .ok h) :
    ∃ d, (m c.view).1 = .ok d ∧ HCursor.resolve c.self.lists d = .ok h := by
  unfold openIter at e
  rw [Py.bind_apply] at e
  split at e
  rotate_left
  · cases e
  · rename_i d c' hx
    have h1 : (m c.view).1 = .ok d := congrArg Prod.fst hx
    have h2 : (reading m c).2 = c' := congrArg Prod.snd hx
    subst h2
    refine ⟨d, h1, ?_⟩
    rw [self_bind] at e
    exact e

theorem SL.liveSys_lawful (E : Env α) : (SL.liveSys E).Lawful (fun k => k = .iter ∨ k = .reversed) where
  call op c h := ⟨(call_out (SL.heapSim E) op h.rel).1.own, call_live (SL.heapSim E) (SL.heapLive E) op h⟩
  opens k c := openIter_facts _ c
  holds k c h e := by
    obtain ⟨d, h1, h2⟩ := openIter_holds e
    refine ⟨HCursor.resolve_addrs h2, fun hk => ?_⟩
    rcases hk with rfl | rfl <;> cases h1 <;> cases h2 <;> simp [HCursor.Plain, HPart.plain]

theorem SKL.liveSys_lawful (K : KEnv α κ) :
    (SKL.liveSys K).Lawful (fun k => k = .kind .iter ∨ k = .kind .reversed) where
  call op c h := by
    cases op with
    | op o => exact ⟨(call_out (SKL.heapSim K) o h.rel).1.own, call_live (SKL.heapSim K) (SKL.heapLive K) o h⟩
    | _ => exact ⟨LiveSys.Own.congr h rfl rfl rfl, (Untouched.refl c).live⟩
  opens k c := openIter_facts _ c
  holds k c h e := by
    obtain ⟨d, h1, h2⟩ := openIter_holds e
    refine ⟨HCursor.resolve_addrs h2, fun hk => ?_⟩
    rcases hk with rfl | rfl <;> cases h1 <;> cases h2 <;> simp [HCursor.Plain, HPart.plain]

end Heap
end Verif
