import Verif.Proofs.Repr
/-!
# C74: `repr`

Statements about `repr` on objects that refer to each other in any way, in any number of threads.
-/

namespace Verif

/-- Every object of a finite graph can be shown, however its containers contain each other. -/
theorem C74_total {g : Graph} (hg : g.Finite) (inside : Nat → Bool) (o : Nat) : ∃ r, Shows g inside o r := hg.shows inside o

/-- What `repr` is expected to show is determined. -/
theorem C74_unique {g : Graph} {inside : Nat → Bool} {o : Nat} {r r' : Except PyErr String}
    (h : Shows g inside o r) (h' : Shows g inside o r') : r = r' := h.unique h'

/-- Threads call `repr`, in any order of steps, while other calls of `repr` may be under way elsewhere (`running`).  There is a number of steps after which every call
has ended; it ends with what `Shows` says for an object that is inside nothing, and when it has ended, by returning or by raising, none of its pairs is left. -/
theorem C74_repr {g : Graph} (hg : g.Finite) (running : Running) (os : List Nat) (h0 : ∀ i, i < os.length → ∀ x, running x i = false) :
    ∃ n, ∀ (schedule : List Nat) (i o : Nat), os[i]? = some o →
      ∃ r s, Shows g nowhere o r ∧ (g.run schedule (reprs running os)).threads[i]? = some s ∧
        (n ≤ schedule.count i → s.result = some r) ∧
        ∀ x, s.result = some x → x = r ∧ ∀ y, (g.run schedule (reprs running os)).running y i = false := by
  have hb : ∀ os' : List Nat, ∃ n, ∀ o, o ∈ os' → ∀ r, Shows g nowhere o r → ∀ m, n ≤ m →
      g.soloN m (nowhere, ⟨.call o, []⟩) = (nowhere, ⟨.run (.done r), []⟩) := fun os' => by
    induction os' with
    | nil => exact ⟨0, fun _ h => nomatch h⟩
    | cons a os' ih =>
      obtain ⟨n, hn⟩ := ih
      obtain ⟨r0, hr0⟩ := hg.shows nowhere a
      obtain ⟨n0, h1, _⟩ := g.run_result hr0
      refine ⟨max n n0, fun o ho r hr m hm => ?_⟩
      rcases List.mem_cons.1 ho with rfl | ho
      · rw [hr.unique hr0]
        exact h1 m (by omega)
      · exact hn o ho r hr m (by omega)
  obtain ⟨n, hn⟩ := hb os
  refine ⟨n, fun schedule i o hi => ?_⟩
  obtain ⟨r, hr⟩ := hg.shows nowhere o
  obtain ⟨_, _, h2⟩ := g.run_result hr
  have hs : (reprs running os).threads[i]? = some ⟨.call o, []⟩ := by simp [reprs, hi]
  obtain ⟨h3, h4⟩ := g.run_solo schedule (reprs running os) i _ hs
  have hown : (fun x => (reprs running os).running x i) = nowhere := funext fun x => h0 i (List.getElem?_eq_some_iff.1 hi).1 x
  rw [hown] at h3 h4
  refine ⟨r, _, hr, h3, fun hle => ?_, fun x hx => ?_⟩
  · rw [hn o (List.mem_of_getElem? hi) r hr _ hle]; rfl
  · have e := h2 _ x hx
    rw [e] at hx
    refine ⟨(Option.some.inj hx).symm, fun y => ?_⟩
    rw [h4 y, e]; rfl

/-- Calls of `repr` that are under way elsewhere are not disturbed: their pairs stay, at every moment. -/
theorem C74_others (g : Graph) (running : Running) (os schedule : List Nat) (j : Nat) (hj : os.length ≤ j) (x : Nat) :
    (g.run schedule (reprs running os)).running x j = running x j :=
  g.run_rest schedule (reprs running os) j (by simpa [reprs] using hj) x

/-- `repr` raises only what `__repr__` of an object of another type raised, or KeyError for a SortedDict whose keys are not all in its dict. -/
theorem C74_error {g : Graph} {inside : Nat → Bool} {o : Nat} {e : PyErr} (h : Shows g inside o (.error e)) :
    (∃ x, g.node x = .value (.error e)) ∨
      (e = .keyError ∧ ∃ x name d s key k, g.node x = .sortedDict name d s key ∧ k ∈ s.lists.flatten ∧ PyDict.lookup g.same d k = none) := by
  have hall : ∀ rs : List (Except PyErr String), allShown rs = .error e → ∃ i : Nat, rs[i]? = some (.error e) := fun rs => by
    induction rs with
    | nil => intro h; exact nomatch h
    | cons r rs ih =>
      intro h
      cases r with
      | error e' =>
        simp only [allShown, Except.error.injEq] at h
        exact ⟨0, by simp [h]⟩
      | ok t =>
        simp only [allShown] at h
        cases hr : allShown rs with
        | ok ts => rw [hr] at h; exact nomatch h
        | error e' =>
          rw [hr] at h
          injection h with h
          subst h
          obtain ⟨i, hi⟩ := ih hr
          exact ⟨i + 1, hi⟩
  have hmap : ∀ (f : List String → String) (x : Except PyErr (List String)), f <$> x = .error e → x = .error e := fun f x h => by
    cases x with
    | ok ts => exact nomatch h
    | error e' => injection h with h; rw [h]
  have hfail : ∀ o, ReprPart.fail e ∈ (g.node o).parts g.same → (∃ x, g.node x = .value (.error e)) ∨
      (e = .keyError ∧ ∃ x name d s key k, g.node x = .sortedDict name d s key ∧ k ∈ s.lists.flatten ∧ PyDict.lookup g.same d k = none) := fun o ho => by
    have hd : ∀ d ks, ReprPart.fail e ∈ itemParts g.same d ks → e = .keyError ∧ ∃ k, k ∈ ks ∧ PyDict.lookup g.same d k = none := fun d ks h => by
      obtain ⟨k, hk, hm⟩ := List.mem_flatMap.1 h
      cases hl : PyDict.lookup g.same d k with
      | some v => rw [hl] at hm; simp at hm
      | none =>
        rw [hl] at hm
        simp only [List.mem_singleton, ReprPart.fail.injEq] at hm
        exact ⟨hm, k, hk, hl⟩
    cases hn : g.node o with
    | value r =>
      rw [hn] at ho
      cases r with
      | ok _ => simp [Node.parts] at ho
      | error e' =>
        simp only [Node.parts, List.mem_singleton, ReprPart.fail.injEq] at ho
        subst ho
        exact .inl ⟨o, hn⟩
    | sortedDict name d s key =>
      rw [hn] at ho
      have ho : ReprPart.fail e ∈ itemParts g.same d s.lists.flatten := by
        cases key with
        | none => exact ho
        | some k => simpa [Node.parts] using ho
      obtain ⟨he, k, hk, hl⟩ := hd _ _ ho
      exact .inr ⟨he, o, name, d, s, key, k, hn, hk, hl⟩
    | sortedSet name s key => rw [hn] at ho; cases key <;> simp [Node.parts, -List.map_flatten, -List.mem_flatten] at ho
    | _ => rw [hn] at ho; simp [Node.parts, -List.map_flatten, -List.mem_flatten] at ho
  suffices H : ∀ r, Shows g inside o r → .error e = r → _ from H _ h rfl
  clear h
  intro r h hr
  induction h with
  | again => exact nomatch hr
  | @container P o t rs hc hi hl hf hp ih =>
    have hx := hmap _ _ hr.symm
    obtain ⟨i, hi⟩ := hall _ hx
    have hlt : i < ((g.node o).parts g.same).length := by rw [← hl]; exact (List.getElem?_eq_some_iff.1 hi).1
    cases hpart : ((g.node o).parts g.same)[i] with
    | obj x => exact ih i x (.error e) (by rw [List.getElem?_eq_getElem hlt, hpart]) hi rfl
    | fail e' =>
      have := hf i e' (by rw [List.getElem?_eq_getElem hlt, hpart])
      rw [hi] at this
      simp only [Option.some.injEq, Except.error.injEq] at this
      exact hfail o (this ▸ hpart ▸ List.getElem_mem hlt)
  | @plain P o rs hc hl hf hp ih =>
    have hx := hmap _ _ hr.symm
    obtain ⟨i, hi⟩ := hall _ hx
    have hlt : i < ((g.node o).parts g.same).length := by rw [← hl]; exact (List.getElem?_eq_some_iff.1 hi).1
    cases hpart : ((g.node o).parts g.same)[i] with
    | obj x => exact ih i x (.error e) (by rw [List.getElem?_eq_getElem hlt, hpart]) hi rfl
    | fail e' =>
      have := hf i e' (by rw [List.getElem?_eq_getElem hlt, hpart])
      rw [hi] at this
      simp only [Option.some.injEq, Except.error.injEq] at this
      exact hfail o (this ▸ hpart ▸ List.getElem_mem hlt)

/-! ### Containers of objects of other types -/

/-- `xs` are objects of other types, shown as `ts`. -/
def Graph.Texts (g : Graph) (xs : List Nat) (ts : List String) : Prop :=
  ts.length = xs.length ∧ ∀ (i x : Nat) (t : String), xs[i]? = some x → ts[i]? = some t → g.node x = .value (.ok t)

/-- Objects of other types are shown as their own text. -/
theorem shows_value {g : Graph} {inside : Nat → Bool} {x : Nat} {t : String} (h : g.node x = .value (.ok t)) : Shows g inside x (.ok t) := by
  have := Shows.plain (g := g) (inside := inside) (o := x) (rs := []) (by rw [h]; rfl) (by rw [h]; rfl) (by rw [h]; simp [Node.parts]) (by simp)
  rw [h] at this
  exact this

theorem allShown_ok : ∀ ts : List String, allShown (ts.map .ok) = .ok ts
  | [] => rfl
  | t :: ts => by
    simp only [List.map_cons, allShown, allShown_ok ts]
    rfl

/-- A container, not inside itself, whose parts are objects of other types. -/
theorem shows_flat {g : Graph} {inside : Nat → Bool} {o : Nat} {c : String} {xs : List Nat} {ts : List String}
    (hc : (g.node o).cutoff = some c) (hi : inside o = false)
    (hp : (g.node o).parts g.same = xs.map .obj) (ht : g.Texts xs ts) : Shows g inside o (.ok ((g.node o).layout ts)) := by
  have := Shows.container (g := g) (inside := inside) (o := o) (rs := ts.map .ok) hc hi
    (by rw [hp]; simp [ht.1])
    (fun i e h => by rw [hp] at h; simp at h)
    (fun i x r h h' => by
      rw [hp] at h
      simp only [List.getElem?_map, Option.map_eq_some_iff, ReprPart.obj.injEq] at h h'
      obtain ⟨_, h, rfl⟩ := h
      obtain ⟨t, h', rfl⟩ := h'
      exact shows_value (ht.2 i _ t h h'))
  rw [allShown_ok] at this
  exact this

/-- A SortedList of objects of other types: the name of its type, and its values in the order of iteration. -/
theorem C74_list {g : Graph} {o : Nat} {name : String} {s : St Nat Nat} {ts : List String} {r : Except PyErr String}
    (ho : g.node o = .sortedList name s) (ht : g.Texts (Core.iter s) ts) (h : Shows g nowhere o r) :
    r = .ok (name ++ "([" ++ commas ts ++ "])") := by
  have := shows_flat (g := g) (inside := nowhere) (o := o) (c := "...") (by rw [ho]; rfl) rfl (by rw [ho]; rfl) ht
  rw [ho] at this
  exact h.unique this

/-- A SortedKeyList also shows its key function. -/
theorem C74_keylist {g : Graph} {o : Nat} {name : String} {s : St Nat Nat} {key : Nat} {ts : List String} {k : String} {r : Except PyErr String}
    (ho : g.node o = .sortedKeyList name s key) (ht : g.Texts (Core.iter s) ts) (hk : g.node key = .value (.ok k)) (h : Shows g nowhere o r) :
    r = .ok (name ++ "([" ++ commas ts ++ "], key=" ++ k ++ ")") := by
  have ht' : g.Texts (Core.iter s ++ [key]) (ts ++ [k]) := by
    refine ⟨by simp [ht.1], fun i x t h1 h2 => ?_⟩
    by_cases hi : i < ts.length
    · rw [List.getElem?_append_left (by rw [← ht.1]; exact hi)] at h1
      rw [List.getElem?_append_left hi] at h2
      exact ht.2 i x t h1 h2
    · have hlt := (List.getElem?_eq_some_iff.1 h2).1
      simp only [List.length_append, List.length_singleton] at hlt
      have e : i = ts.length := by omega
      subst e
      rw [List.getElem?_concat_length] at h2
      rw [ht.1, List.getElem?_concat_length] at h1
      injection h1 with h1; injection h2 with h2
      subst h1; subst h2
      exact hk
  have := shows_flat (g := g) (inside := nowhere) (o := o) (c := "...") (by rw [ho]; rfl) rfl (by rw [ho]; simp [Node.parts, Core.iter]) ht'
  rw [ho] at this
  have := h.unique this
  rw [this]
  simp [Node.layout, List.getLastD_eq_getLast?]

/-- A SortedSet without key function -/
theorem C74_set {g : Graph} {o : Nat} {name : String} {s : St Nat Nat} {ts : List String} {r : Except PyErr String}
    (ho : g.node o = .sortedSet name s none) (ht : g.Texts (Core.iter s) ts) (h : Shows g nowhere o r) :
    r = .ok (name ++ "([" ++ commas ts ++ "])") := by
  have := shows_flat (g := g) (inside := nowhere) (o := o) (c := "...") (by rw [ho]; rfl) rfl (by rw [ho]; rfl) ht
  rw [ho] at this
  exact h.unique this

/-- A SortedSet with a key function -/
theorem C74_keyset {g : Graph} {o : Nat} {name : String} {s : St Nat Nat} {key : Nat} {ts : List String} {k : String} {r : Except PyErr String}
    (ho : g.node o = .sortedSet name s (some key)) (ht : g.Texts (Core.iter s) ts) (hk : g.node key = .value (.ok k)) (h : Shows g nowhere o r) :
    r = .ok (name ++ "([" ++ commas ts ++ "], key=" ++ k ++ ")") := by
  have ht' : g.Texts (key :: Core.iter s) (k :: ts) := by
    refine ⟨by simp [ht.1], fun i x t h1 h2 => ?_⟩
    cases i with
    | zero => simp at h1 h2; rw [← h1, ← h2]; exact hk
    | succ i => exact ht.2 i x t h1 h2
  have := shows_flat (g := g) (inside := nowhere) (o := o) (c := "...") (by rw [ho]; rfl) rfl (by rw [ho]; rfl) ht'
  rw [ho] at this
  exact h.unique this

/-- `key: value` for each -/
def itemTexts (ks vs : List String) : List String := (ks.zip vs).map fun p => p.1 ++ ": " ++ p.2

/-- The parts of a dict whose keys `ks` are stored with the values `vs`. -/
theorem itemParts_eq (same : Nat → Nat → Bool) (d : List (Nat × Nat)) : ∀ ks vs : List Nat, vs.length = ks.length →
    (∀ i k v : Nat, ks[i]? = some k → vs[i]? = some v → PyDict.lookup same d k = some v) →
    itemParts same d ks = ((ks.zip vs).flatMap fun p => [p.1, p.2]).map .obj
  | [], [], _, _ => rfl
  | k :: ks, v :: vs, hl, h => by
    have ih := itemParts_eq same d ks vs (Nat.succ.inj hl) fun i => h (i + 1)
    simp only [itemParts] at ih
    simp only [itemParts, List.flatMap_cons, h 0 k v rfl rfl, ih, List.zip_cons_cons, List.map_append, List.map_cons, List.map_nil]

theorem texts_items {g : Graph} : ∀ {ks vs : List Nat} {kt vt : List String}, g.Texts ks kt → g.Texts vs vt → vs.length = ks.length →
    g.Texts ((ks.zip vs).flatMap fun p => [p.1, p.2]) ((kt.zip vt).flatMap fun p => [p.1, p.2]) ∧
      colons ((kt.zip vt).flatMap fun p => [p.1, p.2]) = itemTexts kt vt
  | [], [], [], [], h, _, _ => ⟨h, rfl⟩
  | k :: ks, v :: vs, a :: kt, b :: vt, h, h', hl => by
    have hk : g.Texts ks kt := ⟨Nat.succ.inj h.1, fun i => h.2 (i + 1)⟩
    have hv : g.Texts vs vt := ⟨Nat.succ.inj h'.1, fun i => h'.2 (i + 1)⟩
    obtain ⟨ih, ihc⟩ := texts_items hk hv (Nat.succ.inj hl)
    refine ⟨⟨by simpa using ih.1, fun i x t h1 h2 => ?_⟩, ?_⟩
    · match i with
      | 0 =>
        simp at h1 h2
        rw [← h1, ← h2]; exact h.2 0 k a rfl rfl
      | 1 =>
        simp at h1 h2
        rw [← h1, ← h2]; exact h'.2 0 v b rfl rfl
      | i + 2 =>
        simp only [List.zip_cons_cons, List.flatMap_cons, List.cons_append, List.nil_append, List.getElem?_cons_succ] at h1 h2
        exact ih.2 i x t h1 h2
    · simp only [List.zip_cons_cons, List.flatMap_cons, List.cons_append, List.nil_append, colons, ihc, itemTexts, List.map_cons]
  | [], _, _ :: _, _, h, _, _ => nomatch h.1
  | [], _ :: _, _, _, _, _, hl => nomatch hl
  | [], _, _, _ :: _, h, h', hl => by
    have := h'.1
    simp only [List.length_cons, List.length_nil] at this hl; omega
  | _ :: _, [], _, _, _, _, hl => nomatch hl
  | _ :: _, _, [], _, h, _, _ => nomatch h.1
  | _ :: _, _ :: _, _, [], _, h', _ => nomatch h'.1

/-- A SortedDict without key function: its items in the order of its keys -/
theorem C74_dict {g : Graph} {o : Nat} {name : String} {d : List (Nat × Nat)} {s : St Nat Nat} {vs : List Nat} {kt vt : List String} {r : Except PyErr String}
    (ho : g.node o = .sortedDict name d s none) (hl : vs.length = (Core.iter s).length)
    (hv : ∀ i k v : Nat, (Core.iter s)[i]? = some k → vs[i]? = some v → PyDict.lookup g.same d k = some v)
    (hk : g.Texts (Core.iter s) kt) (ht : g.Texts vs vt) (h : Shows g nowhere o r) :
    r = .ok (name ++ "({" ++ commas (itemTexts kt vt) ++ "})") := by
  obtain ⟨h1, h2⟩ := texts_items hk ht hl
  have := shows_flat (g := g) (inside := nowhere) (o := o) (c := "...") (by rw [ho]; rfl) rfl (by rw [ho]; exact itemParts_eq _ _ _ _ hl hv) h1
  rw [ho] at this
  have := h.unique this
  rw [this]
  simp only [Node.layout, h2]

/-- A SortedDict with a key function -/
theorem C74_keydict {g : Graph} {o : Nat} {name : String} {d : List (Nat × Nat)} {s : St Nat Nat} {key : Nat} {vs : List Nat} {k : String} {kt vt : List String}
    {r : Except PyErr String}
    (ho : g.node o = .sortedDict name d s (some key)) (hl : vs.length = (Core.iter s).length)
    (hv : ∀ i k v : Nat, (Core.iter s)[i]? = some k → vs[i]? = some v → PyDict.lookup g.same d k = some v)
    (hkey : g.node key = .value (.ok k)) (hk : g.Texts (Core.iter s) kt) (ht : g.Texts vs vt) (h : Shows g nowhere o r) :
    r = .ok (name ++ "(" ++ k ++ ", {" ++ commas (itemTexts kt vt) ++ "})") := by
  obtain ⟨h1, h2⟩ := texts_items hk ht hl
  have ht' : g.Texts (key :: ((Core.iter s).zip vs).flatMap fun p => [p.1, p.2]) (k :: (kt.zip vt).flatMap fun p => [p.1, p.2]) := by
    refine ⟨by simp [h1.1], fun i x t e1 e2 => ?_⟩
    cases i with
    | zero => simp at e1 e2; rw [← e1, ← e2]; exact hkey
    | succ i => exact h1.2 i x t e1 e2
  have := shows_flat (g := g) (inside := nowhere) (o := o) (c := "...") (by rw [ho]; rfl) rfl
    (by rw [ho]; simp only [Node.parts, List.map_cons]; rw [← itemParts_eq g.same d _ _ hl hv]; rfl) ht'
  rw [ho] at this
  have := h.unique this
  rw [this]
  simp only [Node.layout, List.headD_cons, List.tail_cons, h2]

/-! ### Cases that meet the hypotheses -/

namespace Demo

/-- The attributes of a list of `xs`, in two sublists -/
def shownSt (xs ys : List Nat) : St Nat Nat :=
  { len := xs.length + ys.length, load := 2, lists := [xs, ys], keys := [], maxes := [], index := [], offset := 0 }

/-- Object 0: a SortedList of the value 5 and of object 1, which is a list that contains object 0.  Object 2: a SortedDict `{5: itself, 6: 5}` with a key function;
3: its view; 4: a SortedSet of 5, 6 and of 8, whose `__repr__` raises; 9: a SortedKeyList. -/
def shownGraph : Graph where
  node
    | 0 => .sortedList "SortedList" (shownSt [5] [1])
    | 1 => .list [0, 6, 1]
    | 2 => .sortedDict "SortedDict" [(6, 5), (5, 2)] (shownSt [5] [6]) (some 7)
    | 3 => .view "SortedItemsView" 2
    | 4 => .sortedSet "SortedSet" (shownSt [5, 6] [8]) none
    | 6 => .value (.ok "66")
    | 7 => .value (.ok "neg")
    | 8 => .value (.error (.other 3))
    | 9 => .sortedKeyList "SortedKeyList" (shownSt [6] [5]) 7
    | _ => .value (.ok "5")
  same := (· == ·)

theorem shownGraph_finite : shownGraph.Finite where
  bound := ⟨10, fun o ho => by
    obtain ⟨n, rfl⟩ := Nat.le.dest ho
    rw [Nat.add_comm]
    exact ⟨.ok "5", rfl⟩⟩
  views := fun o name m h => by
    match o, h with
    | 3, h =>
      injection h with _ h
      subst h
      exact ⟨"...", rfl⟩
    | 0, h | 1, h | 2, h | 4, h | 5, h | 6, h | 7, h | 8, h | 9, h => exact nomatch h
    | _ + 10, h => exact nomatch h

/-- Three threads show the list, the view and the set, in turns.  Thread 7, not one of them, is showing the list as well. -/
def shownNow : Showers :=
  shownGraph.run ((List.range 40).flatMap fun _ => [2, 0, 1]) (reprs (fun x t => x == 0 && t == 7) [0, 3, 4])

example : (shownNow.threads.map fun s => s.result.map fun | .ok t => t | .error _ => "raised") =
    [some "SortedList([5, [..., 66, [...]]])", some "SortedItemsView(SortedDict(neg, {5: ..., 66: 5}))", some "raised"] := by
  decide +kernel

example : ∃ n, ∀ (schedule : List Nat) (i o : Nat), [0, 3, 4][i]? = some o →
    ∃ r s, Shows shownGraph nowhere o r ∧ (shownGraph.run schedule (reprs (fun x t => x == 0 && t == 7) [0, 3, 4])).threads[i]? = some s ∧
      (n ≤ schedule.count i → s.result = some r) ∧
      ∀ x, s.result = some x → x = r ∧ ∀ y, (shownGraph.run schedule (reprs (fun x t => x == 0 && t == 7) [0, 3, 4])).running y i = false :=
  C74_repr shownGraph_finite _ _ fun i hi x => by
    simp only [List.length_cons, List.length_nil] at hi
    have : (i == 7) = false := by simp; omega
    simp [this]

example (r : Except PyErr String) (h : Shows shownGraph nowhere 9 r) : r = .ok ("SortedKeyList" ++ "([" ++ commas ["66", "5"] ++ "], key=" ++ "neg" ++ ")") :=
  C74_keylist (g := shownGraph) (s := shownSt [6] [5]) (key := 7) rfl ⟨rfl, fun i x t h1 h2 => by
    match i with
    | 0 => injection h1 with h1; injection h2 with h2; subst h1; subst h2; rfl
    | 1 => injection h1 with h1; injection h2 with h2; subst h1; subst h2; rfl
    | i + 2 => exact nomatch h1⟩ rfl h

/-- A set whose value cannot be shown: the exception is its value's. -/
example : ∃ e, Shows shownGraph nowhere 4 (.error e) ∧ ∃ x, shownGraph.node x = .value (.error e) := by
  have h : Shows shownGraph nowhere 4 (.error (.other 3)) :=
    .container (g := shownGraph) (t := "...") (rs := [.ok "5", .ok "66", .error (.other 3)]) rfl rfl rfl
      (fun i e h => by
        match i with
        | 0 | 1 | 2 => exact nomatch h
        | i + 3 => exact nomatch h)
      (fun i x r h h' => by
        match i with
        | 0 => injection h with h; injection h with h; injection h' with h'; subst h; subst h'; exact shows_value rfl
        | 1 => injection h with h; injection h with h; injection h' with h'; subst h; subst h'; exact shows_value rfl
        | 2 =>
          injection h with h; injection h with h; injection h' with h'; subst h; subst h'
          exact .plain (g := shownGraph) (o := 8) (rs := [.error (.other 3)]) rfl rfl
            (fun i e h => by
              match i with
              | 0 => injection h with h; injection h with h; subst h; rfl
              | i + 1 => exact nomatch h)
            (fun i x r h => by
              match i with
              | 0 => exact nomatch h
              | i + 1 => exact nomatch h)
        | i + 3 => exact nomatch h)
  exact ⟨_, h, (C74_error h).resolve_right fun h => nomatch h.1⟩

end Demo

end Verif
