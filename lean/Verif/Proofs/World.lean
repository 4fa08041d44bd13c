import Verif.Model.World
import Verif.Proofs.Heap
/-!
# Sorted lists share no list objects with each other or with the client
-/

namespace Verif
namespace Heap

/-! ## Footprints -/

section Apart
variable {β : Type} {m m' : List (List β)} {fs : List (List Nat)} {as as' : List Nat} {ls ls' : List (List β)}

/-- The owners `fs` own different objects, all of them there. -/
structure Apart (n : Nat) (fs : List (List Nat)) : Prop where
  nodup : ∀ (k : Nat) (as : List Nat), fs[k]? = some as → as.Nodup
  bound : ∀ (k : Nat) (as : List Nat), fs[k]? = some as → ∀ a ∈ as, a < n
  apart : ∀ (k l : Nat) (as bs : List Nat), k ≠ l → fs[k]? = some as → fs[l]? = some bs → ∀ a ∈ as, a ∉ bs

/-- The `k`-th owner made a call. -/
theorem Apart.set (h : Apart m.length fs) {k : Nat} (hk : fs[k]? = some as) (hp : Part m as m' as' ls) :
    Apart m'.length (fs.set k as') := by
  have hlt : k < fs.length := (List.getElem?_eq_some_iff.1 hk).1
  have hget : ∀ l bs, (fs.set k as')[l]? = some bs → (l = k ∧ bs = as') ∨ (l ≠ k ∧ fs[l]? = some bs) := by
    intro l bs hl
    rw [List.getElem?_set] at hl
    by_cases e : k = l
    · subst e; rw [if_pos rfl, if_pos hlt] at hl; exact .inl ⟨rfl, (Option.some.inj hl).symm⟩
    · rw [if_neg e] at hl; exact .inr ⟨fun h => e h.symm, hl⟩
  have hnew : ∀ (l : Nat) (bs : List Nat), l ≠ k → fs[l]? = some bs → ∀ a ∈ as', a ∉ bs := by
    intro l bs hne hl a ha hb
    rcases hp.own a ha with h1 | h1
    · exact h.apart k l as bs (fun e => hne e.symm) hk hl a h1 hb
    · exact Nat.lt_irrefl _ (Nat.lt_of_lt_of_le (h.bound l bs hl a hb) h1)
  constructor
  · intro l bs hl
    rcases hget l bs hl with ⟨_, rfl⟩ | ⟨_, hl⟩
    · exact hp.nodup
    · exact h.nodup l bs hl
  · intro l bs hl a ha
    rcases hget l bs hl with ⟨_, rfl⟩ | ⟨_, hl⟩
    · exact hp.bound a ha
    · exact Nat.lt_of_lt_of_le (h.bound l bs hl a ha) hp.len
  · intro l l' bs ds hne hl hl' a ha
    rcases hget l bs hl with ⟨e1, e2⟩ | ⟨hn, h1⟩ <;> rcases hget l' ds hl' with ⟨e1', e2'⟩ | ⟨hn', h1'⟩
    · exact (hne (e1.trans e1'.symm)).elim
    · exact hnew l' ds hn' h1' a (e2 ▸ ha)
    · exact fun hd => hnew l bs hn h1 a (e2' ▸ hd) ha
    · exact h.apart l l' bs ds hne h1 h1' a ha

/-- The others see no change. -/
theorem Apart.others (h : Apart m.length fs) {k : Nat} (hk : fs[k]? = some as) (hp : Part m as m' as' ls)
    {l : Nat} {bs : List Nat} (hne : l ≠ k) (hl : fs[l]? = some bs) :
    (bs.map fun a => m'.getD a []) = bs.map fun a => m.getD a [] := by
  apply List.map_congr_left
  intro a ha
  exact hp.keep a (h.bound l bs hl a ha) fun h' => h.apart l k bs as hne hl hk a ha h'

/-- A new owner. -/
theorem Apart.append (h : Apart m.length fs) (hp : Part m [] m' as' ls) : Apart m'.length (fs ++ [as']) := by
  have hget : ∀ l bs, (fs ++ [as'])[l]? = some bs → (l = fs.length ∧ bs = as') ∨ (l < fs.length ∧ fs[l]? = some bs) := by
    intro l bs hl
    by_cases e : l < fs.length
    · rw [List.getElem?_append_left e] at hl; exact .inr ⟨e, hl⟩
    · rw [List.getElem?_append_right (by omega)] at hl
      by_cases e' : l = fs.length
      · subst e'; simp at hl; exact .inl ⟨rfl, hl.symm⟩
      · rw [List.getElem?_eq_none (by simp; omega)] at hl; cases hl
  have hnew : ∀ (l : Nat) (bs : List Nat), fs[l]? = some bs → ∀ a ∈ as', a ∉ bs := by
    intro l bs hl a ha hb
    rcases hp.own a ha with h1 | h1
    · simp at h1
    · exact Nat.lt_irrefl _ (Nat.lt_of_lt_of_le (h.bound l bs hl a hb) h1)
  constructor
  · intro l bs hl
    rcases hget l bs hl with ⟨_, rfl⟩ | ⟨_, hl⟩
    · exact hp.nodup
    · exact h.nodup l bs hl
  · intro l bs hl a ha
    rcases hget l bs hl with ⟨_, rfl⟩ | ⟨_, hl⟩
    · exact hp.bound a ha
    · exact Nat.lt_of_lt_of_le (h.bound l bs hl a ha) hp.len
  · intro l l' bs ds hne hl hl' a ha
    rcases hget l bs hl with ⟨e1, e2⟩ | ⟨hn, h1⟩ <;> rcases hget l' ds hl' with ⟨e1', e2'⟩ | ⟨hn', h1'⟩
    · exact (hne (e1.trans e1'.symm)).elim
    · exact hnew l' ds h1' a (e2 ▸ ha)
    · exact fun hd => hnew l bs h1 a (e2' ▸ hd) ha
    · exact h.apart l l' bs ds hne h1 h1' a ha

theorem Apart.part (h : Apart m.length fs) {k : Nat} (hk : fs[k]? = some as) : Part m as m as (as.map fun a => m.getD a []) :=
  Part.refl (h.nodup k as hk) (h.bound k as hk)

/-- Somebody else made a call. -/
theorem Part.other {m0 : List (List β)} {as0 : List Nat} (h : Part m0 as0 m as ls) (hp : Part m [] m' as' ls') :
    Part m0 as0 m' as ls where
  nodup := h.nodup
  bound a ha := Nat.lt_of_lt_of_le (h.bound a ha) hp.len
  len := Nat.le_trans h.len hp.len
  keep a ha hn := by
    rw [hp.keep a (Nat.lt_of_lt_of_le ha h.len) (by simp), h.keep a ha hn]
  own := h.own
  eq := by
    rw [h.eq]
    apply List.map_congr_left
    intro a ha
    rw [hp.keep a (h.bound a ha) (by simp)]

end Apart

variable {α κ : Type} {c c0 c1 : Ctx α κ} {s : St α κ}

/-! ## Calls -/

/-- The methods on list objects agree with those on values. -/
structure HeapSim (H : HeapAPI α κ) (V : Verif.Methods α κ) : Prop where
  methods : Core.MethodsSim H.M V
  add : ∀ {c0 c : Ctx α κ} {s} (v : α), Rel c0 c s → Out c0 (H.add v c) (H.value.add v s) Eq'
  discard : ∀ {c0 c : Ctx α κ} {s} (v : α), Rel c0 c s → Out c0 (H.discard v c) (H.value.discard v s) Eq'
  remove : ∀ {c0 c : Ctx α κ} {s} (v : α), Rel c0 c s → Out c0 (H.remove v c) (H.value.remove v s) Eq'
  update : H.value.update = V.update
  clear : H.value.clear = V.clear
  iadd : H.value.iadd = V.update
  delInt : H.value.delInt = Verif.Core.delInt V
  delSlice : H.value.delSlice = Verif.Core.delSlice V
  pop : H.value.pop = Verif.Core.pop V
  imul : H.value.imul = Verif.Core.imul V
  reset : H.value.reset = Verif.Core.reset V
  getSlice : H.value.getSlice = Verif.Core.getSlice V.ilog2
  iter : H.value.iter = Verif.Core.iter
  new : ∀ xs, H.value.new (some xs) = match V.update xs St.empty with
    | (.ok (), s) => .ok s
    | (.error e, _) => .error e
  copy : ∀ s, H.value.copy s = H.value.new (some (Verif.Core.iter s))
  concat : ∀ xs s, H.value.concat xs s = H.value.new (some (Verif.Core.iter s ++ xs))
  mul : ∀ n s, H.value.mul n s = H.value.new (some (repeatList (Verif.Core.iter s) n))
  quiet : ∀ op : Op α, op.isQuery = true → Quiet (H.value.step op)
  unsupported : H.value.unsupported = Verif.Core.unsupported

theorem SL.heapSim (E : Env α) : HeapSim (SL.heapAPI E) (Verif.SL.methods E) where
  methods := SL.methods_sim E
  add v hr := SL.add_out E hr v
  discard v hr := SL.discard_out E hr v
  remove v hr := SL.remove_out E hr v
  update := rfl
  clear := rfl
  iadd := rfl
  delInt := rfl
  delSlice := rfl
  pop := rfl
  imul := rfl
  reset := rfl
  getSlice := rfl
  iter := rfl
  new xs := by
    show Verif.SL.new E (some xs) = _
    unfold Verif.SL.new
    have e : (Verif.SL.methods E).update = Verif.SL.update E := rfl
    rw [e]
    rcases hx : Verif.SL.update E xs St.empty with ⟨_ | _, _⟩ <;> simp [hx]
  copy _ := rfl
  concat _ _ := rfl
  mul _ _ := rfl
  quiet op hq := Verif.SL.step_quiet E op hq
  unsupported := rfl

theorem SKL.heapSim (K : KEnv α κ) : HeapSim (SKL.heapAPI K) (Verif.SKL.methods K) where
  methods := SKL.methods_sim K
  add v hr := SKL.add_out K hr v
  discard v hr := SKL.discard_out K hr v
  remove v hr := SKL.remove_out K hr v
  update := rfl
  clear := rfl
  iadd := rfl
  delInt := rfl
  delSlice := rfl
  pop := rfl
  imul := rfl
  reset := rfl
  getSlice := rfl
  iter := rfl
  new _ := rfl
  copy _ := rfl
  concat _ _ := rfl
  mul _ _ := rfl
  quiet op hq := Verif.SKL.step_quiet K op hq
  unsupported := rfl

theorem Out.out {β : Type} (f : β → Verif.Out α) {m : Run α κ β} {k : Py (St α κ) β} (h : Out c0 (m c) (k s) Eq') :
    Out c0 (Spec.out f m c) (Spec.out f k s) Eq' := by
  obtain ⟨h1, h2⟩ := h
  unfold Spec.out
  rcases hx : m c with ⟨_ | b, c1⟩ <;> rcases hy : k s with ⟨_ | d, s1⟩ <;> rw [hx, hy] at h1 h2
  · exact ⟨h1, h2⟩
  · exact h2.elim
  · exact h2.elim
  · cases h2; exact ⟨h1, rfl⟩

theorem empty_rel (m : Mem α κ) : Rel { mem := m, self := Obj.empty } { mem := m, self := Obj.empty } St.empty :=
  ⟨⟨List.nodup_nil, by simp [Obj.empty], Nat.le_refl _, fun _ _ _ => rfl, by simp [Obj.empty], rfl⟩,
    ⟨List.nodup_nil, by simp [Obj.empty], Nat.le_refl _, fun _ _ _ => rfl, by simp [Obj.empty], rfl⟩,
    rfl, rfl, rfl, rfl, rfl⟩

section
variable {H : HeapAPI α κ} {V : Verif.Methods α κ} (hH : HeapSim H V)
include hH

/-- `SortedList(iterable)` -/
theorem build_out {m : Mem α κ} {src : Source α} {xs : List α} (hx : Yields { mem := m, self := Obj.empty } src xs) :
    (∃ c' s', H.M.update src { mem := m, self := Obj.empty } = (.ok (), c') ∧ H.value.new (some xs) = .ok s' ∧
      Rel { mem := m, self := Obj.empty } c' s') ∨
    (∃ e c' s', H.M.update src { mem := m, self := Obj.empty } = (.error e, c') ∧ H.value.new (some xs) = .error e ∧
      Rel { mem := m, self := Obj.empty } c' s') := by
  obtain ⟨h1, h2⟩ := hH.methods.update (empty_rel m) hx
  rw [hH.new]
  rcases hx : H.M.update src { mem := m, self := Obj.empty } with ⟨e | b, c'⟩ <;>
    rcases hy : V.update xs St.empty with ⟨e' | d, s'⟩ <;> rw [hx, hy] at h1 h2
  · cases h2; exact .inr ⟨_, _, _, rfl, rfl, h1⟩
  · exact h2.elim
  · exact h2.elim
  · exact .inl ⟨_, _, rfl, rfl, h1⟩

theorem values_out {src : Source α} {xs : List α} (hr : Rel c0 c s) (hx : Yields c src xs)
    {g : St α κ → Except PyErr (St α κ)} (hg : g s = H.value.new (some xs)) :
    Out c0 (H.values src c) (H.value.valuesOf g s) Eq' := by
  have hx' : Yields ({ mem := c.mem, self := Obj.empty } : Ctx α κ) src xs := by cases src <;> exact hx
  unfold HeapAPI.values ListAPI.valuesOf
  rw [hg]
  rcases build_out hH hx' with ⟨c', s', e1, e2, h1⟩ | ⟨e, c', s', e1, e2, h1⟩
  · rw [e1, e2]
    obtain ⟨h3, h4, h5⟩ := hr
    refine ⟨⟨h3.other h1.lists, h4.other h1.keys, h5⟩, ?_⟩
    show Verif.Core.iter c'.view = H.value.iter s'
    rw [hH.iter, h1.view]
  · rw [e1, e2]
    obtain ⟨h3, h4, h5⟩ := hr
    exact ⟨⟨h3.other h1.lists, h4.other h1.keys, h5⟩, rfl⟩

theorem call_out (op : Op α) (hr : Rel c0 c s) : Out c0 (H.call op c) (H.value.step op s) Eq' := by
  have hread : op.isQuery = true → Out c0 (reading (H.value.step op) c) (H.value.step op s) Eq' := fun hq =>
    Out.tail hr (reading_out (hH.quiet op hq) hr) fun _ _ _ h => h
  cases op with
  | add v => exact Out.out _ (hH.add v hr)
  | update xs => exact Out.out _ (by rw [hH.update]; exact hH.methods.update hr rfl)
  | clear => exact Out.out _ (by rw [hH.clear]; exact hH.methods.clear hr)
  | discard v => exact Out.out _ (hH.discard v hr)
  | remove v => exact Out.out _ (hH.remove v hr)
  | getSlice sl =>
    refine Out.out _ ?_
    rw [hH.getSlice, hH.methods.ilog2, bind_pure' (Verif.Core.getSlice V.ilog2 sl)]
    refine Out.bind hr (Core.getSlice_out _ sl hr.here) fun c1 s1 b l h1 _ hb => ?_
    exact Out.ok h1 hb.2
  | delInt i => exact Out.out _ (by rw [hH.delInt]; exact Core.delInt_out hH.methods i hr)
  | delSlice sl => exact Out.out _ (by rw [hH.delSlice]; exact Core.delSlice_out hH.methods sl hr)
  | pop i => exact Out.out _ (by rw [hH.pop]; exact Core.pop_out hH.methods i hr)
  | iadd xs => exact Out.out _ (by rw [hH.iadd]; exact hH.methods.update hr rfl)
  | imul n => exact Out.out _ (by rw [hH.imul]; exact Core.imul_out hH.methods n hr)
  | reset load => exact Out.out _ (by rw [hH.reset]; exact Core.reset_out hH.methods load hr)
  | copy =>
    refine Out.out _ ?_
    obtain rfl := hr.view
    exact values_out hH (src := .values (Verif.Core.iter c.view)) hr rfl (hH.copy _)
  | concat xs =>
    refine Out.out _ ?_
    have e : H.value.valuesOf (H.value.concat xs) s =
        (pure (Verif.Core.iter s ++ xs) >>= fun l => H.value.valuesOf fun _ => H.value.new (some l)) s := by
      rw [pure_bind'']
      unfold ListAPI.valuesOf
      rw [hH.concat]
    rw [e]
    refine Out.bind hr (Core.concatArg_out (src := .values xs) hr.here rfl (fun a e => by cases e)) fun c1 s1 b l h1 _ hb => ?_
    exact values_out hH h1 (src := .list b) hb.2 rfl
  | mul n =>
    refine Out.out _ ?_
    have e : H.value.valuesOf (H.value.mul n) s =
        (pure (repeatList (Verif.Core.iter s) n) >>= fun l => H.value.valuesOf fun _ => H.value.new (some l)) s := by
      rw [pure_bind'']
      unfold ListAPI.valuesOf
      rw [hH.mul]
    rw [e]
    refine Out.bind hr (Core.repeated_out n hr.here) fun c1 s1 b l h1 _ hb => ?_
    exact values_out hH h1 (src := .list b) hb.2 rfl
  | unsupported u =>
    refine Out.tail hr (reading_out ?_ hr) fun _ _ _ h => h
    show Quiet (Spec.out _ (H.value.unsupported u))
    rw [hH.unsupported]
    intro s0 s hs
    exact hs
  | _ => exact hread rfl

end

/-! ## Worlds -/

/-- One more list object for the client. -/
theorem Apart.give {n b : Nat} {as : List Nat} {fs : List (List Nat)} (h : Apart n (as :: fs)) (hb : b < n)
    (hfree : ∀ (k : Nat) (bs : List Nat), (as :: fs)[k]? = some bs → b ∉ bs) : Apart n ((as ++ [b]) :: fs) := by
  have hget : ∀ (l : Nat) (bs : List Nat), ((as ++ [b]) :: fs)[l]? = some bs →
      (l = 0 ∧ bs = as ++ [b]) ∨ (l ≠ 0 ∧ (as :: fs)[l]? = some bs) := by
    intro l bs hl
    cases l with
    | zero => exact .inl ⟨rfl, (Option.some.inj hl).symm⟩
    | succ l => exact .inr ⟨by omega, hl⟩
  have h0 : (as :: fs)[0]? = some as := rfl
  constructor
  · intro l bs hl
    rcases hget l bs hl with ⟨_, rfl⟩ | ⟨_, hl⟩
    · rw [List.nodup_append]
      refine ⟨h.nodup 0 as h0, by simp, fun a ha a' ha' => ?_⟩
      rw [List.mem_singleton] at ha'
      subst ha'
      exact fun e => hfree 0 as h0 (e ▸ ha)
    · exact h.nodup l bs hl
  · intro l bs hl a ha
    rcases hget l bs hl with ⟨_, rfl⟩ | ⟨_, hl⟩
    · rcases List.mem_append.1 ha with ha | ha
      · exact h.bound 0 as h0 a ha
      · rw [List.mem_singleton] at ha; exact ha ▸ hb
    · exact h.bound l bs hl a ha
  · intro l l' bs ds hne hl hl' a ha
    rcases hget l bs hl with ⟨e1, e2⟩ | ⟨hn, h1⟩ <;> rcases hget l' ds hl' with ⟨e1', e2'⟩ | ⟨hn', h1'⟩
    · exact (hne (e1.trans e1'.symm)).elim
    · subst e2
      rcases List.mem_append.1 ha with ha | ha
      · exact h.apart 0 l' as ds (fun e => hn' e.symm) h0 h1' a ha
      · rw [List.mem_singleton] at ha; exact ha ▸ hfree l' ds h1'
    · subst e2'
      intro hd
      rcases List.mem_append.1 hd with hd | hd
      · exact h.apart l 0 bs as hn h1 h0 a ha hd
      · rw [List.mem_singleton] at hd; exact hfree l bs h1 (hd ▸ ha)
    · exact h.apart l l' bs ds hne h1 h1' a ha

/-- What the object `o` holds. -/
abbrev World.view (w : World α κ) (o : Obj κ) : St α κ := Ctx.view { mem := w.mem, self := o }

/-- The owners own different list objects; every sorted list is well formed. -/
structure World.Good (I : St α κ → Prop) (w : World α κ) : Prop where
  vals : Apart w.mem.vals.length (w.lists :: w.objs.map (·.lists))
  keys : Apart w.mem.keys.length (w.objs.map (·.keys))
  inv : ∀ (j : Nat) (o : Obj κ), w.objs[j]? = some o → I (w.view o)

theorem World.good_empty (I : St α κ → Prop) : World.Good I (World.empty : World α κ) := by
  refine ⟨⟨?_, ?_, ?_⟩, ⟨?_, ?_, ?_⟩, ?_⟩
  · intro k as h; cases k with
    | zero => cases h; exact List.nodup_nil
    | succ k => simp [World.empty] at h
  · intro k as h; cases k with
    | zero => cases h; exact fun _ h => nomatch h
    | succ k => simp [World.empty] at h
  · intro k l as bs _ h; cases k with
    | zero => cases h; exact fun _ _ h => nomatch h
    | succ k => simp [World.empty] at h
  · intro k as h; simp [World.empty] at h
  · intro k as h; simp [World.empty] at h
  · intro k l as bs _ h; simp [World.empty] at h
  · intro k o h; simp [World.empty] at h

section
variable {I : St α κ → Prop} {w : World α κ}

theorem World.Good.own (h : w.Good I) {j : Nat} {o : Obj κ} (ho : w.objs[j]? = some o) :
    Own ({ mem := w.mem, self := o } : Ctx α κ) where
  nodup := h.vals.nodup (j + 1) _ (by simp [ho])
  bound := h.vals.bound (j + 1) _ (by simp [ho])
  knodup := h.keys.nodup j _ (by simp [ho])
  kbound := h.keys.bound j _ (by simp [ho])

theorem view_congr {m m' : Mem α κ} {o : Obj κ} (hl : (o.lists.map fun a => m'.vals.getD a []) = o.lists.map fun a => m.vals.getD a [])
    (hk : (o.keys.map fun a => m'.keys.getD a []) = o.keys.map fun a => m.keys.getD a []) :
    Ctx.view ({ mem := m', self := o } : Ctx α κ) = Ctx.view { mem := m, self := o } := by
  unfold Ctx.view
  congr 1

/-- The `j`-th sorted list made a call. -/
theorem World.Good.set (h : w.Good I) {j : Nat} {o : Obj κ} (ho : w.objs[j]? = some o) {c' : Ctx α κ} {s' : St α κ}
    (hr : Rel { mem := w.mem, self := o } c' s') (hI : I s') :
    World.Good I { w with mem := c'.mem, objs := w.objs.set j c'.self } ∧
    World.contents { w with mem := c'.mem, objs := w.objs.set j c'.self } =
      { w.contents with sorted := w.contents.sorted.set j (Verif.Core.iter s') } := by
  have hlt : j < w.objs.length := (List.getElem?_eq_some_iff.1 ho).1
  have hv : (w.lists :: w.objs.map (·.lists))[j + 1]? = some o.lists := by simp [ho]
  have hk : (w.objs.map (·.keys))[j]? = some o.keys := by simp [ho]
  have hview : ∀ (l : Nat) (o' : Obj κ), l ≠ j → w.objs[l]? = some o' →
      Ctx.view ({ mem := c'.mem, self := o' } : Ctx α κ) = Ctx.view { mem := w.mem, self := o' } := by
    intro l o' hne hl
    apply view_congr
    · exact h.vals.others hv hr.lists (l := l + 1) (by omega) (by simp [hl])
    · exact h.keys.others hk hr.keys hne (by simp [hl])
  refine ⟨⟨?_, ?_, ?_⟩, ?_⟩
  · have := h.vals.set hv hr.lists
    simp only [List.map_set]
    exact this
  · have := h.keys.set hk hr.keys
    simp only [List.map_set]
    exact this
  · intro l o' hl
    simp only [List.getElem?_set] at hl
    by_cases e : j = l
    · subst e
      rw [if_pos rfl, if_pos hlt] at hl
      cases hl
      show I (Ctx.view c')
      exact hr.view ▸ hI
    · rw [if_neg e] at hl
      show I (Ctx.view { mem := c'.mem, self := o' })
      rw [hview l o' (fun e' => e e'.symm) hl]
      exact h.inv l o' hl
  · unfold World.contents
    congr 1
    · exact h.vals.others hv hr.lists (l := 0) (by omega) rfl
    · apply List.ext_getElem?
      intro l
      simp only [List.getElem?_map, List.getElem?_set]
      by_cases e : j = l
      · subst e
        simp only [if_pos, List.length_map, hlt]
        simp [hr.view]
      · simp only [if_neg e]
        cases hl : w.objs[l]? with
        | none => rfl
        | some o' =>
          simp only [Option.map_some]
          rw [hview l o' (fun e' => e e'.symm) hl]

/-- The client changed its lists. -/
theorem World.Good.client (h : w.Good I) {m' : List (List α)} {as' : List Nat} {ls' : List (List α)}
    (hp : Part w.mem.vals w.lists m' as' ls') :
    World.Good I { w with mem := { w.mem with vals := m' }, lists := as' } ∧
    World.contents { w with mem := { w.mem with vals := m' }, lists := as' } = { w.contents with lists := ls' } := by
  have hview : ∀ (l : Nat) (o' : Obj κ), w.objs[l]? = some o' →
      Ctx.view ({ mem := { w.mem with vals := m' }, self := o' } : Ctx α κ) = Ctx.view { mem := w.mem, self := o' } := by
    intro l o' hl
    apply view_congr
    · exact h.vals.others (k := 0) rfl hp (l := l + 1) (by omega) (by simp [hl])
    · rfl
  refine ⟨⟨h.vals.set (k := 0) rfl hp, h.keys, ?_⟩, ?_⟩
  · intro l o' hl
    show I (Ctx.view { mem := { w.mem with vals := m' }, self := o' })
    rw [hview l o' hl]
    exact h.inv l o' hl
  · unfold World.contents
    congr 1
    · exact hp.eq.symm
    · apply List.map_congr_left
      intro o' ho'
      obtain ⟨l, hl⟩ := List.mem_iff_getElem?.1 ho'
      rw [hview l o' hl]

/-- A new sorted list. -/
theorem World.Good.append (h : w.Good I) {c' : Ctx α κ} {s' : St α κ}
    (hr : Rel { mem := w.mem, self := Obj.empty } c' s') :
    (I s' → World.Good I { w with mem := c'.mem, objs := w.objs ++ [c'.self] }) ∧
    World.contents { w with mem := c'.mem, objs := w.objs ++ [c'.self] } =
      { w.contents with sorted := w.contents.sorted ++ [Verif.Core.iter s'] } := by
  have keep : ∀ a, a < w.mem.vals.length → c'.mem.vals.getD a [] = w.mem.vals.getD a [] := fun a ha =>
    hr.lists.keep a ha (by simp [Obj.empty])
  have kkeep : ∀ a, a < w.mem.keys.length → c'.mem.keys.getD a [] = w.mem.keys.getD a [] := fun a ha =>
    hr.keys.keep a ha (by simp [Obj.empty])
  have hview : ∀ (l : Nat) (o' : Obj κ), w.objs[l]? = some o' →
      Ctx.view ({ mem := c'.mem, self := o' } : Ctx α κ) = Ctx.view { mem := w.mem, self := o' } := by
    intro l o' hl
    apply view_congr
    · exact List.map_congr_left fun a ha => keep a (h.vals.bound (l + 1) o'.lists (by simp [hl]) a ha)
    · exact List.map_congr_left fun a ha => kkeep a (h.keys.bound l o'.keys (by simp [hl]) a ha)
  refine ⟨fun hI => ⟨?_, ?_, ?_⟩, ?_⟩
  · have := h.vals.append hr.lists
    simp only [List.map_append, List.map_cons, List.map_nil]
    exact this
  · have := h.keys.append hr.keys
    simp only [List.map_append, List.map_cons, List.map_nil]
    exact this
  · intro l o' hl
    simp only [List.getElem?_append] at hl
    by_cases e : l < w.objs.length
    · rw [if_pos e] at hl
      show I (Ctx.view { mem := c'.mem, self := o' })
      rw [hview l o' hl]
      exact h.inv l o' hl
    · rw [if_neg e] at hl
      have : l - w.objs.length = 0 ∧ o' = c'.self := by
        cases hd : l - w.objs.length with
        | zero => rw [hd] at hl; exact ⟨rfl, (Option.some.inj hl).symm⟩
        | succ n => rw [hd] at hl; simp at hl
      rw [this.2]
      show I (Ctx.view c')
      exact hr.view ▸ hI
  · unfold World.contents
    congr 1
    · exact List.map_congr_left fun a ha => keep a (h.vals.bound 0 w.lists rfl a ha)
    · simp only [List.map_append, List.map_cons, List.map_nil]
      congr 1
      · apply List.map_congr_left
        intro o' ho'
        obtain ⟨l, hl⟩ := List.mem_iff_getElem?.1 ho'
        rw [hview l o' hl]
      · rw [hr.view]

/-- The client gets a list object that nobody has. -/
theorem World.Good.give (h : w.Good I) {b : Nat} (hb : b < w.mem.vals.length)
    (hfree : ∀ (k : Nat) (bs : List Nat), (w.lists :: w.objs.map (·.lists))[k]? = some bs → b ∉ bs) :
    World.Good I { w with lists := w.lists ++ [b] } ∧
    World.contents { w with lists := w.lists ++ [b] } =
      { w.contents with lists := w.contents.lists ++ [w.mem.vals.getD b []] } :=
  ⟨⟨h.vals.give hb hfree, h.keys, h.inv⟩, by simp [World.contents]⟩

theorem contents_list (w : World α κ) (i : Nat) :
    w.contents.lists[i]? = w.lists[i]?.map fun a => w.mem.vals.getD a [] := List.getElem?_map ..

theorem contents_sorted (w : World α κ) (j : Nat) :
    w.contents.sorted[j]? = w.objs[j]?.map fun o => Verif.Core.iter (w.view o) := List.getElem?_map ..

theorem source_none {arg : Arg α} (h : w.source arg = none) : w.contents.arg arg = none := by
  cases arg with
  | list i =>
    have : w.lists[i]? = none := by simpa [World.source] using h
    show w.contents.lists[i]? = none
    rw [contents_list, this]; rfl
  | sorted j =>
    have : w.objs[j]? = none := by simpa [World.source] using h
    show w.contents.sorted[j]? = none
    rw [contents_sorted, this]; rfl
  | values xs => cases h

theorem World.Good.source (h : w.Good I) {arg : Arg α} {src : Source α} (e : w.source arg = some src) :
    ∃ xs, w.contents.arg arg = some xs ∧ (∀ o, Yields ({ mem := w.mem, self := o } : Ctx α κ) src xs) ∧
      ∀ a, src = .list a → a < w.mem.vals.length := by
  cases arg with
  | list i =>
    cases hi : w.lists[i]? with
    | none => simp [World.source, hi] at e
    | some a =>
      have e' : src = .list a := by simpa [World.source, hi] using e.symm
      subst e'
      refine ⟨w.mem.vals.getD a [], ?_, fun _ => rfl, ?_⟩
      · show w.contents.lists[i]? = _
        rw [contents_list, hi]; rfl
      · intro a' ha'
        cases ha'
        exact h.vals.bound 0 w.lists rfl a (List.mem_of_getElem? hi)
  | sorted j =>
    cases hj : w.objs[j]? with
    | none => simp [World.source, hj] at e
    | some o =>
      have e' : src = .values (Verif.Core.iter (w.view o)) := by simpa [World.source, hj] using e.symm
      subst e'
      refine ⟨_, ?_, fun _ => rfl, fun a ha => by cases ha⟩
      show w.contents.sorted[j]? = _
      rw [contents_sorted, hj]; rfl
  | values xs =>
    cases e
    exact ⟨xs, rfl, fun _ => rfl, fun a ha => by cases ha⟩

/-- A call on the `j`-th sorted list. -/
theorem World.Good.run {β γ : Type} {R : Ctx α κ → Ctx α κ → β → γ → Prop} {m : Run α κ β} {f : Py (St α κ) γ} (h : w.Good I) {j : Nat} {o : Obj κ}
    (ho : w.objs[j]? = some o)
    (hm : Out { mem := w.mem, self := o } (m { mem := w.mem, self := o }) (f (w.view o)) R) (hI : I (f (w.view o)).2) :
    World.Good I (w.run j o m).2 ∧
    (w.run j o m).2.contents = { w.contents with sorted := w.contents.sorted.set j (Verif.Core.iter (f (w.view o)).2) } :=
  h.set ho hm.1 hI

theorem set_same {γ : Type} {l : List γ} {j : Nat} {x : γ} (h : l[j]? = some x) : l.set j x = l := by
  apply List.ext_getElem?
  intro i
  rw [List.getElem?_set]
  by_cases e : j = i
  · subst e; rw [if_pos rfl, if_pos (List.getElem?_eq_some_iff.1 h).1, h]
  · rw [if_neg e]

/-- The same, for a call that returns a new list object and changes no values. -/
theorem World.Good.runNew {m : Run α κ Addr} {f : Py (St α κ) (List α)} (h : w.Good I) {j : Nat} {o : Obj κ}
    (ho : w.objs[j]? = some o)
    (hm : Out { mem := w.mem, self := o } (m { mem := w.mem, self := o }) (f (w.view o)) NewList) (hI : I (f (w.view o)).2)
    (hi : Verif.Core.iter (f (w.view o)).2 = Verif.Core.iter (w.view o)) :
    World.Good I (w.run j o m).2 ∧ (w.run j o m).2.contents = w.contents ∧
    match (w.run j o m).1, (f (w.view o)).1 with
    | .ok a, .ok l => a < (w.run j o m).2.mem.vals.length ∧ (w.run j o m).2.mem.vals.getD a [] = l ∧
      ∀ (k : Nat) (bs : List Nat), ((w.run j o m).2.lists :: (w.run j o m).2.objs.map (·.lists))[k]? = some bs → a ∉ bs
    | .error e, .error e' => e = e'
    | _, _ => False := by
  obtain ⟨h1, h2⟩ := h.run ho hm hI
  refine ⟨h1, ?_, ?_⟩
  · rw [h2, hi, set_same]
    rw [contents_sorted, ho]; rfl
  · have h3 := hm.2
    unfold World.run
    rcases hx : m { mem := w.mem, self := o } with ⟨_ | a, c1⟩ <;> rcases hy : f (w.view o) with ⟨_ | l, s1⟩ <;> rw [hx, hy] at h3
    · exact h3
    · exact h3.elim
    · exact h3.elim
    · obtain ⟨hf, hc⟩ := h3
      refine ⟨hf.bound, hc, ?_⟩
      intro k bs hk ha
      have hlt : j < w.objs.length := (List.getElem?_eq_some_iff.1 ho).1
      have hold : ∀ (k : Nat) (bs : List Nat), (w.lists :: w.objs.map (·.lists))[k]? = some bs → a ∉ bs := fun k bs hk ha =>
        Nat.lt_irrefl _ (Nat.lt_of_lt_of_le (h.vals.bound k bs hk a ha) hf.new)
      cases k with
      | zero => exact hold 0 bs hk ha
      | succ k =>
        simp only [List.map_set, List.getElem?_cons_succ, List.getElem?_set, List.length_map] at hk
        by_cases e : j = k
        · rw [if_pos e, if_pos hlt] at hk
          cases hk
          exact hf.free ha
        · rw [if_neg e] at hk
          exact hold (k + 1) bs hk ha

/-- A new sorted list. -/
theorem World.Good.build {H : HeapAPI α κ} {V : Verif.Methods α κ} (hH : HeapSim H V) (h : w.Good I) {src : Source α} {xs : List α}
    (hx : ∀ o, Yields ({ mem := w.mem, self := o } : Ctx α κ) src xs) {s' : St α κ} (hn : H.value.new (some xs) = .ok s') (hI : I s') :
    (w.build H src).1 = .ok (.newSorted w.contents.sorted.length) ∧
    (w.build H src).2.contents = { w.contents with sorted := w.contents.sorted ++ [Verif.Core.iter s'] } ∧
    World.Good I (w.build H src).2 := by
  unfold World.build
  rcases build_out hH (hx Obj.empty) with ⟨c', s1, e1, e2, h1⟩ | ⟨e, c', s1, e1, e2, h1⟩
  · rw [hn] at e2
    cases e2
    rw [e1]
    obtain ⟨h2, h3⟩ := h.append h1
    refine ⟨?_, h3, h2 hI⟩
    simp [World.contents]
  · rw [hn] at e2; cases e2

end

/-- One event. -/
theorem World.step_refines {H : HeapAPI α κ} {V : Verif.Methods α κ} (hH : HeapSim H V) {O : Spec.Order α} {I : St α κ → Prop}
    (hL : H.value.Lawful O I) (ev : ShareEvent α) (hv : ev.Valid) {w : World α κ} (h : w.Good I) :
    (World.step H ev w).1 = (Store.step O ev w.contents).1 ∧
    (World.step H ev w).2.contents = (Store.step O ev w.contents).2 ∧ World.Good I (World.step H ev w).2 := by
  have hiter : ∀ s, H.value.iter s = Verif.Core.iter s := fun s => by rw [hH.iter]
  have hupd : ∀ (j : Nat) (arg : Arg α), 
      (World.step H (.update j arg) w).1 = (Store.step O (.update j arg) w.contents).1 ∧
      (World.step H (.update j arg) w).2.contents = (Store.step O (.update j arg) w.contents).2 ∧
      World.Good I (World.step H (.update j arg) w).2 := by
    intro j arg
    simp only [World.step, Store.step, contents_sorted]
    cases ho : w.objs[j]? with
    | none => exact ⟨rfl, rfl, h⟩
    | some o =>
      cases hs : w.source arg with
      | none => rw [source_none hs]; exact ⟨rfl, rfl, h⟩
      | some src =>
        obtain ⟨xs, hx, hy, _⟩ := h.source hs
        have hr := hL.update xs (w.view o) (h.inv j o ho)
        rw [hH.update] at hr
        have ho' := hH.methods.update (h.own ho).rel (hy o)
        obtain ⟨h1, h2⟩ := h.run ho ho' hr.2.2
        rw [hx]
        refine ⟨?_, ?_, h1⟩
        · have h3 := ho'.2
          have h4 : (V.update xs (w.view o)).1 = .ok () := hr.1
          show Except.map _ (H.M.update src { mem := w.mem, self := o }).1 = _
          have h4' : (V.update xs (Ctx.view { mem := w.mem, self := o })).1 = .ok () := h4
          rw [h4'] at h3
          cases h5 : (H.M.update src { mem := w.mem, self := o }).1 with
          | error e => rw [h5] at h3; exact h3.elim
          | ok u => rfl
        · refine h2.trans ?_
          show _ = ({ w.contents with sorted := w.contents.sorted.set j (Spec.insertAll O (Verif.Core.iter (w.view o)) xs) } : Store α)
          have h3 := hr.2.1
          rw [hiter, hiter] at h3
          rw [h3]
          rfl
  cases ev with
  | newList xs =>
    simp only [World.step, Store.step, Store.addList]
    have hp := (h.vals.part (k := 0) rfl).push xs
    have hf := (h.vals.part (k := 0) rfl).fresh_push xs
    obtain ⟨h1, h2⟩ := h.client (hp.append hf (l := xs) getD_push_self)
    exact ⟨by simp [World.contents], h2, h1⟩
  | mutate i f =>
    simp only [World.step, Store.step, contents_list]
    cases hi : w.lists[i]? with
    | none => exact ⟨rfl, rfl, h⟩
    | some a =>
      obtain ⟨h1, h2⟩ := h.client ((h.vals.part (k := 0) rfl).put hi (f (w.mem.vals.getD a [])))
      exact ⟨rfl, h2, h1⟩
  | read i =>
    simp only [World.step, Store.step, contents_list]
    cases hi : w.lists[i]? with
    | none => exact ⟨rfl, rfl, h⟩
    | some a => exact ⟨rfl, rfl, h⟩
  | construct arg =>
    simp only [World.step, Store.step]
    cases hs : w.source arg with
    | none => rw [source_none hs]; exact ⟨rfl, rfl, h⟩
    | some src =>
      obtain ⟨xs, hx, hy, _⟩ := h.source hs
      obtain ⟨s', e, hI, hl⟩ := hL.new (some xs)
      obtain ⟨h1, h2, h3⟩ := h.build hH hy e hI
      rw [hx]
      refine ⟨h1, h2.trans ?_, h3⟩
      rw [← hiter, hl]
      rfl
  | call j op =>
    simp only [World.step, Store.step, contents_sorted]
    cases ho : w.objs[j]? with
    | none => exact ⟨rfl, rfl, h⟩
    | some o =>
      have hr := hL.step op hv (w.view o) (h.inv j o ho)
      have ho' := call_out hH op (h.own ho).rel
      obtain ⟨h1, h2⟩ := h.run ho ho' hr.2.2
      simp only [hiter] at hr
      refine ⟨?_, h2.trans ?_, h1⟩
      · simp only [Option.map_some]
        rw [← hr.1]
        congr 1
        have h3 := ho'.2
        show (H.call op { mem := w.mem, self := o }).1 = (H.value.step op (Ctx.view { mem := w.mem, self := o })).1
        cases h5 : (H.call op { mem := w.mem, self := o }).1 <;>
          cases h6 : (H.value.step op (Ctx.view { mem := w.mem, self := o })).1 <;> rw [h5, h6] at h3
        · exact congrArg _ h3
        · exact h3.elim
        · exact h3.elim
        · exact congrArg _ h3
      · simp only [Option.map_some]
        rw [← hr.2.1]
  | update j arg => exact hupd j arg
  | iadd j arg => exact hupd j arg
  | concat j arg =>
    simp only [World.step, Store.step, contents_sorted]
    cases ho : w.objs[j]? with
    | none => exact ⟨rfl, rfl, h⟩
    | some o =>
      cases hs : w.source arg with
      | none => rw [source_none hs]; exact ⟨rfl, rfl, h⟩
      | some src =>
        obtain ⟨xs, hx, hy, hlt⟩ := h.source hs
        have hI := h.inv j o ho
        have ho' := Core.concatArg_out (h.own ho).rel (hy o) hlt
        obtain ⟨h1, h2, h3⟩ := h.runNew (f := pure (Verif.Core.iter (w.view o) ++ xs)) ho ho' hI rfl
        rw [hx]
        obtain ⟨s', e, hI', hl⟩ := hL.concat xs _ hI
        rw [hH.concat] at e
        simp only [Option.map_some]
        rcases hrun : w.run j o (Core.concatArg src) with ⟨_ | a, w1⟩
        · rw [hrun] at h3; exact h3.elim
        · rw [hrun] at h1 h2 h3
          obtain ⟨h4, h5, h6⟩ := h1.build hH (src := .list a) (fun _ => h3.2.1) e hI'
          refine ⟨?_, ?_, h6⟩
          · rw [← h2]; exact h4
          · refine h5.trans ?_
            rw [h2, ← hiter, hl, hiter]
            rfl
  | copy j =>
    simp only [World.step, Store.step, contents_sorted, World.source]
    cases ho : w.objs[j]? with
    | none => exact ⟨rfl, rfl, h⟩
    | some o =>
      obtain ⟨s', e, hI', hl⟩ := hL.copy _ (h.inv j o ho)
      rw [hH.copy] at e
      obtain ⟨h4, h5, h6⟩ := h.build hH (src := .values (Verif.Core.iter (w.view o))) (fun _ => rfl) e hI'
      refine ⟨h4, h5.trans ?_, h6⟩
      rw [← hiter, hl, hiter]
      rfl
  | mul j n =>
    simp only [World.step, Store.step, contents_sorted]
    cases ho : w.objs[j]? with
    | none => exact ⟨rfl, rfl, h⟩
    | some o =>
      have hI := h.inv j o ho
      have ho' := Core.repeated_out n (h.own ho).rel
      obtain ⟨h1, h2, h3⟩ := h.runNew (f := pure (repeatList (Verif.Core.iter (w.view o)) n)) ho ho' hI rfl
      obtain ⟨s', e, hI', hl⟩ := hL.mul n _ hI
      rw [hH.mul] at e
      simp only [Option.map_some]
      rcases hrun : w.run j o (Core.repeated n) with ⟨_ | a, w1⟩
      · rw [hrun] at h3; exact h3.elim
      · rw [hrun] at h1 h2 h3
        obtain ⟨h4, h5, h6⟩ := h1.build hH (src := .list a) (fun _ => h3.2.1) e hI'
        refine ⟨?_, ?_, h6⟩
        · rw [← h2]; exact h4
        · refine h5.trans ?_
          rw [h2, ← hiter, hl, hiter]
          rfl
  | slice j sl =>
    simp only [World.step, Store.step, contents_sorted]
    cases ho : w.objs[j]? with
    | none => exact ⟨rfl, rfl, h⟩
    | some o =>
      have hr := hL.getSlice sl (w.view o) (h.inv j o ho)
      rw [hH.getSlice] at hr
      have ho' := Core.getSlice_out V.ilog2 sl (h.own ho).rel
      rw [hH.methods.ilog2]
      simp only [hiter] at hr
      have hsame : (Spec.getSlice sl (Verif.Core.iter (w.view o))).2 = Verif.Core.iter (w.view o) := by
        unfold Spec.getSlice
        split <;> rfl
      obtain ⟨h1, h2, h3⟩ := h.runNew ho ho' hr.2.2 (hr.2.1.trans hsame)
      simp only [Option.map_some]
      rw [← hr.1]
      rcases hrun : w.run j o (Core.getSlice V.ilog2 sl) with ⟨e | a, w1⟩ <;>
        rcases hy : (Verif.Core.getSlice V.ilog2 sl (w.view o)).1 with e' | l <;> rw [hrun, hy] at h3 <;> rw [hrun] at h1 h2
      · cases h3; exact ⟨rfl, h2, h1⟩
      · exact h3.elim
      · exact h3.elim
      · obtain ⟨h4, h5⟩ := h1.give h3.1 h3.2.2
        refine ⟨?_, ?_, h4⟩
        · rw [← h2]; simp [Store.addList, World.contents]
        · refine h5.trans ?_
          rw [h2, h3.2.1]
          rfl
  | reduceArgs j =>
    simp only [World.step, Store.step, contents_sorted]
    cases ho : w.objs[j]? with
    | none => exact ⟨rfl, rfl, h⟩
    | some o =>
      have ho' : Out { mem := w.mem, self := o } (flatten { mem := w.mem, self := o })
          ((pure (Verif.Core.iter (w.view o)) : Py (St α κ) (List α)) (w.view o)) NewList := by
        rw [flatten_eq (h.own ho)]
        exact new_out (h.own ho).rel
      obtain ⟨h1, h2, h3⟩ := h.runNew ho ho' (h.inv j o ho) rfl
      simp only [Option.map_some]
      rcases hrun : w.run j o flatten with ⟨e | a, w1⟩
      · rw [hrun] at h3; exact h3.elim
      · rw [hrun] at h1 h2 h3
        obtain ⟨h4, h5⟩ := h1.give h3.1 h3.2.2
        refine ⟨?_, ?_, h4⟩
        · rw [← h2]; simp [Store.addList, World.contents]
        · refine h5.trans ?_
          rw [h2, h3.2.1]
          rfl

/-- All events. -/
theorem World.hist {H : HeapAPI α κ} {V : Verif.Methods α κ} (hH : HeapSim H V) {O : Spec.Order α} {I : St α κ → Prop}
    (hL : H.value.Lawful O I) (evs : List (ShareEvent α)) (hv : ∀ ev ∈ evs, ev.Valid) {w : World α κ} (h : w.Good I) :
    (runHist (World.step H) evs w).1 = (runHist (Store.step O) evs w.contents).1 ∧
    (runHist (World.step H) evs w).2.contents = (runHist (Store.step O) evs w.contents).2 ∧
    World.Good I (runHist (World.step H) evs w).2 := by
  induction evs generalizing w with
  | nil => exact ⟨rfl, rfl, h⟩
  | cons ev evs ih =>
    obtain ⟨h1, h2, h3⟩ := World.step_refines hH hL ev (hv ev (by simp)) h
    obtain ⟨h4, h5, h6⟩ := ih (fun e he => hv e (by simp [he])) h3
    rw [h2] at h4 h5
    exact ⟨by simp only [runHist]; rw [h1, h4], h5, h6⟩

/-! ## Any comparison

Nothing is assumed about comparisons and keys here: they may raise, or contradict each other. -/

/-- The lists and sorted lists of `st` other than the named ones are still there in `st'`. -/
structure Frame (L J : Nat → Prop) (st st' : Store α) : Prop where
  lists : ∀ (i : Nat) (l : List α), ¬ L i → st.lists[i]? = some l → st'.lists[i]? = some l
  sorted : ∀ (j : Nat) (l : List α), ¬ J j → st.sorted[j]? = some l → st'.sorted[j]? = some l

namespace Frame
variable {L J : Nat → Prop} {st st' st'' : Store α}

theorem refl : Frame L J st st := ⟨fun _ _ _ h => h, fun _ _ _ h => h⟩

theorem trans (h : Frame L J st st') (h' : Frame L J st' st'') : Frame L J st st'' :=
  ⟨fun i l hn hl => h'.lists i l hn (h.lists i l hn hl), fun j l hn hl => h'.sorted j l hn (h.sorted j l hn hl)⟩

theorem set {j : Nat} {l : List α} (hJ : J j) : Frame L J st { st with sorted := st.sorted.set j l } where
  lists _ _ _ h := h
  sorted k l hk h := by
    have : j ≠ k := fun e => hk (e ▸ hJ)
    simp only [List.getElem?_set, if_neg this]
    exact h

theorem setList {i : Nat} {l : List α} (hL : L i) : Frame L J st { st with lists := st.lists.set i l } where
  lists k l hk h := by
    have : i ≠ k := fun e => hk (e ▸ hL)
    simp only [List.getElem?_set, if_neg this]
    exact h
  sorted _ _ _ h := h

theorem append {l : List α} : Frame L J st { st with sorted := st.sorted ++ [l] } where
  lists _ _ _ h := h
  sorted k l hk h := by
    simp only
    rw [List.getElem?_append_left (List.getElem?_eq_some_iff.1 h).1]
    exact h

theorem appendList {l : List α} : Frame L J st { st with lists := st.lists ++ [l] } where
  lists k l hk h := by
    simp only
    rw [List.getElem?_append_left (List.getElem?_eq_some_iff.1 h).1]
    exact h
  sorted _ _ _ h := h

end Frame

/-- The object was dropped. -/
theorem World.Good.drop {I : St α κ → Prop} {w : World α κ} (h : w.Good I) {c' : Ctx α κ} {s' : St α κ}
    (hr : Rel { mem := w.mem, self := Obj.empty } c' s') :
    World.Good I { w with mem := c'.mem } ∧ World.contents { w with mem := c'.mem } = w.contents := by
  have keep : ∀ a, a < w.mem.vals.length → c'.mem.vals.getD a [] = w.mem.vals.getD a [] := fun a ha =>
    hr.lists.keep a ha (by simp [Obj.empty])
  have kkeep : ∀ a, a < w.mem.keys.length → c'.mem.keys.getD a [] = w.mem.keys.getD a [] := fun a ha =>
    hr.keys.keep a ha (by simp [Obj.empty])
  have hview : ∀ (l : Nat) (o' : Obj κ), w.objs[l]? = some o' →
      Ctx.view ({ mem := c'.mem, self := o' } : Ctx α κ) = Ctx.view { mem := w.mem, self := o' } := by
    intro l o' hl
    apply view_congr
    · exact List.map_congr_left fun a ha => keep a (h.vals.bound (l + 1) o'.lists (by simp [hl]) a ha)
    · exact List.map_congr_left fun a ha => kkeep a (h.keys.bound l o'.keys (by simp [hl]) a ha)
  refine ⟨⟨⟨h.vals.nodup, ?_, h.vals.apart⟩, ⟨h.keys.nodup, ?_, h.keys.apart⟩, ?_⟩, ?_⟩
  · exact fun k as hk a ha => Nat.lt_of_lt_of_le (h.vals.bound k as hk a ha) hr.lists.len
  · exact fun k as hk a ha => Nat.lt_of_lt_of_le (h.keys.bound k as hk a ha) hr.keys.len
  · intro l o' hl
    show I (Ctx.view { mem := c'.mem, self := o' })
    rw [hview l o' hl]
    exact h.inv l o' hl
  · unfold World.contents
    congr 1
    · exact List.map_congr_left fun a ha => keep a (h.vals.bound 0 w.lists rfl a ha)
    · apply List.map_congr_left
      intro o' ho'
      obtain ⟨l, hl⟩ := List.mem_iff_getElem?.1 ho'
      rw [hview l o' hl]

section
variable {H : HeapAPI α κ} {V : Verif.Methods α κ} (hH : HeapSim H V) {w : World α κ}
include hH

theorem World.Good.buildAny {L J : Nat → Prop} (h : w.Good fun _ => True) {src : Source α} {xs : List α}
    (hx : ∀ o, Yields ({ mem := w.mem, self := o } : Ctx α κ) src xs) :
    World.Good (fun _ => True) (w.build H src).2 ∧ Frame L J w.contents (w.build H src).2.contents := by
  unfold World.build
  rcases build_out hH (hx Obj.empty) with ⟨c', s1, e1, e2, h1⟩ | ⟨e, c', s1, e1, e2, h1⟩
  · rw [e1]
    obtain ⟨h2, h3⟩ := h.append h1
    refine ⟨h2 trivial, ?_⟩
    simp only
    rw [h3]; exact Frame.append
  · rw [e1]
    obtain ⟨h2, h3⟩ := h.drop h1
    refine ⟨h2, ?_⟩
    simp only
    rw [h3]; exact Frame.refl

omit hH in
theorem World.Good.runAny {β γ : Type} {R : Ctx α κ → Ctx α κ → β → γ → Prop} {m : Run α κ β} {f : Py (St α κ) γ}
    (h : w.Good fun _ => True) {j : Nat} {o : Obj κ} (ho : w.objs[j]? = some o)
    (hm : Out { mem := w.mem, self := o } (m { mem := w.mem, self := o }) (f (w.view o)) R) {L J : Nat → Prop} (hJ : J j) :
    World.Good (fun _ => True) (w.run j o m).2 ∧ Frame L J w.contents (w.run j o m).2.contents := by
  obtain ⟨h1, h2⟩ := h.run ho hm trivial
  exact ⟨h1, h2 ▸ Frame.set hJ⟩

/-- One event. -/
theorem World.step_frame (ev : ShareEvent α) (h : w.Good fun _ => True) :
    World.Good (fun _ => True) (World.step H ev w).2 ∧
    Frame (fun i => ev.changesList i) (fun j => ev.changesSorted j) w.contents (World.step H ev w).2.contents := by
  have hupd : ∀ (j : Nat) (arg : Arg α) {L J : Nat → Prop}, J j →
      World.Good (fun _ => True) (World.step H (.update j arg) w).2 ∧
      Frame L J w.contents (World.step H (.update j arg) w).2.contents := by
    intro j arg L J hJ
    simp only [World.step]
    cases ho : w.objs[j]? with
    | none => exact ⟨h, Frame.refl⟩
    | some o =>
      cases hs : w.source arg with
      | none => exact ⟨h, Frame.refl⟩
      | some src =>
        obtain ⟨xs, hx, hy, _⟩ := h.source hs
        exact h.runAny ho (hH.methods.update (h.own ho).rel (hy o)) hJ
  have hlist : ∀ {m : Run α κ Addr} {f : Py (St α κ) (List α)} {j : Nat} {o : Obj κ} {L J : Nat → Prop},
      w.objs[j]? = some o → Out { mem := w.mem, self := o } (m { mem := w.mem, self := o }) (f (w.view o)) NewList →
      Verif.Core.iter (f (w.view o)).2 = Verif.Core.iter (w.view o) →
      World.Good (fun _ => True) (match w.run j o m with
        | (.ok a, w) => ((.ok (.newList w.lists.length) : Except PyErr (ShareOut α)), { w with lists := w.lists ++ [a] })
        | (.error e, w) => (.error e, w)).2 ∧
      Frame L J w.contents (World.contents (match w.run j o m with
        | (.ok a, w) => ((.ok (.newList w.lists.length) : Except PyErr (ShareOut α)), { w with lists := w.lists ++ [a] })
        | (.error e, w) => (.error e, w)).2) := by
    intro m f j o L J ho hm hi
    obtain ⟨h1, h2, h3⟩ := h.runNew ho hm trivial hi
    rcases hrun : w.run j o m with ⟨e | a, w1⟩
    · rw [hrun] at h1 h2; exact ⟨h1, h2 ▸ Frame.refl⟩
    · rcases hy : (f (w.view o)).1 with e | l
      · rw [hrun, hy] at h3; exact h3.elim
      · rw [hrun, hy] at h3
        rw [hrun] at h1 h2
        obtain ⟨h4, h5⟩ := h1.give h3.1 h3.2.2
        refine ⟨h4, ?_⟩
        simp only
        rw [h5, ← h2]
        exact Frame.appendList
  have hobj : ∀ {m : Run α κ Addr} {l : List α} {j : Nat} {o : Obj κ} {L J : Nat → Prop},
      w.objs[j]? = some o →
      Out { mem := w.mem, self := o } (m { mem := w.mem, self := o }) ((.ok l : Except PyErr (List α)), w.view o) NewList →
      World.Good (fun _ => True) (match w.run j o m with
        | (.ok a, w) => w.build H (.list a)
        | (.error e, w) => (.error e, w)).2 ∧
      Frame L J w.contents (World.contents (match w.run j o m with
        | (.ok a, w) => w.build H (.list a)
        | (.error e, w) => (.error e, w)).2) := by
    intro m l j o L J ho hm
    obtain ⟨h1, h2, h3⟩ := h.runNew (f := pure l) ho hm trivial rfl
    rcases hrun : w.run j o m with ⟨e | a, w1⟩
    · rw [hrun] at h3; exact h3.elim
    · rw [hrun] at h1 h2 h3
      rw [← h2]
      exact h1.buildAny hH (src := .list a) (fun _ => h3.2.1)
  cases ev with
  | newList xs =>
    have hp := (h.vals.part (k := 0) rfl).push xs
    have hf := (h.vals.part (k := 0) rfl).fresh_push xs
    obtain ⟨h1, h2⟩ := h.client (hp.append hf (l := xs) getD_push_self)
    refine ⟨h1, ?_⟩
    simp only [World.step]
    rw [h2]
    exact Frame.appendList
  | mutate i f =>
    simp only [World.step]
    cases hi : w.lists[i]? with
    | none => exact ⟨h, Frame.refl⟩
    | some a =>
      obtain ⟨h1, h2⟩ := h.client ((h.vals.part (k := 0) rfl).put hi (f (w.mem.vals.getD a [])))
      refine ⟨h1, ?_⟩
      simp only
      rw [h2]
      exact Frame.setList (i := i) rfl
  | read i =>
    simp only [World.step]
    cases hi : w.lists[i]? with
    | none => exact ⟨h, Frame.refl⟩
    | some a => exact ⟨h, Frame.refl⟩
  | construct arg =>
    simp only [World.step]
    cases hs : w.source arg with
    | none => exact ⟨h, Frame.refl⟩
    | some src =>
      obtain ⟨xs, hx, hy, _⟩ := h.source hs
      exact h.buildAny hH hy
  | call j op =>
    simp only [World.step]
    cases ho : w.objs[j]? with
    | none => exact ⟨h, Frame.refl⟩
    | some o => exact h.runAny ho (call_out hH op (h.own ho).rel) rfl
  | update j arg => exact hupd j arg rfl
  | iadd j arg => exact hupd j arg rfl
  | concat j arg =>
    simp only [World.step]
    cases ho : w.objs[j]? with
    | none => exact ⟨h, Frame.refl⟩
    | some o =>
      cases hs : w.source arg with
      | none => exact ⟨h, Frame.refl⟩
      | some src =>
        obtain ⟨xs, hx, hy, hlt⟩ := h.source hs
        exact hobj ho (Core.concatArg_out (h.own ho).rel (hy o) hlt)
  | copy j =>
    simp only [World.step, World.source]
    cases ho : w.objs[j]? with
    | none => exact ⟨h, Frame.refl⟩
    | some o => exact h.buildAny hH (src := .values (Verif.Core.iter (w.view o))) fun _ => rfl
  | mul j n =>
    simp only [World.step]
    cases ho : w.objs[j]? with
    | none => exact ⟨h, Frame.refl⟩
    | some o => exact hobj ho (Core.repeated_out n (h.own ho).rel)
  | slice j sl =>
    simp only [World.step]
    cases ho : w.objs[j]? with
    | none => exact ⟨h, Frame.refl⟩
    | some o =>
      refine hlist ho (Core.getSlice_out H.M.ilog2 sl (h.own ho).rel) ?_
      obtain ⟨i, f, e⟩ := (Verif.Core.getSlice_quiet H.M.ilog2 sl).reindexed (w.view o)
      rw [e]
      rfl
  | reduceArgs j =>
    simp only [World.step]
    cases ho : w.objs[j]? with
    | none => exact ⟨h, Frame.refl⟩
    | some o =>
      refine hlist (f := pure (Verif.Core.iter (w.view o))) ho ?_ rfl
      rw [flatten_eq (h.own ho)]
      exact new_out (h.own ho).rel

/-- The client's lists and the sorted lists stay apart for ever. -/
theorem World.good_hist (evs : List (ShareEvent α)) (h : w.Good fun _ => True) :
    World.Good (fun _ => True) (runHist (World.step H) evs w).2 := by
  induction evs generalizing w with
  | nil => exact h
  | cons ev evs ih => exact ih (World.step_frame hH ev h).1

end

end Heap
end Verif
