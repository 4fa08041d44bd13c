import Verif.Proofs.InterruptSS
import Verif.Proofs.InterruptSD
/-!
# Interrupted calls on sorted sets and dicts: histories with any number of interruptions
-/

namespace Verif
variable {α κ ν τ β σ : Type}

/-- The load factor is positive, and the list holds only values with `V`. -/
def ListClass.Holds (V : α → Prop) : (c : ListClass α) → c.State → Prop
  | .plain _ => fun (s : St α α) => Verif.Holds V s
  | .keyed (κ := κ) _ => fun (s : St α κ) => Verif.Holds V s

/-- The methods keep `H`, a property of lists that hold only values with `V`. -/
structure IListAPI.Keeps (IL : IListAPI σ α) (L : ListAPI σ α) (H : σ → Prop) (V : α → Prop) : Prop where
  iter : ∀ s, H s → ∀ v ∈ L.iter s, V v
  add : ∀ v, V v → Thru H (fun _ => True) (IL.add v)
  update : ∀ vs, (∀ v ∈ vs, V v) → Thru H (fun _ => True) (IL.update vs)
  clear : Thru H (fun _ => True) IL.clear
  remove : ∀ v, Thru H (fun _ => True) (IL.remove v)
  getInt : ∀ i, Thru H (fun _ => True) (IL.getInt i)
  getSlice : ∀ sl, Thru H (fun _ => True) (IL.getSlice sl)
  delInt : ∀ i, Thru H (fun _ => True) (IL.delInt i)
  delSlice : ∀ sl, Thru H (fun _ => True) (IL.delSlice sl)
  pop : ∀ i, Thru H (fun _ => True) (IL.pop i)
  bisectLeft : ∀ v, Thru H (fun _ => True) (IL.bisectLeft v)
  bisectRight : ∀ v, Thru H (fun _ => True) (IL.bisectRight v)
  index : ∀ v a b, Thru H (fun _ => True) (IL.index v a b)
  islice : ∀ a b r, Thru H (fun _ => True) (IL.islice a b r)
  reset : ∀ load, 1 ≤ load → Thru H (fun _ => True) (IL.reset load)
  irange : ∀ s lo hi a b r, (L.irange lo hi a b r s).2 = s

section Lists
variable {V : α → Prop}

theorem Interrupt.SL.keeps {E : Env α} (hE : E.Sane) : (Interrupt.SL.api E).Keeps (Verif.SL.api E) (Holds V) V where
  iter := fun _ h => h.2.flatten
  add := fun _ h => add_thru h
  update := fun _ h => update_thru hE h
  clear := clear_thru
  remove := remove_thru
  getInt := fun i => Thru.of_tr fun _ => getInt_tr (Holds.noIndex V) i
  getSlice := fun sl => Thru.of_tr fun _ => getSlice_tr (Holds.noIndex V) sl
  delInt := (thruM hE).delInt
  delSlice := (thruM hE).delSlice
  pop := (thruM hE).pop
  bisectLeft := fun v => Thru.of_tr fun _ => bisect_left_tr (Holds.noIndex V) v
  bisectRight := fun v => Thru.of_tr fun _ => bisect_right_tr (Holds.noIndex V) v
  index := fun v a b => Thru.of_tr fun _ => index_tr (Holds.noIndex V) v a b
  islice := fun a b r => Thru.of_tr fun _ => islice_tr (Holds.noIndex V) a b r
  reset := fun _ h => (thruM hE).reset h
  irange := fun s lo hi a b r => Verif.SL.irange_stays E lo hi a b r s

theorem Interrupt.SKL.keeps {K : KEnv α κ} (hK : K.Sane) : (Interrupt.SKL.api K).Keeps (Verif.SKL.api K) (Holds V) V where
  iter := fun _ h => h.2.flatten
  add := fun _ h => add_thru h
  update := fun _ h => update_thru hK h
  clear := clear_thru
  remove := remove_thru
  getInt := fun i => Thru.of_tr fun _ => getInt_tr (Holds.noIndex V) i
  getSlice := fun sl => Thru.of_tr fun _ => getSlice_tr (Holds.noIndex V) sl
  delInt := (thruM hK).delInt
  delSlice := (thruM hK).delSlice
  pop := (thruM hK).pop
  bisectLeft := fun v => Thru.of_tr fun _ => bisect_left_tr (Holds.noIndex V) v
  bisectRight := fun v => Thru.of_tr fun _ => bisect_right_tr (Holds.noIndex V) v
  index := fun v a b => Thru.of_tr fun _ => index_tr (Holds.noIndex V) v a b
  islice := fun a b r => Thru.of_tr fun _ => islice_tr (Holds.noIndex V) a b r
  reset := fun _ h => (thruM hK).reset h
  irange := fun s lo hi a b r => Verif.SKL.irange_stays K lo hi a b r s

theorem ListClass.Calls.keeps {c : ListClass α} {IL : IListAPI c.State α} {L : ListAPI c.State α} (h : c.Calls IL L) : IL.Keeps L (c.Holds V) V := by
  cases c with
  | plain E => obtain ⟨E, hE, rfl, rfl⟩ := h; exact Interrupt.SL.keeps hE
  | keyed K => obtain ⟨K, hK, rfl, rfl⟩ := h; exact Interrupt.SKL.keeps hK

theorem ListClass.Calls.new {c : ListClass α} {IL : IListAPI c.State α} {L : ListAPI c.State α} (h : c.Calls IL L) {xs : Option (List α)} {s : c.State}
    (e : L.new xs = .ok s) (hv : ∀ v ∈ xs.getD [], V v) : c.Holds V s := by
  cases c with
  | plain E =>
    obtain ⟨E, hE, rfl, rfl⟩ := h
    obtain ⟨h1, h2⟩ := Verif.SL.new_whole hE e
    exact ⟨h1.load_pos, fun l hl v hm => hv v (h2.mem_iff.1 (List.mem_flatten.2 ⟨l, hl, hm⟩))⟩
  | keyed K =>
    obtain ⟨K, hK, rfl, rfl⟩ := h
    obtain ⟨h1, h2⟩ := Verif.SKL.new_whole hK e
    exact ⟨h1.load_pos, fun l hl v hm => hv v (h2.mem_iff.1 (List.mem_flatten.2 ⟨l, hl, hm⟩))⟩

theorem ListClass.Holds.reindexed {c : ListClass α} {s s' : c.State} (h : c.Reindexed s s') (hs : c.Holds V s) : c.Holds V s' := by
  cases c with
  | plain E => obtain ⟨i, o, rfl⟩ := h; exact hs
  | keyed K => obtain ⟨i, o, rfl⟩ := h; exact hs

end Lists

theorem Thru.still {P : σ → Prop} {m : Py σ β} (h : ∀ s, (m s).2 = s) : Thru P (fun _ => True) (IPy.still m) := fun s hh hs =>
  ⟨[], (List.append_nil _).symm, by simp, by show P (m s).2; rw [h]; exact hs, fun _ _ => trivial⟩

/-! ## SortedSet -/

namespace Interrupt.SS
variable {S : SetOps τ α} {eqv : α → α → Bool} {IL : IListAPI σ α} {L : ListAPI σ α} {H : σ → Prop} {V : α → Prop}

/-- The values of the set and those of the list have `V`. -/
def Keep (S : SetOps τ α) (H : σ → Prop) (V : α → Prop) (s : SS τ σ) : Prop := H s.list ∧ ∀ v, S.mem v s.set = true → V v

section
variable (hS : S.Lawful eqv) (hk : IL.Keeps L H V) (hV : ∀ a b, eqv a b = true → V a → V b)

theorem onList_thru {mt : IPy σ β} (h : Thru H (fun _ => True) mt) : Thru (Keep S H V) (fun _ => True) (onList mt) :=
  h.ssList (fun _ hs => hs.1) fun _ _ hs hl => ⟨hl, hs.2⟩

include hS in
theorem mem_self {t : τ} {v : α} (h : v ∈ S.toList t) : S.mem v t = true := by
  rw [hS.mem]; exact List.any_eq_true.2 ⟨v, h, hS.refl v⟩

include hS hV in
theorem vals_iff {t : τ} : (∀ v, S.mem v t = true → V v) ↔ ∀ v ∈ S.toList t, V v := by
  constructor
  · exact fun h v hv => h v (mem_self hS hv)
  · intro h v hv
    rw [hS.mem] at hv
    obtain ⟨y, hy, e⟩ := List.any_eq_true.1 hv
    exact hV _ _ e (h y hy)

theorem mem_addNew {l : List α} {x y : α} (h : y ∈ addNew eqv l x) : y ∈ l ∨ y = x := by
  unfold addNew at h
  split at h
  · exact .inl h
  · rcases List.mem_append.1 h with h | h
    · exact .inl h
    · exact .inr (List.mem_singleton.1 h)

theorem mem_foldl_addNew {xs : List α} : ∀ {l : List α} {y : α}, y ∈ xs.foldl (addNew eqv) l → y ∈ l ∨ y ∈ xs := by
  induction xs with
  | nil => exact fun h => .inl h
  | cons x xs ih =>
    intro l y h
    rcases ih h with h | h
    · rcases mem_addNew h with h | rfl
      · exact .inl h
      · exact .inr (List.mem_cons_self ..)
    · exact .inr (List.mem_cons_of_mem _ h)

include hS hV in
theorem setRemove_thru (v : α) : Thru (Keep S H V) (fun _ => True) (setRemove S v : IPy (SS τ σ) Unit) := by
  refine Thru.get_bind fun s hs => Thru.lift_bind fun t ht => Thru.write fun s' hs' => ⟨hs'.1, ?_⟩
  by_cases hm : (S.toList s.set).any (eqv · v) = true
  · obtain ⟨t', e, hp⟩ := hS.remove v s.set hm
    rw [e] at ht
    cases ht
    rw [vals_iff hS hV]
    exact fun y hy => (vals_iff hS hV).1 hs.2 y (List.mem_filter.1 (hp.mem_iff.1 hy)).1
  · rw [hS.remove_absent v s.set (by simpa using hm)] at ht
    cases ht

include hS hk in
theorem rebuild_thru : Thru (Keep S H V) (fun _ => True) (rebuild S IL) :=
  Thru.bind (onList_thru hk.clear) fun _ _ => Thru.get_bind fun _ hs => onList_thru (hk.update _ fun v hv => hs.2 v (mem_self hS hv))

include hS hV hk in
theorem add_thru {v : α} (hv : V v) : Thru (Keep S H V) (fun _ => True) (add S IL v) := by
  refine Thru.get_bind fun s hs => Thru.ite (fun _ => Thru.pure trivial) fun _ => Thru.write_bind (fun s hs => ⟨hs.1, ?_⟩) (onList_thru (hk.add v hv))
  rw [vals_iff hS hV]
  intro y hy
  rcases mem_addNew ((hS.add v s.set).mem_iff.1 hy) with h | rfl
  · exact (vals_iff hS hV).1 hs.2 y h
  · exact hv

include hS hV hk in
theorem discard_thru (v : α) : Thru (Keep S H V) (fun _ => True) (discard S IL v) :=
  Thru.get_bind fun _ _ => Thru.ite (fun _ => Thru.bind (setRemove_thru hS hV v) fun _ _ => onList_thru (hk.remove v)) fun _ => Thru.pure trivial

include hS hV in
theorem differenceUpdate_vals (xs : List α) {s : SS τ σ} (hs : Keep S H V s) : Keep S H V { s with set := S.differenceUpdate xs s.set } := by
  refine ⟨hs.1, ?_⟩
  rw [vals_iff hS hV]
  exact fun y hy => (vals_iff hS hV).1 hs.2 y (List.mem_filter.1 ((hS.differenceUpdate _ _).mem_iff.1 hy)).1

include hS hV hk in
theorem step_thru (op : SSOp α) (hv : op.Valid) (hi : ∀ v ∈ op.inserted, V v) : Thru (Keep S H V) (fun _ => True) (step S IL L op) := by
  have q : ∀ {β : Type} {mt : IPy σ β} {f : β → Out α}, Thru H (fun _ => True) mt → Thru (Keep S H V) (fun _ => True) (Spec.out f (onList mt : IPy (SS τ σ) β)) :=
    fun ht => (onList_thru ht).out _
  have vo : ∀ f (s : SS τ σ), (Verif.SS.valuesOf L f s).2 = s := fun f s => by unfold Verif.SS.valuesOf; split <;> rfl
  cases op with
  | add v => exact (add_thru hS hk hV (hi v (by simp [SSOp.inserted]))).out _
  | discard v => exact (discard_thru hS hk hV v).out _
  | remove v => exact (Thru.bind (setRemove_thru hS hV v) fun _ _ => onList_thru (hk.remove v)).out _
  | pop i =>
    exact (Thru.bind (onList_thru (hk.pop i)) fun v _ => Thru.bind (setRemove_thru hS hV v) fun _ _ => Thru.pure (Q := fun _ => True) trivial).out _
  | delInt i =>
    exact (Thru.bind (onList_thru (hk.getInt i)) fun v _ => Thru.bind (setRemove_thru hS hV v) fun _ _ => onList_thru (hk.delInt i)).out _
  | delSlice sl =>
    exact (Thru.bind (onList_thru (hk.getSlice sl)) fun vs _ => Thru.write_bind (fun s hs => differenceUpdate_vals hS hV vs hs) (onList_thru (hk.delSlice sl))).out _
  | clear =>
    refine (Thru.write_bind (fun s hs => ⟨hs.1, ?_⟩) (onList_thru hk.clear)).out _
    rw [vals_iff hS hV, hS.empty]; nofun
  | update xss =>
    have hx : ∀ v ∈ S.toList (S.ofList xss.flatten), V v := fun v hv => by
      rcases mem_foldl_addNew ((hS.ofList _).mem_iff.1 hv) with h | h
      · cases h
      · exact hi v h
    refine (Thru.get_bind fun s hs => Thru.ite (fun _ => Thru.write_bind (fun s hs => ⟨hs.1, ?_⟩) (rebuild_thru hS hk)) fun _ =>
      Thru.forEach fun v hv => add_thru hS hk hV (hx v hv)).out _
    rw [vals_iff hS hV]
    intro y hy
    rcases mem_foldl_addNew ((hS.update _ _).mem_iff.1 hy) with h | h
    · exact (vals_iff hS hV).1 hs.2 y h
    · exact hx y h
  | differenceUpdate xss =>
    exact (Thru.get_bind fun s hs => Thru.ite (fun _ => Thru.write_bind (fun s hs => differenceUpdate_vals hS hV _ hs) (rebuild_thru hS hk)) fun _ =>
      Thru.forEach fun v hv => discard_thru hS hk hV v).out _
  | intersectionUpdate xss =>
    refine (Thru.write_bind (fun s hs => ⟨hs.1, fun v hv => hs.2 v ?_⟩) (rebuild_thru hS hk)).out _
    rw [hS.mem, hS.intersectionUpdate, Bool.and_eq_true] at hv
    rw [hS.mem]; exact hv.1
  | symmetricDifferenceUpdate xs =>
    refine (Thru.write_bind (fun s hs => ⟨hs.1, fun v hv => ?_⟩) (rebuild_thru hS hk)).out _
    rw [hS.mem, hS.symmetricDifferenceUpdate] at hv
    by_cases h1 : (S.toList s.set).any (eqv · v) = true
    · exact hs.2 v (by rw [hS.mem]; exact h1)
    · rw [Bool.not_eq_true] at h1
      rw [h1] at hv
      have hv : xs.any (eqv · v) = true := by simpa using hv
      obtain ⟨y, hy, e⟩ := List.any_eq_true.1 hv
      exact hV _ _ e (hi y hy)
  | getInt i => exact q (hk.getInt i)
  | getSlice sl => exact q (hk.getSlice sl)
  | bisectLeft v => exact q (hk.bisectLeft v)
  | bisectRight v => exact q (hk.bisectRight v)
  | index v a b => exact q (hk.index v a b)
  | islice a b c => exact q (hk.islice a b c)
  | reset n => exact q (hk.reset n hv)
  | irange lo up a b c =>
    exact Thru.still fun s => by rw [Verif.SS.step, Spec.out_snd]; exact congrArg (fun l => ({ s with list := l } : SS τ σ)) (hk.irange s.list lo up a b c)
  | copy => exact Thru.still fun s => by rw [Verif.SS.step, Spec.out_snd, vo]
  | union xss => exact Thru.still fun s => by rw [Verif.SS.step, Spec.out_snd, vo]
  | intersection xss => exact Thru.still fun s => by rw [Verif.SS.step, Spec.out_snd, vo]
  | difference xss => exact Thru.still fun s => by rw [Verif.SS.step, Spec.out_snd, vo]
  | symmetricDifference xs => exact Thru.still fun s => by rw [Verif.SS.step, Spec.out_snd, vo]
  | _ => exact Thru.still fun _ => rfl

end

end Interrupt.SS

theorem SS.Cut.keep {S : SetOps τ α} {eqv : α → α → Bool} {c : ListClass α} {V : α → Prop} (hS : S.Lawful eqv) (hV : ∀ a b, eqv a b = true → V a → V b)
    {s : SS τ c.State} (h : SS.Cut S c V s) : Interrupt.SS.Keep S (c.Holds V) V s := by
  induction h with
  | new hc e =>
    unfold SS.new at e
    split at e
    · cases e
    · rename_i l el
      cases e
      refine ⟨hc.new el (by rw [hS.empty]; nofun), ?_⟩
      rw [Interrupt.SS.vals_iff hS hV, hS.empty]; nofun
  | fromset hc e hv =>
    unfold SS.fromset at e
    split at e
    · rename_i l el
      cases e
      exact ⟨hc.new el hv, (Interrupt.SS.vals_iff hS hV).2 hv⟩
    · cases e
  | done op hc hv hi _ _ ih => exact (Interrupt.SS.step_thru hS hc.keeps hV op hv hi).run ih
  | cut op hc hv hi _ hx ih => exact (Interrupt.SS.step_thru hS hc.keeps hV op hv hi).points ih _ hx
  | rest _ hl ih => exact ⟨ih.1.reindexed hl, ih.2⟩

/-! ## SortedDict -/

namespace Interrupt.SD
open PyDict
variable {eqv : κ → κ → Bool} {IL : IListAPI σ κ} {L : ListAPI σ κ} {H : σ → Prop} {V : κ → ν → Prop}

/-- The items of the dict have `V`, and its keys are distinct. -/
def Keep (eqv : κ → κ → Bool) (H : σ → Prop) (V : κ → ν → Prop) (s : SD κ ν σ) : Prop := H s.list ∧ (∀ p ∈ s.dict, V p.1 p.2) ∧ Keyed eqv s.dict

variable (he : IsEquiv eqv) (hk : IL.Keeps L H fun k => ∃ v, V k v) (hV : ∀ a b v, eqv a b = true → V a v → V b v)

theorem onList_thru {mt : IPy σ β} (h : Thru H (fun _ => True) mt) : Thru (Keep eqv H V) (fun _ => True) (onList mt) :=
  h.sdList (fun _ hs => hs.1) fun _ _ hs hl => ⟨hl, hs.2⟩

include he hV in
theorem set_vals {d : List (κ × ν)} (hd : ∀ p ∈ d, V p.1 p.2) {k : κ} {v : ν} (hv : V k v) : ∀ p ∈ PyDict.set eqv d k v, V p.1 p.2 := by
  intro p hp
  unfold PyDict.set at hp
  split at hp
  · obtain ⟨q, hq, rfl⟩ := List.mem_map.1 hp
    by_cases hqk : eqv q.1 k = true
    · rw [if_pos hqk]; exact hV _ _ _ (by rw [he.symm]; exact hqk) hv
    · rw [if_neg hqk]; exact hd q hq
  · rcases List.mem_append.1 hp with h | h
    · exact hd p h
    · rw [List.mem_singleton.1 h]; exact hv

include he hV in
theorem update_vals {ps : List (κ × ν)} : ∀ {d : List (κ × ν)}, (∀ p ∈ d, V p.1 p.2) → (∀ p ∈ ps, V p.1 p.2) → ∀ p ∈ PyDict.update eqv d ps, V p.1 p.2 := by
  induction ps with
  | nil => exact fun hd _ => hd
  | cons p ps ih => exact fun hd hp => ih (set_vals he hV hd (hp p (List.mem_cons_self ..))) fun q hq => hp q (List.mem_cons_of_mem _ hq)

theorem erase_vals {d : List (κ × ν)} (hd : ∀ p ∈ d, V p.1 p.2) (k : κ) : ∀ p ∈ PyDict.erase eqv d k, V p.1 p.2 :=
  fun p hp => hd p (List.mem_filter.1 hp).1

theorem dictDelitem_thru (k : κ) : Thru (Keep eqv H V) (fun _ => True) (dictDelitem eqv k : IPy (SD κ ν σ) Unit) :=
  Thru.get_bind fun _ _ => Thru.ite (fun _ => Thru.write fun _ hs => ⟨hs.1, erase_vals hs.2.1 k, hs.2.2.erase k⟩) fun _ => Thru.raise _

theorem dictPop_thru (k : κ) : Thru (Keep eqv H V) (fun _ => True) (dictPop eqv k : IPy (SD κ ν σ) ν) :=
  Thru.get_bind fun _ _ => Thru.lift_bind fun _ _ => Thru.write_bind (fun _ hs => ⟨hs.1, erase_vals hs.2.1 k, hs.2.2.erase k⟩) (Thru.pure trivial)

theorem getitem_thru (k : κ) : Thru (Keep eqv H V) (fun _ => True) (getitem eqv k : IPy (SD κ ν σ) ν) := Thru.still fun _ => rfl

include he hV in
theorem onDictSet_thru {k : κ} {v : ν} (hv : V k v) : Thru (Keep eqv H V) (fun _ => True) (onDict (fun d => PyDict.set eqv d k v) : IPy (SD κ ν σ) Unit) :=
  Thru.write (P := Keep eqv H V) (g := fun s : SD κ ν σ => { s with dict := PyDict.set eqv s.dict k v }) fun _ hs => ⟨hs.1, set_vals he hV hs.2.1 hv, hs.2.2.set k v⟩

include he hV in
theorem dictUpdate_thru {arg : DictArg κ ν} (hv : ∀ p ∈ arg.items, V p.1 p.2) : Thru (Keep eqv H V) (fun _ => True) (dictUpdate eqv arg : IPy (SD κ ν σ) Unit) := by
  cases arg with
  | dict items => exact Thru.write fun _ hs => ⟨hs.1, update_vals he hV hs.2.1 hv, hs.2.2.update _⟩
  | pairs items fail =>
    refine Thru.bind (Thru.forEach fun p hp => onDictSet_thru he hV (hv p hp)) fun _ _ => ?_
    cases fail with
    | none => exact Thru.pure trivial
    | some e => exact Thru.raise _

include he hV hk in
theorem setitem_thru {k : κ} {v : ν} (hv : V k v) : Thru (Keep eqv H V) (fun _ => True) (setitem eqv IL k v) :=
  Thru.get_bind fun _ _ => Thru.ite (fun _ => onDictSet_thru he hV hv) fun _ => Thru.bind (onList_thru (hk.add k ⟨v, hv⟩)) fun _ _ => onDictSet_thru he hV hv

include hk in
theorem updateKeys_thru : Thru (Keep eqv H V) (fun _ => True) (do
    let s ← IPy.get
    onList (IL.update (PyDict.keys s.dict)) : IPy (SD κ ν σ) Unit) :=
  Thru.get_bind fun s hs => onList_thru (hk.update _ fun k hm => by
    obtain ⟨p, hp, rfl⟩ := List.mem_map.1 hm
    exact ⟨p.2, hs.2.1 p hp⟩)

include he hV hk in
theorem update_thru {arg : DictArg κ ν} (hv : ∀ p ∈ arg.items, V p.1 p.2) : Thru (Keep eqv H V) (fun _ => True) (update eqv IL arg) := by
  refine Thru.get_bind fun s hs => Thru.ite (fun _ => Thru.bind (dictUpdate_thru he hV hv) fun _ _ => updateKeys_thru hk) fun _ => Thru.lift_bind fun pairs hp => ?_
  have hps : ∀ p ∈ pairs, V p.1 p.2 := by
    cases arg with
    | dict items => cases hp; exact hv
    | pairs items fail =>
      cases fail with
      | none => cases hp; exact update_vals he hV nofun hv
      | some e => cases hp
  exact Thru.ite (fun _ => Thru.bind (dictUpdate_thru he hV hps) fun _ _ => Thru.bind (onList_thru hk.clear) fun _ _ => updateKeys_thru hk) fun _ =>
    Thru.forEach fun p hp => setitem_thru he hk hV (hps p hp)

theorem dout_thru {P : σ → Prop} {Q : β → Prop} {mt : IPy σ β} (h : Thru P Q mt) (f : β → DOut κ ν) : Thru P (fun _ => True) (out f mt) :=
  Thru.bind h fun b _ => Thru.pure (b := f b) trivial

include he hV hk in
theorem step_thru (op : SDOp κ ν) (hv : ∀ load, op = .reset load → 1 ≤ load) (hi : ∀ p ∈ op.inserted, V p.1 p.2) :
    Thru (Keep eqv H V) (fun _ => True) (step eqv IL L op) := by
  have q : ∀ {β : Type} {mt : IPy σ β} {f : β → DOut κ ν}, Thru H (fun _ => True) mt → Thru (Keep eqv H V) (fun _ => True) (out f (onList mt : IPy (SD κ ν σ) β)) :=
    fun ht => dout_thru (onList_thru ht) _
  have io : ∀ f (s : SD κ ν σ), (Verif.SD.itemsOf eqv L f s).2 = s := fun f s => by unfold Verif.SD.itemsOf; split <;> rfl
  cases op with
  | setitem k v => exact dout_thru (setitem_thru he hk hV (hi (k, v) (by simp [SDOp.inserted]))) _
  | delitem k => exact dout_thru (Thru.bind (dictDelitem_thru k) fun _ _ => onList_thru (hk.remove k)) _
  | clear => exact dout_thru (Thru.write_bind (fun s hs => ⟨hs.1, nofun, Keyed.nil⟩) (onList_thru hk.clear)) _
  | pop k d =>
    refine dout_thru (Q := fun _ => True) (Thru.get_bind fun _ _ => Thru.ite (fun _ => Thru.bind (onList_thru (hk.remove k)) fun _ _ => dictPop_thru k) fun _ => ?_) _
    cases d with
    | none => exact Thru.raise _
    | some v => exact Thru.pure trivial
  | popitem i =>
    exact dout_thru (Q := fun _ => True) (Thru.get_bind fun _ _ => Thru.ite (fun _ => Thru.raise _) fun _ => Thru.bind (onList_thru (hk.pop i)) fun k _ =>
      Thru.bind (dictPop_thru k) fun _ _ => Thru.pure trivial) _
  | setdefault k v =>
    have hv : V k v := hi (k, v) (by simp [SDOp.inserted])
    exact dout_thru (Q := fun _ => True) (Thru.get_bind fun _ _ => Thru.ite (fun _ => getitem_thru k) fun _ => Thru.bind (onDictSet_thru he hV hv) fun _ _ =>
      Thru.bind (onList_thru (hk.add k ⟨v, hv⟩)) fun _ _ => Thru.pure trivial) _
  | update arg => exact dout_thru (update_thru he hk hV hi) _
  | viewDelInt i => exact dout_thru (Thru.bind (onList_thru (hk.pop i)) fun k _ => dictDelitem_thru k) _
  | viewDelSlice sl =>
    exact dout_thru (Thru.bind (onList_thru (hk.getSlice sl)) fun ks _ => Thru.bind (onList_thru (hk.delSlice sl)) fun _ _ =>
      Thru.forEach fun k _ => dictDelitem_thru k) _
  | peekitem i | itemsAt i =>
    exact dout_thru (Q := fun _ => True) (Thru.bind (onList_thru (hk.getInt i)) fun k _ => Thru.bind (getitem_thru k) fun v _ => Thru.pure trivial) _
  | valuesAt i => exact dout_thru (Thru.bind (onList_thru (hk.getInt i)) fun k _ => getitem_thru k) _
  | itemsSlice sl =>
    exact dout_thru (Thru.bind (onList_thru (hk.getSlice sl)) fun ks _ =>
      Thru.mapEach (Q' := fun _ => True) (fun k => Thru.bind (getitem_thru k) fun v _ => Thru.pure trivial) ks) _
  | valuesSlice sl =>
    exact dout_thru (Thru.bind (onList_thru (hk.getSlice sl)) fun ks _ => Thru.mapEach getitem_thru ks) _
  | keysAt i => exact q (hk.getInt i)
  | keysSlice sl => exact q (hk.getSlice sl)
  | bisectLeft k => exact q (hk.bisectLeft k)
  | bisectRight k => exact q (hk.bisectRight k)
  | index k a b => exact q (hk.index k a b)
  | islice a b c => exact q (hk.islice a b c)
  | reset n => exact q (hk.reset n (hv n rfl))
  | irange lo up a b c =>
    exact Thru.still fun s => by rw [Verif.SD.step, out_snd]; exact congrArg (fun l => ({ s with list := l } : SD κ ν σ)) (hk.irange s.list lo up a b c)
  | copy => exact Thru.still fun s => by rw [Verif.SD.step, out_snd, io]
  | or d => exact Thru.still fun s => by rw [Verif.SD.step, out_snd, io]
  | ror d => exact Thru.still fun s => by rw [Verif.SD.step, out_snd, io]
  | items => exact Thru.still fun s => by rw [Verif.SD.step, out_snd]; rfl
  | values => exact Thru.still fun s => by rw [Verif.SD.step, out_snd]; rfl
  | getitem k => exact Thru.still fun s => by rw [Verif.SD.step, out_snd]; rfl
  | _ => exact Thru.still fun _ => rfl

end Interrupt.SD

theorem SD.Cut.keep {eqv : κ → κ → Bool} {c : ListClass κ} {V : κ → ν → Prop} (he : IsEquiv eqv) (hV : ∀ a b v, eqv a b = true → V a v → V b v)
    {s : SD κ ν c.State} (h : SD.Cut eqv c V s) : Interrupt.SD.Keep eqv (c.Holds fun k => ∃ v, V k v) V s := by
  induction h with
  | new hc e => exact ⟨hc.new e nofun, nofun, PyDict.Keyed.nil⟩
  | done op hc hv hi _ _ ih => exact (Interrupt.SD.step_thru he hc.keeps hV op hv hi).run ih
  | cut op hc hv hi _ hx ih => exact (Interrupt.SD.step_thru he hc.keeps hV op hv hi).points ih _ hx
  | rest _ hl ih => exact ⟨ih.1.reindexed hl, ih.2⟩

/-! ## The start of a call, and queries -/

theorem ListClass.Holds.load_pos {c : ListClass α} {V : α → Prop} {s : c.State} (h : c.Holds V s) : 1 ≤ c.load s := by
  cases c with
  | plain E => exact h.1
  | keyed K => exact h.1

namespace Interrupt.SS
open Verif.SS (Good iter Alike)
variable {S : SetOps τ α} {IL : IListAPI σ α} {L : ListAPI σ α} {O : Spec.Order α} {eqv : α → α → Bool} {I : σ → Prop} {s : SS τ σ} {like : σ → σ → Prop}

theorem left_start (h : Good S L O eqv I) (load : σ → Nat) (hs : Verif.SS.Inv S L I s) (op : SSOp α) :
    Left S L load op s (Verif.SS.step S L op s).2 s := by
  cases op with
  | add | discard | remove | delInt | clear | intersectionUpdate | symmetricDifferenceUpdate => exact ⟨.inl rfl, .inl ⟨rfl, rfl⟩⟩
  | pop => exact ⟨.inl rfl, .inl rfl⟩
  | delSlice => exact ⟨⟨_, .refl _, .refl _ _⟩, .inl ⟨rfl, rfl⟩⟩
  | reset => exact ⟨.refl _, rfl⟩
  | update xss =>
    obtain ⟨s1, e, h1, h2⟩ := Verif.SS.update_ok h xss hs
    rw [Verif.SS.step, Spec.out_snd, e]
    refine ⟨.trans (.of_perm h2.symm) (.foldl_addNew eqv _ _), fun _ hw => hw, fun w hw => ?_, fun w hw => mem_iter h hs hw⟩
    have h2' : (L.iter s1.list).Perm _ := h2
    rw [Verif.SS.Inv.mem h h1, any_perm h2', any_foldl_addNew h.equiv]
    rw [Verif.SS.Inv.mem h hs] at hw
    show ((L.iter s.list).any _ || _) = true
    rw [hw]; rfl
  | differenceUpdate xss =>
    obtain ⟨s1, e, h1, h2⟩ := Verif.SS.differenceUpdate_ok h xss hs
    rw [Verif.SS.step, Spec.out_snd, e]
    refine ⟨⟨_, .refl _, .refl _ _⟩, fun w hw => ?_, fun _ hw => hw⟩
    have h2' : (L.iter s1.list).Perm _ := h2
    rw [Verif.SS.Inv.mem h h1, any_perm h2'] at hw
    rw [Verif.SS.Inv.mem h hs]
    obtain ⟨y, hy, hyw⟩ := List.any_eq_true.1 hw
    exact List.any_eq_true.2 ⟨y, (List.mem_filter.1 hy).1, hyw⟩
  | _ => exact ⟨rfl, rfl⟩

theorem query_trace (ha : IL.Asks L like) (s : SS τ σ) {op : SSOp α} (hq : op.isQuery = true) :
    Trace (Alike like) (Alike like s) (step S IL L op) (Verif.SS.step S L op) s := by
  have q : ∀ {β : Type} {mt : IPy σ β} {m : Py σ β} (f : β → Out α), Trace like (like s.list) mt m s.list →
      Trace (Alike like) (Alike like s) (Spec.out f (onList mt)) (Spec.out f (Verif.SS.onList m)) s := fun f ht =>
    (onList_like ha.refl ht fun l hl => ⟨rfl, hl⟩).out (alike_refl ha.refl) f
  have r : ∀ {β : Type} {m : Py (SS τ σ) β}, (m s).2 = s → Trace (Alike like) (Alike like s) (IPy.still m) m s := fun hm =>
    Trace.of_still (alike_refl ha.refl) hm
  have vo : ∀ f, (Verif.SS.valuesOf L f s).2 = s := fun f => by unfold Verif.SS.valuesOf; split <;> rfl
  cases op with
  | add | discard | remove | pop | delInt | delSlice | clear | update | differenceUpdate | intersectionUpdate | symmetricDifferenceUpdate | reset =>
    cases hq
  | getInt i => exact q _ (ha.getInt _ i)
  | getSlice sl => exact q _ (ha.getSlice _ sl)
  | bisectLeft v => exact q _ (ha.bisectLeft _ v)
  | bisectRight v => exact q _ (ha.bisectRight _ v)
  | index v a b => exact q _ (ha.index _ v a b)
  | islice a b c => exact q _ (ha.islice _ a b c)
  | irange lo hi a b c => exact r (by rw [Verif.SS.step, Spec.out_snd]; exact congrArg (fun l => ({ s with list := l } : SS τ σ)) (ha.irange s.list lo hi a b c))
  | copy => exact r (by rw [Verif.SS.step, Spec.out_snd, vo])
  | union xss => exact r (by rw [Verif.SS.step, Spec.out_snd, vo])
  | intersection xss => exact r (by rw [Verif.SS.step, Spec.out_snd, vo])
  | difference xss => exact r (by rw [Verif.SS.step, Spec.out_snd, vo])
  | symmetricDifference xs => exact r (by rw [Verif.SS.step, Spec.out_snd, vo])
  | _ => exact r rfl

end Interrupt.SS

namespace Interrupt.SD
open Verif.SD (Good iter Alike)
open PyDict DictSpec
variable {IL : IListAPI σ κ} {L : ListAPI σ κ} {O : Spec.Order κ} {eqv : κ → κ → Bool} {I : σ → Prop} {s : SD κ ν σ} {like : σ → σ → Prop}

theorem left_start (h : Good L O eqv I) (load : σ → Nat) (hs : Verif.SD.Inv L O eqv I s) (op : SDOp κ ν) (hv : op.Valid) :
    Left eqv L load op s (Verif.SD.step eqv L op s).2 s := by
  cases op with
  | setitem | pop | popitem | viewDelInt => exact ⟨.inl rfl, .inl rfl⟩
  | delitem | setdefault | clear => exact ⟨.inl rfl, .inl ⟨rfl, rfl⟩⟩
  | viewDelSlice => exact ⟨⟨_, .refl _, .refl _ _⟩, .inl rfl⟩
  | reset => exact ⟨.refl _, rfl⟩
  | update arg =>
    obtain ⟨s1, e1, h1, h2⟩ := (Verif.SD.update_refines h hv).eq_of hs rfl
    have h1 : s1.dict = PyDict.update eqv s.dict arg.items := h1
    rw [Verif.SD.step, out_snd, e1]
    refine ⟨?_, fun k => .inl rfl⟩
    show PartOf (iter L s1) (iter L s)
    unfold iter
    rw [h2.iter, hs.iter, h1]
    exact partOf_update h _ _
  | _ => exact ⟨rfl, rfl⟩

theorem query_trace (ha : IL.Asks L like) (s : SD κ ν σ) {op : SDOp κ ν} (hq : op.isQuery = true) :
    Trace (Alike like) (Alike like s) (step eqv IL L op) (Verif.SD.step eqv L op) s := by
  have o : ∀ {β : Type} {mt : IPy (SD κ ν σ) β} {m : Py (SD κ ν σ) β} (f : β → DOut κ ν), Trace (Alike like) (Alike like s) mt m s →
      Trace (Alike like) (Alike like s) (out f mt) (Verif.SD.out f m) s := fun f ht => ht.dout (alike_refl ha.refl) f
  have q : ∀ {β : Type} {mt : IPy σ β} {m : Py σ β}, Trace like (like s.list) mt m s.list →
      Trace (Alike like) (Alike like s) (onList mt) (Verif.SD.onList m) s := fun ht => onList_like ha.refl ht fun l hl => ⟨rfl, hl⟩
  have r : ∀ {β : Type} {m : Py (SD κ ν σ) β}, (m s).2 = s → Trace (Alike like) (Alike like s) (IPy.still m) m s := fun hm =>
    Trace.of_still (alike_refl ha.refl) hm
  have io : ∀ f, (Verif.SD.itemsOf eqv L f s).2 = s := fun f => by unfold Verif.SD.itemsOf; split <;> rfl
  cases op with
  | setitem | delitem | clear | pop | popitem | setdefault | update | viewDelInt | viewDelSlice | reset => cases hq
  | peekitem i | itemsAt i =>
    exact o _ (Trace.bind (q (ha.getInt _ i)) fun k _ _ _ => Trace.bind (getitem_trace ha.refl k) fun v _ _ _ => Trace.pure (alike_refl ha.refl) _)
  | valuesAt i => exact o _ (Trace.bind (q (ha.getInt _ i)) fun k _ _ _ => getitem_trace ha.refl k)
  | itemsSlice sl =>
    exact o _ (Trace.bind (q (ha.getSlice _ sl)) fun ks s1 _ _ =>
      Trace.mapEach (alike_refl ha.refl) (fun k s => Trace.bind (getitem_trace ha.refl k) fun v _ _ _ => Trace.pure (alike_refl ha.refl) _) ks s1)
  | valuesSlice sl => exact o _ (Trace.bind (q (ha.getSlice _ sl)) fun ks s1 _ _ => Trace.mapEach (alike_refl ha.refl) (fun k s => getitem_trace ha.refl k) ks s1)
  | keysAt i => exact o _ (q (ha.getInt _ i))
  | keysSlice sl => exact o _ (q (ha.getSlice _ sl))
  | bisectLeft k => exact o _ (q (ha.bisectLeft _ k))
  | bisectRight k => exact o _ (q (ha.bisectRight _ k))
  | index k a b => exact o _ (q (ha.index _ k a b))
  | islice a b c => exact o _ (q (ha.islice _ a b c))
  | irange lo hi a b c => exact r (by rw [Verif.SD.step, out_snd]; exact congrArg (fun l => ({ s with list := l } : SD κ ν σ)) (ha.irange s.list lo hi a b c))
  | copy => exact r (by rw [Verif.SD.step, out_snd, io])
  | or d => exact r (by rw [Verif.SD.step, out_snd, io])
  | ror d => exact r (by rw [Verif.SD.step, out_snd, io])
  | items => exact r (by rw [Verif.SD.step, out_snd]; rfl)
  | values => exact r (by rw [Verif.SD.step, out_snd]; rfl)
  | getitem k => exact r (by rw [Verif.SD.step, out_snd]; rfl)
  | _ => exact r rfl

end Interrupt.SD
end Verif
