import Verif.Model.IterHeap
import Verif.Proofs.World
/-!
# Which values a list object can get while it belongs to a container, and afterwards

Whatever a call does, a value in a list object after the call was in that list object before, or in the container before
or after the call.
-/

namespace Verif
namespace Heap
variable {α κ : Type} {c c0 c1 c2 : Ctx α κ} {s : St α κ}

/-! ## The state at the end of a call, whether it raises or not -/

namespace Ends
variable {β γ : Type} {P : Ctx α κ → Prop}

theorem lift {x : Except PyErr β} {g : β → Run α κ γ} (h0 : P c) (h : ∀ b, x = .ok b → P (g b c).2) :
    P ((Py.lift x >>= g) c).2 := by
  cases x with
  | error e => exact h0
  | ok b => exact h b rfl

theorem ite {p : Prop} [Decidable p] {m m' : Run α κ β} (h : p → P (m c).2) (h' : ¬ p → P (m' c).2) :
    P ((if p then m else m') c).2 := by
  by_cases hp : p
  · rw [if_pos hp]; exact h hp
  · rw [if_neg hp]; exact h' hp

theorem bind {m : Run α κ β} {g : β → Run α κ γ} (h : P (m c).2) (hk : ∀ b, (m c).1 = .ok b → P (g b (m c).2).2) :
    P ((m >>= g) c).2 := by
  rw [Py.bind_apply]
  rcases hx : m c with ⟨_ | b, c1⟩ <;> rw [hx] at h hk
  · exact h
  · exact hk b rfl

theorem forEach {f : β → Run α κ Unit} (h : ∀ b c, P c → P (f b c).2) (xs : List β) (h0 : P c) :
    P (Py.forEach f xs c).2 := Preserves.forEach h xs c h0

end Ends

theorem mem_cell_put {a b : Addr} {l : List α} {v : α} (h : v ∈ (c.put a l).cell b) : v ∈ l ∨ v ∈ c.cell b := by
  by_cases hb : b < c.mem.vals.length
  · by_cases hab : a = b
    · subst hab; rw [cell_put hb] at h; exact .inl h
    · rw [cell_put_ne hab] at h; exact .inr h
  · have : (c.put a l).cell b = c.cell b := by
      unfold Ctx.cell Ctx.put
      have hb : c.mem.vals.length ≤ b := Nat.le_of_not_lt hb
      rw [List.getD_eq_getElem?_getD, List.getD_eq_getElem?_getD, List.getElem?_eq_none (by rw [List.length_set]; exact hb),
        List.getElem?_eq_none hb]
    rw [this] at h; exact .inr h

theorem mem_cell_new {b : Addr} {l : List α} {v : α} (h : v ∈ (c.new l).cell b) : v ∈ l ∨ v ∈ c.cell b := by
  by_cases hb : b < c.mem.vals.length
  · rw [cell_new_lt hb] at h; exact .inr h
  · by_cases hab : b = c.mem.vals.length
    · subst hab; rw [cell_new] at h; exact .inl h
    · have : (c.new l).cell b = [] := by
        unfold Ctx.cell Ctx.new
        have hb : c.mem.vals.length + 1 ≤ b := Nat.lt_of_le_of_ne (Nat.le_of_not_lt hb) fun e => hab e.symm
        rw [List.getD_eq_getElem?_getD, List.getElem?_eq_none (by rw [List.length_append]; exact hb)]; rfl
      rw [this] at h; simp at h

theorem mem_iter {v : α} : v ∈ Verif.Core.iter c.view ↔ ∃ a ∈ c.self.lists, v ∈ c.cell a := by
  simp only [Verif.Core.iter, Ctx.view, List.mem_flatten, List.mem_map]
  exact ⟨fun ⟨_, ⟨a, ha, e⟩, hv⟩ => ⟨a, ha, e ▸ hv⟩, fun ⟨a, ha, hv⟩ => ⟨_, ⟨a, ha, rfl⟩, hv⟩⟩

/-! ## Calls that add values keep all sublists -/

/-- All sublists of before are sublists. -/
def Attached (c0 c : Ctx α κ) : Prop := ∀ a ∈ c0.self.lists, a ∈ c.self.lists

theorem mem_insertAt {γ : Type} {x y : γ} {l : List γ} {p : Nat} : x ∈ insertAt l p y ↔ x = y ∨ x ∈ l := by
  unfold insertAt
  rw [List.perm_middle.mem_iff, List.take_append_drop, List.mem_cons]

/-- No list object of before is changed. -/
def Untouched (c0 c : Ctx α κ) : Prop :=
  c0.mem.vals.length ≤ c.mem.vals.length ∧ ∀ a, a < c0.mem.vals.length → c.cell a = c0.cell a

theorem Untouched.refl (c : Ctx α κ) : Untouched c c := ⟨Nat.le_refl _, fun _ _ => rfl⟩

theorem Untouched.trans (h : Untouched c0 c1) (h' : Untouched c1 c2) : Untouched c0 c2 :=
  ⟨Nat.le_trans h.1 h'.1, fun a ha => (h'.2 a (Nat.lt_of_lt_of_le ha h.1)).trans (h.2 a ha)⟩

theorem Untouched.new (h : Untouched c0 c) (l : List α) : Untouched c0 (c.new l) :=
  h.trans ⟨by simp [Ctx.new], fun _ ha => cell_new_lt ha⟩

theorem Untouched.news (h : Untouched c0 c) (ls : List (List α)) : Untouched c0 (c.news ls) :=
  h.trans ⟨by simp [Ctx.news], fun a ha => by
    show (c.mem.vals ++ ls).getD a [] = c.mem.vals.getD a []
    simp [List.getElem?_append_left ha]⟩

/-- A call on an object without sublists. -/
theorem Rel.untouched (h : Rel c c1 s) (he : c.self.lists = []) : Untouched c c1 :=
  ⟨h.lists.len, fun a ha => h.lists.keep a ha (by rw [he]; simp)⟩

/-! ## Calls that delete values -/

/-- All values are values of before, and list objects got only such values. -/
structure Shrinks (c0 c : Ctx α κ) : Prop where
  own : ∀ a ∈ c.self.lists, ∀ v ∈ c.cell a, v ∈ Verif.Core.iter c0.view
  cells : ∀ a, a < c0.mem.vals.length → ∀ v ∈ c.cell a, v ∈ c0.cell a ∨ v ∈ Verif.Core.iter c0.view
  len : c0.mem.vals.length ≤ c.mem.vals.length

namespace Shrinks

theorem refl (c : Ctx α κ) : Shrinks c c := ⟨fun a ha v hv => mem_iter.2 ⟨a, ha, hv⟩, fun _ _ _ h => .inl h, Nat.le_refl _⟩

theorem trans (h : Shrinks c0 c1) (h' : Shrinks c1 c2) : Shrinks c0 c2 := by
  have hi : ∀ v, v ∈ Verif.Core.iter c1.view → v ∈ Verif.Core.iter c0.view := fun v hv => by
    obtain ⟨a, ha, hv⟩ := mem_iter.1 hv
    exact h.own a ha v hv
  refine ⟨fun a ha v hv => hi v (h'.own a ha v hv), fun a ha v hv => ?_, Nat.le_trans h.len h'.len⟩
  rcases h'.cells a (Nat.lt_of_lt_of_le ha h.len) v hv with h1 | h1
  · exact h.cells a ha v h1
  · exact .inr (hi v h1)

theorem put (h : Shrinks c0 c) {a : Addr} {l : List α} (hl : ∀ v ∈ l, v ∈ Verif.Core.iter c0.view) :
    Shrinks c0 (c.put a l) :=
  ⟨fun b hb v hv => (mem_cell_put hv).elim (hl v) (h.own b hb v),
    fun b hb v hv => (mem_cell_put hv).elim (fun h1 => .inr (hl v h1)) (h.cells b hb v),
    by show _ ≤ (c.mem.vals.set _ _).length; rw [List.length_set]; exact h.len⟩

theorem new (h : Shrinks c0 c) {l : List α} (hl : ∀ v ∈ l, v ∈ Verif.Core.iter c0.view) : Shrinks c0 (c.new l) :=
  ⟨fun b hb v hv => (mem_cell_new hv).elim (hl v) (h.own b hb v),
    fun b hb v hv => (mem_cell_new hv).elim (fun h1 => .inr (hl v h1)) (h.cells b hb v),
    Nat.le_trans h.len (by simp [Ctx.new])⟩

/-- Attributes are assigned; sublists are dropped or stay. -/
theorem assign (h : Shrinks c0 c) {o : Obj κ} (ho : ∀ a ∈ o.lists, a ∈ c.self.lists) :
    Shrinks c0 { c with self := o } := ⟨fun a ha => h.own a (ho a ha), h.cells, h.len⟩

theorem item (h : Shrinks c0 c) {p : Nat} {a : Addr} (ha : c.self.lists[p]? = some a) :
    ∀ v ∈ c.cell a, v ∈ Verif.Core.iter c0.view := h.own a (List.mem_of_getElem? ha)

/-- A new sublist. -/
theorem insert (h : Shrinks c0 c) {o : Obj κ} {p : Nat} {a : Addr} (ho : o.lists = insertAt c.self.lists p a)
    (ha : ∀ v ∈ c.cell a, v ∈ Verif.Core.iter c0.view) : Shrinks c0 { c with self := o } :=
  ⟨fun b hb v hv => by
    have hb : b ∈ o.lists := hb
    rw [ho, mem_insertAt] at hb
    rcases hb with rfl | hb
    · exact ha v hv
    · exact h.own b hb v hv, h.cells, h.len⟩

/-- The keys do not matter. -/
theorem vals {c' : Ctx α κ} (h : Shrinks c0 c) (e : c'.mem.vals = c.mem.vals)
    (ho : ∀ a ∈ c'.self.lists, a ∈ c.self.lists) : Shrinks c0 c' := by
  rcases c' with ⟨⟨vals, keys⟩, o⟩
  subst e
  exact ⟨fun a ha => h.own a (ho a ha), h.cells, h.len⟩

theorem reading (h : Shrinks c0 c) {β : Type} (m : Py (St α κ) β) : Shrinks c0 (Heap.reading m c).2 :=
  h.assign (c := c) fun _ ha => ha

end Shrinks

theorem delItem_eq {γ : Type} {l l' : List γ} {i : Nat} (h : delItem l i = .ok l') : l' = l.eraseIdx i := by
  unfold delItem at h
  split at h
  · cases h; rfl
  · cases h

theorem delItem_mem {γ : Type} {l l' : List γ} {i : Nat} (h : delItem l i = .ok l') : ∀ x ∈ l', x ∈ l := by
  rw [delItem_eq h]
  exact fun _ hx => List.mem_of_mem_eraseIdx hx

/-! ## SortedList -/

namespace SL
variable {c c0 : Ctx α α}

theorem expand_attached (pos : Nat) (h : Attached c0 c) : Attached c0 (expand pos c).2 := by
  unfold expand
  hrun
  refine Ends.lift h fun a ha => ?_
  hrun
  refine Ends.ite (fun _ => ?_) fun _ => h
  hrun
  refine Ends.lift h fun m hm => ?_
  refine Ends.lift h fun maxes hmaxes => ?_
  hrun
  have h1 : ∀ b ∈ c0.self.lists, b ∈ insertAt c.self.lists (pos + 1) c.mem.vals.length :=
    fun b hb => mem_insertAt.2 (.inr (h b hb))
  refine Ends.lift h1 fun m hm => ?_
  exact h1

theorem add_attached (E : Env α) (v : α) (h : Attached c0 c) : Attached c0 (add E v c).2 := by
  unfold add
  hrun
  refine Ends.ite (fun _ => ?_) fun _ => ?_
  · refine Ends.lift h fun pos hpos => ?_
    refine Ends.ite (fun _ => ?_) fun _ => ?_
    · refine Ends.lift h fun a ha => ?_
      hrun
      refine Ends.bind (expand_attached _ h) fun _ _ => ?_
      exact expand_attached _ h
    · refine Ends.lift h fun a ha => ?_
      hrun
      refine Ends.lift h fun l hl => ?_
      hrun
      refine Ends.bind (expand_attached _ h) fun _ _ => ?_
      exact expand_attached _ h
  · hrun
    exact fun a ha => List.mem_append.2 (.inl (h a ha))

theorem fill_untouched (v : Addr) (h : Untouched c0 c) : Untouched c0 (fill v c).2 := by
  unfold fill
  hrun
  refine Ends.lift h fun subs hsubs => ?_
  rw [Py.bind_apply, mapEach_alloc]
  hrun
  rw [Py.bind_apply, mapEach_read]
  have h1 := h.news subs
  refine Ends.lift h1 fun ms hms => ?_
  exact h1

theorem update_live (E : Env α) (src : Source α) (hc : Own c) :
    Attached c (update E src c).2 ∨ Untouched c (update E src c).2 := by
  unfold update
  obtain ⟨xs, hx⟩ : ∃ xs, Yields c src xs := by cases src <;> exact ⟨_, rfl⟩
  rw [consume_bind hx]
  rcases hs : E.sorted xs with e | ys
  · exact .inl fun _ h => h
  rw [Py.lift_ok_bind]
  hrun
  have h1 : Untouched c (c.new ys) := (Untouched.refl c).new ys
  refine Ends.ite (P := fun c' => Attached c c' ∨ Untouched c c') (fun _ => ?_) fun _ => .inr (fill_untouched _ h1)
  hrun
  refine Ends.ite (P := fun c' => Attached c c' ∨ Untouched c c') (fun _ => .inr ?_) fun _ => .inl ?_
  · hrun
    have r2 := (Part.refl hc.nodup hc.bound).push ys |>.append ((Part.refl hc.nodup hc.bound).fresh_push ys) getD_push_self
    have h2 : Own { (c.new ys) with self := { (c.new ys).self with lists := (c.new ys).self.lists ++ [c.mem.vals.length] } } :=
      ⟨r2.nodup, r2.bound, hc.knodup, hc.kbound⟩
    rw [Py.bind_apply, flatten_eq h2]
    hrun
    refine Ends.lift (P := Untouched c) (h1.new _) fun zs hzs => ?_
    unfold clear
    hrun
    rw [new_put]
    exact fill_untouched _ (h1.new zs)
  · exact Ends.forEach (P := Attached c) (fun x c h => add_attached E x h) _ fun _ h => h

theorem expand_shrinks (pos : Nat) (h : Shrinks c0 c) : Shrinks c0 (expand pos c).2 := by
  unfold expand
  hrun
  refine Ends.lift h fun a ha => ?_
  have ha := h.item (getItem_ok_iff.1 ha)
  hrun
  refine Ends.ite (fun _ => ?_) fun _ => h.reading _
  hrun
  have h1 := (h.new (l := (c.cell a).drop c.self.load) fun v hv => ha v (List.mem_of_mem_drop hv)).put (a := a)
    (l := (c.cell a).take c.self.load) fun v hv => ha v (List.mem_of_mem_take hv)
  refine Ends.lift h1 fun m hm => ?_
  refine Ends.lift h1 fun maxes hmaxes => ?_
  hrun
  have h2 : ∀ o : Obj α, o.lists = insertAt c.self.lists (pos + 1) c.mem.vals.length → Shrinks c0
      { ((c.new ((c.cell a).drop c.self.load)).put a ((c.cell a).take c.self.load)) with self := o } := fun o ho =>
    h1.insert ho fun v hv => (mem_cell_put hv).elim (fun h => ha v (List.mem_of_mem_take h)) fun h =>
      ha v (List.mem_of_mem_drop (cell_new ▸ h))
  refine Ends.lift (h2 _ rfl) fun m hm => ?_
  exact h2 _ rfl

theorem delete_shrinks (pos idx : Nat) (h : Shrinks c0 c) : Shrinks c0 (delete pos idx c).2 := by
  unfold delete
  hrun
  refine Ends.lift h fun a ha => ?_
  have ha := h.item (getItem_ok_iff.1 ha)
  hrun
  refine Ends.lift h fun l hl => ?_
  hrun
  have h1 : ∀ o : Obj α, (∀ b ∈ o.lists, b ∈ c.self.lists) → Shrinks c0 { (c.put a l) with self := o } := fun o ho =>
    (h.put (a := a) fun v hv => ha v (delItem_mem hl v hv)).assign ho
  refine Ends.lift (h1 _ fun _ h => h) fun n hn => ?_
  hrun
  refine Ends.ite (fun _ => ?_) fun _ => ?_
  · refine Ends.lift (h1 _ fun _ h => h) fun m hm => ?_
    refine Ends.lift (h1 _ fun _ h => h) fun maxes hmaxes => ?_
    hrun
    refine Shrinks.reading ?_ _
    exact h1 _ fun _ h => h
  refine Ends.ite (fun _ => ?_) fun _ => ?_
  · generalize (if pos = 0 then pos + 1 else pos) = q
    refine Ends.lift (h1 _ fun _ h => h) fun x hx => ?_
    refine Ends.lift (h1 _ fun _ h => h) fun y hy => ?_
    unfold extend
    hrun
    have hx := (h1 { c.self with len := n } fun _ h => h).item (getItem_ok_iff.1 hx)
    have hy := (h1 { c.self with len := n } fun _ h => h).item (getItem_ok_iff.1 hy)
    have h2 := (h1 { c.self with len := n } fun _ h => h).put (a := x) (l := Ctx.cell { (c.put a l) with self := { c.self with len := n } } x ++ Ctx.cell { (c.put a l) with self := { c.self with len := n } } y)
      fun v hv => (List.mem_append.1 hv).elim (hx v) (hy v)
    refine Ends.lift h2 fun m hm => ?_
    refine Ends.lift h2 fun maxes hmaxes => ?_
    hrun
    refine Ends.lift (h2.assign fun _ h => h) fun ls hls => ?_
    have hls := delItem_mem hls
    hrun
    refine Ends.lift (h2.assign hls) fun _ _ => ?_
    hrun
    exact expand_shrinks _ (h2.assign hls)
  refine Ends.ite (fun _ => ?_) fun _ => ?_
  · refine Ends.lift (h1 _ fun _ h => h) fun m hm => ?_
    refine Ends.lift (h1 _ fun _ h => h) fun maxes hmaxes => ?_
    hrun
    exact h1 _ fun _ h => h
  · hrun
    refine Ends.lift (h1 _ fun _ h => h) fun ls hls => ?_
    have hls := delItem_mem hls
    hrun
    refine Ends.lift (h1 _ hls) fun m hm => ?_
    hrun
    exact h1 _ hls

theorem discard_shrinks (E : Env α) (v : α) (h : Shrinks c0 c) : Shrinks c0 (discard E v c).2 := by
  unfold discard
  refine Ends.bind (h.reading _) fun b _ => ?_
  rcases b with _ | ⟨p, i⟩
  · exact h.reading _
  · exact delete_shrinks _ _ (h.reading _)

theorem remove_shrinks (E : Env α) (v : α) (h : Shrinks c0 c) : Shrinks c0 (remove E v c).2 := by
  unfold remove
  refine Ends.bind (h.reading _) fun b _ => ?_
  rcases b with _ | ⟨p, i⟩
  · exact h.reading _
  · exact delete_shrinks _ _ (h.reading _)

end SL

/-! ## SortedKeyList -/

namespace SKL

theorem expand_attached (pos : Nat) (h : Attached c0 c) : Attached c0 (expand pos c).2 := by
  unfold expand
  hrun
  refine Ends.lift h fun a ha => ?_
  hrun
  refine Ends.ite (fun _ => ?_) fun _ => h
  refine Ends.lift h fun a ha => ?_
  hrun
  refine Ends.lift h fun m hm => ?_
  refine Ends.lift h fun maxes hmaxes => ?_
  hrun
  have h1 : ∀ b ∈ c0.self.lists, b ∈ insertAt c.self.lists (pos + 1) c.mem.vals.length :=
    fun b hb => mem_insertAt.2 (.inr (h b hb))
  refine Ends.lift h1 fun m hm => ?_
  exact h1

theorem add_attached (K : KEnv α κ) (v : α) (h : Attached c0 c) : Attached c0 (add K v c).2 := by
  unfold add
  hrun
  refine Ends.lift h fun key hkey => ?_
  refine Ends.ite (fun _ => ?_) fun _ => ?_
  · refine Ends.lift h fun pos hpos => ?_
    refine Ends.ite (fun _ => ?_) fun _ => ?_
    · refine Ends.lift h fun a ha => ?_
      hrun
      refine Ends.lift h fun b hb => ?_
      hrun
      refine Ends.bind (expand_attached _ h) fun _ _ => ?_
      exact expand_attached _ h
    · refine Ends.lift h fun a ha => ?_
      hrun
      refine Ends.lift h fun l hl => ?_
      refine Ends.lift h fun b hb => ?_
      hrun
      refine Ends.bind (expand_attached _ h) fun _ _ => ?_
      exact expand_attached _ h
  · hrun
    exact fun a ha => List.mem_append.2 (.inl (h a ha))

theorem fill_untouched (K : KEnv α κ) (v : Addr) (h : Untouched c0 c) : Untouched c0 (fill K v c).2 := by
  unfold fill
  hrun
  refine Ends.lift h fun subs hsubs => ?_
  rw [Py.bind_apply, mapEach_alloc]
  hrun
  have h1 := h.news subs
  have h2 : ∀ c' : Ctx α κ, c'.mem.vals = (c.news subs).mem.vals → Untouched c0 c' := fun c' e =>
    ⟨e ▸ h1.1, fun a ha => by
      have := h1.2 a ha
      unfold Ctx.cell at this ⊢
      rw [e]; exact this⟩
  refine Ends.bind (h2 _ (keys_vals K _ _)) fun _ _ => ?_
  hrun
  rw [Py.bind_apply, mapEach_readK]
  refine Ends.lift (h2 _ (keys_vals K _ _)) fun ms hms => ?_
  exact h2 _ (keys_vals K _ _)

theorem update_live (K : KEnv α κ) (src : Source α) (hc : Own c) :
    Attached c (update K src c).2 ∨ Untouched c (update K src c).2 := by
  unfold update
  obtain ⟨xs, hx⟩ : ∃ xs, Yields c src xs := by cases src <;> exact ⟨_, rfl⟩
  rw [consume_bind hx]
  rcases hs : K.sortedByKey xs with e | ys
  · exact .inl fun _ h => h
  rw [Py.lift_ok_bind]
  hrun
  have h1 : Untouched c (c.new ys) := (Untouched.refl c).new ys
  refine Ends.ite (P := fun c' => Attached c c' ∨ Untouched c c') (fun _ => ?_) fun _ => .inr (fill_untouched K _ h1)
  hrun
  refine Ends.ite (P := fun c' => Attached c c' ∨ Untouched c c') (fun _ => .inr ?_) fun _ => .inl ?_
  · hrun
    have r2 := (Part.refl hc.nodup hc.bound).push ys |>.append ((Part.refl hc.nodup hc.bound).fresh_push ys) getD_push_self
    have h2 : Own { (c.new ys) with self := { (c.new ys).self with lists := (c.new ys).self.lists ++ [c.mem.vals.length] } } :=
      ⟨r2.nodup, r2.bound, hc.knodup, hc.kbound⟩
    rw [Py.bind_apply, flatten_eq h2]
    hrun
    refine Ends.lift (P := Untouched c) (h1.new _) fun zs hzs => ?_
    unfold clear
    hrun
    rw [new_put]
    exact fill_untouched K _ (h1.new zs)
  · exact Ends.forEach (P := Attached c) (fun x c h => add_attached K x h) _ fun _ h => h

theorem expand_shrinks (pos : Nat) (h : Shrinks c0 c) : Shrinks c0 (expand pos c).2 := by
  unfold expand
  hrun
  refine Ends.lift h fun b hb => ?_
  hrun
  refine Ends.ite (fun _ => ?_) fun _ => h.reading _
  refine Ends.lift h fun a ha => ?_
  have ha := h.item (getItem_ok_iff.1 ha)
  hrun
  have h1 := (h.new (l := (c.cell a).drop c.self.load) fun v hv => ha v (List.mem_of_mem_drop hv)).put (a := a)
    (l := (c.cell a).take c.self.load) fun v hv => ha v (List.mem_of_mem_take hv)
  have h1 : ∀ c' : Ctx α κ, c'.mem.vals = ((c.new ((c.cell a).drop c.self.load)).put a ((c.cell a).take c.self.load)).mem.vals →
      c'.self.lists = c.self.lists ∨ c'.self.lists = insertAt c.self.lists (pos + 1) c.mem.vals.length → Shrinks c0 c' := by
    intro c' e ho
    rcases ho with ho | ho
    · exact h1.vals e fun b hb => ho ▸ hb
    · exact (h1.insert (o := c'.self) ho fun v hv => (mem_cell_put hv).elim (fun h => ha v (List.mem_of_mem_take h)) fun h =>
        ha v (List.mem_of_mem_drop (cell_new ▸ h))).vals e fun _ h => h
  refine Ends.lift (h1 _ rfl (.inl rfl)) fun m hm => ?_
  refine Ends.lift (h1 _ rfl (.inl rfl)) fun maxes hmaxes => ?_
  hrun
  refine Ends.lift (h1 _ rfl (.inr rfl)) fun m hm => ?_
  exact h1 _ rfl (.inr rfl)

theorem delete_shrinks (pos idx : Nat) (h : Shrinks c0 c) : Shrinks c0 (delete pos idx c).2 := by
  unfold delete
  hrun
  refine Ends.lift h fun b hb => ?_
  refine Ends.lift h fun a ha => ?_
  have ha := h.item (getItem_ok_iff.1 ha)
  hrun
  refine Ends.lift h fun ks hks => ?_
  hrun
  refine Ends.lift (h.vals rfl fun _ h => h) fun l hl => ?_
  hrun
  have h1 : ∀ c' : Ctx α κ, c'.mem.vals = (c.put a l).mem.vals → (∀ b ∈ c'.self.lists, b ∈ c.self.lists) → Shrinks c0 c' :=
    fun c' e ho => (h.put (a := a) fun v hv => ha v (delItem_mem hl v hv)).vals e ho
  refine Ends.lift (h1 _ rfl fun _ h => h) fun n hn => ?_
  hrun
  refine Ends.ite (fun _ => ?_) fun _ => ?_
  · refine Ends.lift (h1 _ rfl fun _ h => h) fun m hm => ?_
    refine Ends.lift (h1 _ rfl fun _ h => h) fun maxes hmaxes => ?_
    hrun
    refine Shrinks.reading ?_ _
    exact h1 _ rfl fun _ h => h
  refine Ends.ite (fun _ => ?_) fun _ => ?_
  · generalize (if pos = 0 then pos + 1 else pos) = q
    refine Ends.lift (h1 _ rfl fun _ h => h) fun x hx => ?_
    refine Ends.lift (h1 _ rfl fun _ h => h) fun y hy => ?_
    hrun
    refine Ends.lift (h1 _ rfl fun _ h => h) fun x hx => ?_
    refine Ends.lift (h1 _ rfl fun _ h => h) fun y hy => ?_
    unfold extend
    hrun
    have hx := (h1 (c.put a l) rfl fun _ h => h).item (getItem_ok_iff.1 hx)
    have hy := (h1 (c.put a l) rfl fun _ h => h).item (getItem_ok_iff.1 hy)
    have h2 := (h1 (c.put a l) rfl fun _ h => h).put (a := x) (l := (c.put a l).cell x ++ (c.put a l).cell y)
      fun v hv => (List.mem_append.1 hv).elim (hx v) (hy v)
    refine Ends.lift (h2.vals rfl fun _ h => h) fun m hm => ?_
    refine Ends.lift (h2.vals rfl fun _ h => h) fun maxes hmaxes => ?_
    hrun
    refine Ends.lift (h2.vals rfl fun _ h => h) fun ls hls => ?_
    have hls := delItem_mem hls
    hrun
    refine Ends.lift (h2.vals rfl hls) fun _ _ => ?_
    hrun
    refine Ends.lift (h2.vals rfl hls) fun _ _ => ?_
    hrun
    exact expand_shrinks _ (h2.vals rfl hls)
  refine Ends.ite (fun _ => ?_) fun _ => ?_
  · refine Ends.lift (h1 _ rfl fun _ h => h) fun m hm => ?_
    refine Ends.lift (h1 _ rfl fun _ h => h) fun maxes hmaxes => ?_
    hrun
    exact h1 _ rfl fun _ h => h
  · hrun
    refine Ends.lift (h1 _ rfl fun _ h => h) fun ls hls => ?_
    have hls := delItem_mem hls
    hrun
    refine Ends.lift (h1 _ rfl hls) fun m hm => ?_
    hrun
    refine Ends.lift (h1 _ rfl hls) fun m hm => ?_
    hrun
    exact h1 _ rfl hls

theorem discard_shrinks (K : KEnv α κ) (v : α) (h : Shrinks c0 c) : Shrinks c0 (discard K v c).2 := by
  unfold discard
  refine Ends.bind (h.reading _) fun b _ => ?_
  rcases b with _ | ⟨p, i⟩
  · exact h.reading _
  · exact delete_shrinks _ _ (h.reading _)

theorem remove_shrinks (K : KEnv α κ) (v : α) (h : Shrinks c0 c) : Shrinks c0 (remove K v c).2 := by
  unfold remove
  refine Ends.bind (h.reading _) fun b _ => ?_
  rcases b with _ | ⟨p, i⟩
  · exact h.reading _
  · exact delete_shrinks _ _ (h.reading _)

end SKL

/-! ## The shared methods -/

/-- A value in a list object after the call was in it before, or in the container before or after the call. -/
def Live (c c' : Ctx α κ) : Prop :=
  c.mem.vals.length ≤ c'.mem.vals.length ∧ ∀ a, a < c.mem.vals.length → ∀ v ∈ c'.cell a,
    v ∈ c.cell a ∨ v ∈ Verif.Core.iter c.view ∨ v ∈ Verif.Core.iter c'.view

theorem Attached.live (h : Attached c c1) (hr : Rel c c1 s) : Live c c1 := by
  refine ⟨hr.lists.len, fun a ha v hv => ?_⟩
  by_cases hm : a ∈ c.self.lists
  · exact .inr (.inr (mem_iter.2 ⟨a, h a hm, hv⟩))
  · have : c1.cell a = c.cell a := hr.lists.keep a ha hm
    exact .inl (this ▸ hv)

theorem Untouched.live (h : Untouched c c1) : Live c c1 := ⟨h.1, fun a ha _ hv => .inl (h.2 a ha ▸ hv)⟩

theorem Shrinks.live (h : Shrinks c c1) : Live c c1 :=
  ⟨h.len, fun a ha v hv => (h.cells a ha v hv).imp id .inl⟩

theorem Untouched.put (h : Untouched c0 c) {a : Addr} (ha : c0.mem.vals.length ≤ a) (l : List α) : Untouched c0 (c.put a l) :=
  ⟨by show _ ≤ (c.mem.vals.set _ _).length; rw [List.length_set]; exact h.1, fun b hb =>
    (cell_put_ne (Nat.ne_of_gt (Nat.lt_of_lt_of_le hb ha))).trans (h.2 b hb)⟩

theorem Untouched.extend (h : Untouched c0 c) {a : Addr} (ha : c0.mem.vals.length ≤ a) (b : Addr) :
    Untouched c0 (Heap.extend a b c).2 := h.put ha _

theorem Untouched.reduceIadd {as : List Addr} {a : Addr} (ha : c0.mem.vals.length ≤ a) (h : Untouched c0 c) :
    Untouched c0 (Heap.reduceIadd as a c).2 := Ends.forEach (P := Untouched c0) (fun b _ h => h.extend ha b) as h

theorem Untouched.reading {β : Type} (h : Untouched c0 c) (m : Py (St α κ) β) : Untouched c0 (Heap.reading m c).2 := h

theorem Untouched.flatten (h : Untouched c0 c) : Untouched c0 (Heap.flatten c).2 := by
  unfold Heap.flatten
  hrun
  exact Ends.bind (Untouched.reduceIadd h.1 (h.new [])) fun _ _ => Untouched.reduceIadd h.1 (h.new [])

theorem Own.put (h : Own c) (a : Addr) (l : List α) : Own (c.put a l) :=
  ⟨h.nodup, fun b hb => by show b < (c.mem.vals.set _ _).length; rw [List.length_set]; exact h.bound b hb, h.knodup, h.kbound⟩

namespace Core

theorem mapGet_untouched (ilog2 : Nat → Nat) (is : List Int) (h : Untouched c0 c) :
    Untouched c0 ((Py.mapEach (fun i => reading (Verif.Core.getInt ilog2 i)) is >>= alloc) c).2 := by
  have h1 : Untouched c0 (Py.mapEach (fun i => reading (Verif.Core.getInt ilog2 i)) is c).2 :=
    Preserves.mapEach (P := Untouched c0) (fun _ _ h => h) is c h
  exact Ends.bind h1 fun _ _ => h1.new _

theorem sliceTail_untouched (as : List Addr) (l : List α) (startPos stopPos stopIdx : Nat) (h : Untouched c0 c) :
    Untouched c0 ((do
      let pre ← alloc l
      reduceIadd (subList as startPos stopPos) pre
      let b ← Py.lift (getItem as stopPos)
      let l ← read b
      let tmp ← alloc (l.take stopIdx)
      extend pre tmp
      pure pre : Run α κ Addr) c).2 := by
  hrun
  have h2 : Untouched c0 (reduceIadd (subList as startPos stopPos) c.mem.vals.length (c.new l)).2 :=
    Untouched.reduceIadd h.1 (h.new _)
  revert h2
  have hn := h.1
  refine fun h2 => Ends.bind h2 fun _ _ => ?_
  refine Ends.lift h2 fun b _ => ?_
  hrun
  have h3 := fun l' b => (h2.new l').extend hn b
  exact Ends.bind (h3 _ _) fun _ _ => h3 _ _

theorem getSliceFwd_untouched (ilog2 : Nat → Nat) (start stop : Int) (h : Untouched c0 c) :
    Untouched c0 (getSliceFwd ilog2 start stop c).2 := by
  unfold getSliceFwd
  hrun
  refine Ends.ite (fun _ => h.flatten) fun _ => ?_
  refine Ends.bind (h.reading _) fun ⟨p, i⟩ _ => ?_
  replace h : Untouched c0 (reading (Verif.Core.pos ilog2 start) c).2 := h.reading _
  revert h
  generalize (reading (Verif.Core.pos ilog2 start) c).2 = c2
  intro h
  refine Ends.lift h fun a ha => ?_
  hrun
  refine Ends.ite (fun _ => h.new _) fun _ => ?_
  refine Ends.ite (fun _ => ?_) fun _ => ?_
  · refine Ends.lift h fun a ha => ?_
    exact sliceTail_untouched _ _ _ _ _ h
  · refine Ends.bind (h.reading _) fun ⟨p', i'⟩ _ => ?_
    exact sliceTail_untouched _ _ _ _ _ (h.reading _)

theorem getSliceStep1_untouched (ilog2 : Nat → Nat) (start stop : Option Int) (h : Untouched c0 c) :
    Untouched c0 (getSliceStep1 ilog2 start stop c).2 := by
  unfold getSliceStep1
  hrun
  refine Ends.lift h fun ⟨a, b, st⟩ _ => ?_
  exact Ends.ite (fun _ => getSliceFwd_untouched ilog2 _ _ h) fun _ => mapGet_untouched ilog2 _ h

theorem getSlice_untouched (ilog2 : Nat → Nat) (sl : PySlice) (hr : Rel c0 c s) (h : Untouched c0 c) :
    Untouched c0 (getSlice ilog2 sl c).2 := by
  unfold getSlice
  hrun
  refine Ends.lift h fun ⟨a, b, st⟩ _ => ?_
  refine Ends.ite (fun _ => getSliceFwd_untouched ilog2 _ _ h) fun _ => ?_
  refine Ends.ite (fun _ => ?_) fun _ => mapGet_untouched ilog2 _ h
  have h1 := getSliceStep1_untouched ilog2 (some (b + 1)) (some (a + 1)) h
  refine Ends.bind h1 fun r hx => ?_
  hrun
  refine h1.put ?_ _
  have h2 := (getSliceStep1_out ilog2 (some (b + 1)) (some (a + 1)) hr).2
  rw [hx] at h2
  split at h2
  · rename_i e1 _
    cases e1
    exact h2.1.new
  · rename_i e1 _
    cases e1
  · exact h2.elim

/-- The overridden methods, as far as it matters here. -/
structure MethodsLive (M : Methods α κ) : Prop where
  clear : ∀ c, (M.clear c).2.mem = c.mem ∧ (M.clear c).2.self.lists = []
  update : ∀ {c} src, Own c → Attached c (M.update src c).2 ∨ Untouched c (M.update src c).2
  delete : ∀ {c0 c} p i, Shrinks c0 c → Shrinks c0 (M.delete p i c).2

variable {M : Methods α κ} {V : Verif.Methods α κ} (hM : MethodsSim M V) (hL : MethodsLive M)
include hM hL

theorem clear_update_untouched (src : Source α) (f : Obj κ → Obj κ) (hf : ∀ o, (f o).lists = o.lists ∧ (f o).keys = o.keys)
    (hc : Own c) (h : Untouched c0 c) :
    Untouched c0 ((do M.clear; assign f; M.update src : Run α κ Unit) c).2 := by
  obtain ⟨e1, e2⟩ := hL.clear c
  have hr := (hM.clear hc.rel).1
  have h1 : Untouched c0 (M.clear c).2 := by
    unfold Untouched Ctx.cell
    rw [e1]; exact h
  refine Ends.bind h1 fun _ _ => ?_
  hrun
  have ho : Own { (M.clear c).2 with self := f (M.clear c).2.self } := by
    obtain ⟨a1, a2, a3, a4⟩ := hr.own
    obtain ⟨f1, f2⟩ := hf (M.clear c).2.self
    refine ⟨?_, ?_, ?_, ?_⟩ <;> dsimp only <;> first | rw [f1] | rw [f2]
    · exact a1
    · exact a2
    · exact a3
    · exact a4
  obtain ⟨xs, hx⟩ : ∃ xs, Yields { (M.clear c).2 with self := f (M.clear c).2.self } src xs := by cases src <;> exact ⟨_, rfl⟩
  have h2 := (hM.update ho.rel hx).1.untouched ((hf _).1.trans e2)
  exact Untouched.trans (c1 := { (M.clear c).2 with self := f (M.clear c).2.self }) h1 h2

theorem reset_untouched (load : Nat) (hc : Own c) (h : Untouched c0 c) : Untouched c0 (reset M load c).2 := by
  unfold reset
  rw [Py.bind_apply, flatten_eq hc]
  hrun
  have hr := (new_out (c0 := c) (l := Verif.Core.iter c.view) hc.rel).1
  exact clear_update_untouched hM hL _ _ (fun _ => ⟨rfl, rfl⟩) hr.own (h.new _)

theorem imul_untouched (num : Int) (hc : Own c) (h : Untouched c0 c) : Untouched c0 (imul M num c).2 := by
  unfold imul repeated
  rw [Py.bind_apply, Py.bind_apply, flatten_eq hc]
  hrun
  have hr := (new_out (c0 := c) (l := Verif.Core.iter c.view) hc.rel).1
  have hr := (new_out (l := repeatList ((c.new (Verif.Core.iter c.view)).cell c.mem.vals.length) num) hr.own.rel).1
  exact clear_update_untouched hM hL _ id (fun _ => ⟨rfl, rfl⟩) hr.own ((h.new _).new _)

omit hM in
theorem delInt_shrinks (index : Int) (h : Shrinks c0 c) : Shrinks c0 (delInt M index c).2 := by
  unfold delInt
  exact Ends.bind (h.reading _) fun ⟨p, i⟩ _ => hL.delete p i (h.reading _)

theorem delSlice_live (sl : PySlice) (hc : Own c) : Live c (delSlice M sl c).2 := by
  unfold delSlice
  hrun
  refine Ends.lift (Untouched.refl c).live fun ⟨start, stop, step⟩ _ => ?_
  refine Ends.ite (fun _ => ?_) fun _ => ?_
  · obtain ⟨e1, e2⟩ := hL.clear c
    refine Untouched.live ?_
    unfold Untouched Ctx.cell
    rw [e1]; exact Untouched.refl c
  refine Ends.ite (fun _ => Untouched.live ?_) fun _ => Shrinks.live ?_
  · have h1 := getSliceStep1_untouched M.ilog2 none (some start) (Untouched.refl c)
    obtain ⟨r1, n1⟩ := getSliceStep1_out M.ilog2 none (some start) hc.rel
    refine Ends.bind h1 fun b hb => ?_
    have n1 : c.mem.vals.length ≤ b := by
      rw [hb] at n1
      split at n1
      · rename_i e1 _
        cases e1
        exact n1.1.new
      · rename_i e1 _
        cases e1
      · exact n1.elim
    refine Ends.ite (fun _ => ?_) fun _ => ?_
    · hrun
      have h2 := getSliceStep1_untouched M.ilog2 (some stop) none h1
      obtain ⟨r2, n2⟩ := getSliceStep1_out M.ilog2 (some stop) none r1.own.rel
      refine Ends.bind h2 fun t ht => ?_
      unfold extend
      hrun
      exact clear_update_untouched hM hL _ id (fun _ => ⟨rfl, rfl⟩) (r2.own.put _ _) (h2.put n1 _)
    · hrun
      exact clear_update_untouched hM hL _ id (fun _ => ⟨rfl, rfl⟩) r1.own h1
  · exact Ends.forEach (P := Shrinks c) (fun i _ h => delInt_shrinks hL i h) _ (Shrinks.refl c)

omit hM in
theorem deleteVal_shrinks (p i : Nat) (v : α) (h : Shrinks c0 c) :
    Shrinks c0 ((M.delete p i >>= fun _ => pure v) c).2 :=
  Ends.bind (hL.delete p i h) fun _ _ => hL.delete p i h

omit hM in
theorem pop_shrinks (index : Int) (h : Shrinks c0 c) : Shrinks c0 (pop M index c).2 := by
  unfold pop
  hrun
  refine Ends.ite (fun _ => h) fun _ => ?_
  refine Ends.ite (fun _ => ?_) fun _ => ?_
  · refine Ends.lift h fun a _ => ?_
    hrun
    refine Ends.lift h fun v _ => ?_
    exact deleteVal_shrinks hL _ _ _ h
  refine Ends.ite (fun _ => ?_) fun _ => ?_
  · refine Ends.lift h fun a _ => ?_
    hrun
    refine Ends.lift h fun v _ => ?_
    exact deleteVal_shrinks hL _ _ _ h
  refine Ends.lift h fun a _ => ?_
  hrun
  refine Ends.ite (fun _ => ?_) fun _ => ?_
  · refine Ends.lift h fun v _ => ?_
    exact deleteVal_shrinks hL _ _ _ h
  refine Ends.lift h fun a _ => ?_
  hrun
  refine Ends.ite (fun _ => ?_) fun _ => ?_
  · refine Ends.lift h fun a _ => ?_
    hrun
    refine Ends.lift h fun v _ => ?_
    exact deleteVal_shrinks hL _ _ _ h
  refine Ends.bind (h.reading _) fun ⟨p, i⟩ _ => ?_
  refine Ends.lift (h.reading _) fun a _ => ?_
  hrun
  refine Ends.lift (h.reading _) fun v _ => ?_
  exact deleteVal_shrinks hL _ _ _ (h.reading _)

omit hM hL in
theorem concatArg_untouched (xs : List α) (hc : Own c) (h : Untouched c0 c) :
    Untouched c0 (concatArg (.values xs) c).2 := by
  unfold concatArg
  rw [Py.bind_apply, flatten_eq hc]
  show Untouched c0 ((c.new _).put _ _)
  exact (h.new _).put h.1 _

omit hM hL in
theorem repeated_untouched (num : Int) (hc : Own c) (h : Untouched c0 c) : Untouched c0 (repeated num c).2 := by
  unfold repeated
  rw [Py.bind_apply, flatten_eq hc]
  exact (h.new _).new _

end Core

/-! ## Calls -/

/-- The methods, as far as it matters here. -/
structure HeapLive (H : HeapAPI α κ) : Prop where
  methods : Core.MethodsLive H.M
  add : ∀ {c0 c} v, Attached c0 c → Attached c0 (H.add v c).2
  discard : ∀ {c0 c} v, Shrinks c0 c → Shrinks c0 (H.discard v c).2
  remove : ∀ {c0 c} v, Shrinks c0 c → Shrinks c0 (H.remove v c).2

theorem SL.heapLive (E : Env α) : HeapLive (SL.heapAPI E) where
  methods := ⟨fun _ => ⟨rfl, rfl⟩, fun src h => SL.update_live E src h, fun p i h => SL.delete_shrinks p i h⟩
  add v h := SL.add_attached E v h
  discard v h := SL.discard_shrinks E v h
  remove v h := SL.remove_shrinks E v h

theorem SKL.heapLive (K : KEnv α κ) : HeapLive (SKL.heapAPI K) where
  methods := ⟨fun _ => ⟨rfl, rfl⟩, fun src h => SKL.update_live K src h, fun p i h => SKL.delete_shrinks p i h⟩
  add v h := SKL.add_attached K v h
  discard v h := SKL.discard_shrinks K v h
  remove v h := SKL.remove_shrinks K v h

theorem out_end {β : Type} (f : β → Verif.Out α) (m : Run α κ β) (c : Ctx α κ) : (Spec.out f m c).2 = (m c).2 :=
  Spec.out_snd ..

section
variable {H : HeapAPI α κ} {V : Verif.Methods α κ} (hH : HeapSim H V) (hL : HeapLive H)
include hH hL

theorem update_call_live (src : Source α) (hc : Own c) : Live c (H.M.update src c).2 := by
  obtain ⟨xs, hx⟩ : ∃ xs, Yields c src xs := by cases src <;> exact ⟨_, rfl⟩
  rcases hL.methods.update src hc with h | h
  · exact h.live (hH.methods.update hc.rel hx).1
  · exact h.live

omit hL in
theorem values_untouched (src : Source α) (h : Untouched c0 c) : Untouched c0 (H.values src c).2 := by
  obtain ⟨xs, hx⟩ : ∃ xs, Yields ({ mem := c.mem, self := Obj.empty } : Ctx α κ) src xs := by cases src <;> exact ⟨_, rfl⟩
  have h1 := (hH.methods.update (empty_rel c.mem) hx).1.untouched rfl
  unfold HeapAPI.values
  rcases hy : H.M.update src { mem := c.mem, self := Obj.empty } with ⟨e | b, c'⟩ <;> rw [hy] at h1 <;>
    exact Untouched.trans (c1 := c) h h1

theorem call_live (op : Op α) (hc : Own c) : Live c (H.call op c).2 := by
  have hu := Untouched.refl c
  cases op with
  | add v =>
    rw [HeapAPI.call, out_end]
    exact (hL.add v fun _ h => h).live (hH.add v hc.rel).1
  | update xs => rw [HeapAPI.call, out_end]; exact update_call_live hH hL _ hc
  | iadd xs => rw [HeapAPI.call, out_end]; exact update_call_live hH hL _ hc
  | clear =>
    rw [HeapAPI.call, out_end]
    refine Untouched.live ?_
    unfold Untouched Ctx.cell
    rw [(hL.methods.clear c).1]; exact hu
  | discard v => rw [HeapAPI.call, out_end]; exact (hL.discard v (Shrinks.refl c)).live
  | remove v => rw [HeapAPI.call, out_end]; exact (hL.remove v (Shrinks.refl c)).live
  | getSlice sl =>
    rw [HeapAPI.call, out_end]
    have h1 := Core.getSlice_untouched H.M.ilog2 sl hc.rel hu
    exact Untouched.live (Ends.bind h1 fun _ _ => h1)
  | delInt i => rw [HeapAPI.call, out_end]; exact (Core.delInt_shrinks hL.methods i (Shrinks.refl c)).live
  | delSlice sl => rw [HeapAPI.call, out_end]; exact Core.delSlice_live hH.methods hL.methods sl hc
  | pop i => rw [HeapAPI.call, out_end]; exact (Core.pop_shrinks hL.methods i (Shrinks.refl c)).live
  | imul n => rw [HeapAPI.call, out_end]; exact (Core.imul_untouched hH.methods hL.methods n hc hu).live
  | reset load => rw [HeapAPI.call, out_end]; exact (Core.reset_untouched hH.methods hL.methods load hc hu).live
  | copy =>
    exact (congrArg (Live c) (out_end .vals (fun c => H.values (.values (Verif.Core.iter c.view)) c) c)).mpr
      (values_untouched hH _ hu).live
  | concat xs =>
    rw [HeapAPI.call, out_end]
    have h1 := Core.concatArg_untouched xs hc hu
    exact Untouched.live (Ends.bind h1 fun _ _ => values_untouched hH _ h1)
  | mul n =>
    rw [HeapAPI.call, out_end]
    have h1 := Core.repeated_untouched n hc hu
    exact Untouched.live (Ends.bind h1 fun _ _ => values_untouched hH _ h1)
  | _ => exact hu.live

end
end Heap
end Verif
