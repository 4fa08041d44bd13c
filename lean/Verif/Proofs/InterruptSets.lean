import Verif.CutSets
import Verif.Proofs.InterruptHist
import Verif.Proofs.Keeps
/-!
# Interrupted calls on sorted sets and dicts: the two stores separately
-/

namespace Verif
variable {α κ ν τ σ β γ δ : Type}

/-- From an object with `P` on, the program `mt` passes only through objects with `P`, and it does what `m` does; after an exception the
objects may differ as `like` allows.  (`Tr` is this for lists.) -/
def Trace (like : σ → σ → Prop) (P : σ → Prop) (mt : IPy σ β) (m : Py σ β) (s : σ) : Prop :=
  P s → ∀ h, ∃ d, (mt (s, h)).2.2 = h ++ d ∧ (∀ x ∈ d, P x) ∧ P (mt (s, h)).2.1 ∧ (mt (s, h)).1 = (m s).1 ∧
    like (m s).2 (mt (s, h)).2.1 ∧ ∀ b, (m s).1 = .ok b → (mt (s, h)).2.1 = (m s).2

theorem Tr.trace {P : St α κ → Prop} {mt : IPy (St α κ) β} {m : Py (St α κ) β} {s : St α κ} (h : Tr P mt m s) :
    Trace Reindexed P mt m s := h

namespace Trace
variable {like : σ → σ → Prop} {P : σ → Prop} {s : σ}

theorem of_still (hr : ∀ s, like s s) {m : Py σ β} (h : (m s).2 = s) : Trace like P (IPy.still m) m s := fun hs hh =>
  ⟨[], by simp [IPy.still], by simp, by rw [IPy.still, h]; exact hs, rfl, hr _, fun _ _ => rfl⟩

theorem pure (hr : ∀ s, like s s) (b : β) : Trace like P (Pure.pure b : IPy σ β) (Pure.pure b : Py σ β) s := fun hs hh =>
  ⟨[], (List.append_nil _).symm, by simp, hs, rfl, hr _, fun _ _ => rfl⟩

theorem raise (hr : ∀ s, like s s) (e : PyErr) : Trace like P (IPy.raise e : IPy σ β) (Py.raise e) s := of_still hr rfl

theorem lift (hr : ∀ s, like s s) (x : Except PyErr β) : Trace like P (IPy.lift x) (Py.lift x) s := of_still hr rfl

theorem bind {mt : IPy σ β} {m : Py σ β} {ft : β → IPy σ γ} {f : β → Py σ γ} (h1 : Trace like P mt m s)
    (h2 : ∀ b s1, m s = (.ok b, s1) → P s1 → Trace like P (ft b) (f b) s1) : Trace like P (mt >>= ft) (m >>= f) s := by
  intro hs hh
  obtain ⟨d, e1, e2, e3, e4, e5, e6⟩ := h1 hs hh
  have eq1 : (mt >>= ft) (s, hh) = Py.bind (σ := σ × List σ) mt ft (s, hh) := rfl
  have eq2 : (m >>= f) s = Py.bind m f s := rfl
  rw [eq1, eq2]
  unfold Py.bind
  rcases hmt : mt (s, hh) with ⟨r, s1, l1⟩
  rcases hm : m s with ⟨r', s1'⟩
  rw [hmt, hm] at e4 e5 e6
  rw [hmt] at e1 e3
  cases r' with
  | error e =>
    cases e4
    exact ⟨d, e1, e2, e3, rfl, e5, fun _ hb => nomatch hb⟩
  | ok b =>
    cases e4
    have : s1 = s1' := e6 b rfl
    subst this
    obtain ⟨d', g1, g2, g3, g4, g5, g6⟩ := h2 b s1 hm e3 e3 l1
    have e1 : l1 = hh ++ d := e1
    subst e1
    refine ⟨d ++ d', by rw [← List.append_assoc]; exact g1, ?_, g3, g4, g5, g6⟩
    intro x hx
    rcases List.mem_append.1 hx with h | h
    · exact e2 x h
    · exact g2 x h

theorem get_bind {ft : σ → IPy σ γ} {f : σ → Py σ γ} (h : Trace like P (ft s) (f s) s) : Trace like P (IPy.get >>= ft) (Py.get >>= f) s := h

theorem lift_bind (hr : ∀ s, like s s) {x : Except PyErr β} {ft : β → IPy σ γ} {f : β → Py σ γ}
    (h : ∀ b, x = .ok b → Trace like P (ft b) (f b) s) : Trace like P (IPy.lift x >>= ft) (Py.lift x >>= f) s :=
  bind (lift hr x) fun b s1 e _ => by
    obtain ⟨rfl, rfl⟩ := Prod.mk.inj e
    exact h b rfl

theorem write (hr : ∀ s, like s s) {g : σ → σ} (hP : P s → P (g s)) : Trace like P (IPy.write g) (Py.modify g) s := fun hs _ =>
  ⟨[g s], rfl, fun x hx => by rw [List.mem_singleton.1 hx]; exact hP hs, hP hs, rfl, hr _, fun _ _ => rfl⟩

theorem write_bind (hr : ∀ s, like s s) {g : σ → σ} {ft : Unit → IPy σ γ} {f : Unit → Py σ γ} (hP : P s → P (g s))
    (h : Trace like P (ft ()) (f ()) (g s)) : Trace like P (IPy.write g >>= ft) (Py.modify g >>= f) s :=
  bind (write hr hP) fun _ s1 e _ => by obtain ⟨-, rfl⟩ := Prod.mk.inj e; exact h

theorem ite {c : Prop} [Decidable c] {mt mt' : IPy σ β} {m m' : Py σ β} (h1 : c → Trace like P mt m s)
    (h2 : ¬ c → Trace like P mt' m' s) : Trace like P (if c then mt else mt') (if c then m else m') s := by
  by_cases hc : c
  · rw [if_pos hc, if_pos hc]; exact h1 hc
  · rw [if_neg hc, if_neg hc]; exact h2 hc

theorem weaken {mt : IPy σ β} {m : Py σ β} (h : Trace like P mt m s) {Q : σ → Prop} (hs : P s) (hQ : ∀ x, P x → Q x) :
    Trace like Q mt m s := fun _ hh => by
  obtain ⟨d, e1, e2, e3, e4, e5, e6⟩ := h hs hh
  exact ⟨d, e1, fun x hx => hQ x (e2 x hx), hQ _ e3, e4, e5, e6⟩

theorem points {mt : IPy σ β} {m : Py σ β} (h : Trace like P mt m s) (hs : P s) : ∀ x ∈ mt.points s, P x := by
  obtain ⟨d, e1, e2, -⟩ := h hs []
  intro x hx
  rcases List.mem_cons.1 hx with rfl | hx
  · exact hs
  · rw [e1] at hx; exact e2 x (by simpa using hx)

theorem out (hr : ∀ s, like s s) {mt : IPy σ β} {m : Py σ β} (h : Trace like P mt m s) (f : β → Out δ) :
    Trace like P (Spec.out f mt) (Spec.out f m) s := bind h fun b _ _ _ => pure hr (f b)

theorem dout (hr : ∀ s, like s s) {mt : IPy σ β} {m : Py σ β} (h : Trace like P mt m s) (f : β → DOut κ ν) :
    Trace like P (Interrupt.SD.out f mt) (SD.out f m) s := bind h fun b _ _ _ => pure hr (f b)

end Trace

/-- The sets differ in the list at most, and that as `like` allows. -/
def SS.Alike (like : σ → σ → Prop) (s s' : SS τ σ) : Prop := s.set = s'.set ∧ like s.list s'.list

/-- The same for dicts. -/
def SD.Alike (like : σ → σ → Prop) (s s' : SD κ ν σ) : Prop := s.dict = s'.dict ∧ like s.list s'.list

theorem Trace.ssList {like : σ → σ → Prop} {Q : σ → Prop} {P : SS τ σ → Prop} {mt : IPy σ β} {m : Py σ β} {s : SS τ σ}
    (h : Trace like Q mt m s.list) (hs : Q s.list) (hP : ∀ l, Q l → P { s with list := l }) :
    Trace (SS.Alike like) P (Interrupt.SS.onList mt) (SS.onList m) s := fun _ hh => by
  obtain ⟨d, e1, e2, e3, e4, e5, e6⟩ := h hs []
  refine ⟨d.map fun l => { s with list := l }, ?_, ?_, hP _ e3, e4, ⟨rfl, e5⟩, ?_⟩
  · show hh ++ List.map _ (mt (s.list, [])).2.2 = _
    rw [e1]; rfl
  · intro x hx
    obtain ⟨l, hl, rfl⟩ := List.mem_map.1 hx
    exact hP l (e2 l hl)
  · intro b hb
    exact congrArg (fun l => ({ s with list := l } : SS τ σ)) (e6 b hb)

theorem Trace.sdList {like : σ → σ → Prop} {Q : σ → Prop} {P : SD κ ν σ → Prop} {mt : IPy σ β} {m : Py σ β} {s : SD κ ν σ}
    (h : Trace like Q mt m s.list) (hs : Q s.list) (hP : ∀ l, Q l → P { s with list := l }) :
    Trace (SD.Alike like) P (Interrupt.SD.onList mt) (SD.onList m) s := fun _ hh => by
  obtain ⟨d, e1, e2, e3, e4, e5, e6⟩ := h hs []
  refine ⟨d.map fun l => { s with list := l }, ?_, ?_, hP _ e3, e4, ⟨rfl, e5⟩, ?_⟩
  · show hh ++ List.map _ (mt (s.list, [])).2.2 = _
    rw [e1]; rfl
  · intro x hx
    obtain ⟨l, hl, rfl⟩ := List.mem_map.1 hx
    exact hP l (e2 l hl)
  · intro b hb
    exact congrArg (fun l => ({ s with list := l } : SD κ ν σ)) (e6 b hb)

theorem Thru.ssList {Q : σ → Prop} {P : SS τ σ → Prop} {A : β → Prop} {mt : IPy σ β} (h : Thru Q A mt)
    (hs : ∀ s, P s → Q s.list) (hP : ∀ s l, P s → Q l → P { s with list := l }) : Thru P A (Interrupt.SS.onList mt : IPy (SS τ σ) β) :=
  fun s hh hs' => by
  obtain ⟨d, e1, e2, e3, e4⟩ := h s.list [] (hs s hs')
  refine ⟨d.map fun l => { s with list := l }, ?_, ?_, hP _ _ hs' e3, e4⟩
  · show hh ++ List.map _ (mt (s.list, [])).2.2 = _
    rw [e1]; rfl
  · intro x hx
    obtain ⟨l, hl, rfl⟩ := List.mem_map.1 hx
    exact hP _ l hs' (e2 l hl)

theorem Thru.sdList {Q : σ → Prop} {P : SD κ ν σ → Prop} {A : β → Prop} {mt : IPy σ β} (h : Thru Q A mt)
    (hs : ∀ s, P s → Q s.list) (hP : ∀ s l, P s → Q l → P { s with list := l }) : Thru P A (Interrupt.SD.onList mt : IPy (SD κ ν σ) β) :=
  fun s hh hs' => by
  obtain ⟨d, e1, e2, e3, e4⟩ := h s.list [] (hs s hs')
  refine ⟨d.map fun l => { s with list := l }, ?_, ?_, hP _ _ hs' e3, e4⟩
  · show hh ++ List.map _ (mt (s.list, [])).2.2 = _
    rw [e1]; rfl
  · intro x hx
    obtain ⟨l, hl, rfl⟩ := List.mem_map.1 hx
    exact hP _ l hs' (e2 l hl)

/-! ## The list classes -/

/-- What the proofs about interrupted sets and dicts use of the list. -/
structure IListAPI.Cuts (IL : IListAPI σ α) (L : ListAPI σ α) (I : σ → Prop) (load : σ → Nat) (like : σ → σ → Prop) : Prop where
  refl : ∀ s, like s s
  iter : ∀ {s s'}, like s s' → L.iter s' = L.iter s
  load_like : ∀ {s s'}, like s s' → load s' = load s
  load_remove : ∀ s v, load (L.remove v s).2 = load s
  add : ∀ {s}, I s → ∀ v, Trace like (fun x => (Op.add v).Aftermath (load s) (L.iter s) (L.iter (L.add v s).2) (L.iter x)) (IL.add v) (L.add v) s
  update : ∀ {s}, I s → ∀ xs, Trace like (fun x => PartOf (L.iter s ++ xs) (L.iter x)) (IL.update xs) (L.update xs) s
  clear : ∀ s, Trace like (fun x => L.iter x = L.iter s ∨ L.iter x = []) IL.clear L.clear s
  remove : ∀ {s}, I s → ∀ v, Trace like (fun x => L.iter x = L.iter s ∨ Torn (load s * 2) (L.iter (L.remove v s).2) (L.iter x)) (IL.remove v) (L.remove v) s
  delInt : ∀ {s}, I s → ∀ i, Trace like (fun x => L.iter x = L.iter s ∨ Torn (load s * 2) (L.iter (L.delInt i s).2) (L.iter x)) (IL.delInt i) (L.delInt i) s
  pop : ∀ {s}, I s → ∀ i, Trace like (fun x => L.iter x = L.iter s ∨ Torn (load s * 2) (L.iter (L.pop i s).2) (L.iter x)) (IL.pop i) (L.pop i) s
  delSlice : ∀ {s}, I s → ∀ sl, Trace like (fun x => ∃ F, PartOf (L.iter s) F ∧ Torn (load s * 2) F (L.iter x)) (IL.delSlice sl) (L.delSlice sl) s
  reset : ∀ {s}, I s → ∀ {load}, 1 ≤ load → Trace like (fun x => PartOf (L.iter s) (L.iter x)) (IL.reset load) (L.reset load) s

/-- The queries of the list. -/
structure IListAPI.Asks (IL : IListAPI σ α) (L : ListAPI σ α) (like : σ → σ → Prop) : Prop where
  refl : ∀ s, like s s
  getInt : ∀ s i, Trace like (like s) (IL.getInt i) (L.getInt i) s
  getSlice : ∀ s sl, Trace like (like s) (IL.getSlice sl) (L.getSlice sl) s
  bisectLeft : ∀ s v, Trace like (like s) (IL.bisectLeft v) (L.bisectLeft v) s
  bisectRight : ∀ s v, Trace like (like s) (IL.bisectRight v) (L.bisectRight v) s
  index : ∀ s v a b, Trace like (like s) (IL.index v a b) (L.index v a b) s
  islice : ∀ s a b r, Trace like (like s) (IL.islice a b r) (L.islice a b r) s
  irange : ∀ s lo hi a b r, (L.irange lo hi a b r s).2 = s

theorem Interrupt.SL.asks (E : Env α) : (Interrupt.SL.api E).Asks (Verif.SL.api E) Reindexed where
  refl := Reindexed.refl
  getInt := fun s i => getInt_tr (noIndex_reindexed s) i
  getSlice := fun s sl => getSlice_tr (noIndex_reindexed s) sl
  bisectLeft := fun s v => bisect_left_tr (noIndex_reindexed s) v
  bisectRight := fun s v => bisect_right_tr (noIndex_reindexed s) v
  index := fun s v a b => index_tr (noIndex_reindexed s) v a b
  islice := fun s a b r => islice_tr (noIndex_reindexed s) a b r
  irange := fun s lo hi a b r => Verif.SL.irange_stays E lo hi a b r s

theorem Interrupt.SKL.asks (K : KEnv α κ) : (Interrupt.SKL.api K).Asks (Verif.SKL.api K) Reindexed where
  refl := Reindexed.refl
  getInt := fun s i => getInt_tr (noIndex_reindexed s) i
  getSlice := fun s sl => getSlice_tr (noIndex_reindexed s) sl
  bisectLeft := fun s v => bisect_left_tr (noIndex_reindexed s) v
  bisectRight := fun s v => bisect_right_tr (noIndex_reindexed s) v
  index := fun s v a b => index_tr (noIndex_reindexed s) v a b
  islice := fun s a b r => islice_tr (noIndex_reindexed s) a b r
  irange := fun s lo hi a b r => Verif.SKL.irange_stays K lo hi a b r s

theorem Interrupt.SL.cuts {E : Env α} {lt : α → α → Bool} (hE : E.Lawful lt) :
    (Interrupt.SL.api E).Cuts (Verif.SL.api E) (Inv id lt false) St.load Reindexed where
  refl := Reindexed.refl
  iter := by rintro s _ ⟨i, o, rfl⟩; rfl
  load_like := by rintro s _ ⟨i, o, rfl⟩; rfl
  load_remove := fun s v => Verif.SL.remove_load E v s
  add := fun hs v => add_cut E hs.whole v
  update := fun hs xs => update_cut (Verif.SL.lawful_sane hE) hs.whole xs
  clear := fun s => clear_tr (R := fun l => l = Core.iter s ∨ l = []) (.inr rfl)
  remove := fun hs v => remove_cut (Verif.SL.lawful_sane hE) hs.whole v
  delInt := fun hs i => (cutM (Verif.SL.lawful_sane hE)).delInt hs.whole i
  pop := fun hs i => (cutM (Verif.SL.lawful_sane hE)).pop hs.whole i
  delSlice := fun hs sl => (cutM (Verif.SL.lawful_sane hE)).delSlice hs.whole sl
  reset := fun _ _ hl => (cutM (Verif.SL.lawful_sane hE)).reset hl

theorem Interrupt.SKL.cuts {K : KEnv α κ} {key : α → κ} {klt : κ → κ → Bool} {veq : α → α → Bool} (hK : K.Lawful key klt veq) :
    (Interrupt.SKL.api K).Cuts (Verif.SKL.api K) (Inv key klt true) St.load Reindexed where
  refl := Reindexed.refl
  iter := by rintro s _ ⟨i, o, rfl⟩; rfl
  load_like := by rintro s _ ⟨i, o, rfl⟩; rfl
  load_remove := fun s v => Verif.SKL.remove_load K v s
  add := fun hs v => add_cut K hs.whole_erase v
  update := fun hs xs => update_cut (Verif.SKL.lawful_sane hK) hs.whole_erase xs
  clear := fun s => clear_tr (R := fun l => l = Core.iter s ∨ l = []) (.inr rfl)
  remove := fun hs v => remove_cut (Verif.SKL.lawful_sane hK) hs.whole_erase v
  delInt := fun hs i => (cutM (Verif.SKL.lawful_sane hK)).delInt hs.whole_erase i
  pop := fun hs i => (cutM (Verif.SKL.lawful_sane hK)).pop hs.whole_erase i
  delSlice := fun hs sl => (cutM (Verif.SKL.lawful_sane hK)).delSlice hs.whole_erase sl
  reset := fun _ _ hl => (cutM (Verif.SKL.lawful_sane hK)).reset hl

theorem ListClass.asks (c : ListClass α) : c.interrupted.Asks c.api c.Reindexed := by
  cases c with
  | plain E => exact Interrupt.SL.asks E
  | keyed K => exact Interrupt.SKL.asks K

theorem ListClass.Calls.asks {c : ListClass α} {IL : IListAPI c.State α} {L : ListAPI c.State α} (h : c.Calls IL L) : IL.Asks L c.Reindexed := by
  cases c with
  | plain E => obtain ⟨E, -, rfl, rfl⟩ := h; exact Interrupt.SL.asks E
  | keyed K => obtain ⟨K, -, rfl, rfl⟩ := h; exact Interrupt.SKL.asks K

/-- The classes whose comparisons are an order. -/
theorem ListClass.Orders.cuts {c : ListClass α} {lt eqv : α → α → Bool} (hc : c.Orders lt eqv) :
    ∃ O I, c.api.Lawful O I ∧ O.lt = lt ∧ (∀ a b, O.same a b = eqv a b) ∧ c.interrupted.Cuts c.api I c.load c.Reindexed := by
  cases hc with
  | plain hE he => exact ⟨_, _, SL.api_lawful hE, rfl, fun a b => (he a b).symm, Interrupt.SL.cuts hE⟩
  | keyed hK heq =>
    refine ⟨_, _, SKL.api_lawful hK, rfl, fun a b => ?_, Interrupt.SKL.cuts hK⟩
    show (equiv _ _ _ && _) = _
    rcases Bool.eq_false_or_eq_true (eqv a b) with h | h
    · rw [h, heq a b h]; rfl
    · rw [h]; simp

end Verif
