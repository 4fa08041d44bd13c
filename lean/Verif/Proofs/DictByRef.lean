import Verif.Proofs.DictFrame
/-!
# Dicts given by reference: what is read from them is what they contain
-/

namespace Verif
namespace DictHeap
open PyDict (keys ofPairs Keyed)
variable {κ ν σ β γ : Type} {m m' m1 m2 : Mem κ ν σ} {A B A' B' : Nat → Prop} {a b l : Nat} {s s' : SD κ ν σ}
  {eqv : κ → κ → Bool} {L : ListAPI σ κ} {o ob : Obj κ ν} {ps : List (κ × ν)}

theorem set_lookup (he : IsEquiv eqv) {d : List (κ × ν)} (hd : Keyed eqv d) {k : κ} {v : ν} (h : PyDict.lookup eqv d k = some v) :
    PyDict.set eqv d k v = d := by
  have hh : PyDict.has eqv d k = true := by rw [PyDict.has_eq_lookup, h]; rfl
  unfold PyDict.set
  rw [if_pos hh]
  refine (List.map_congr_left fun p hp => ?_).trans (List.map_id d)
  split
  · rename_i hk
    have h2 : PyDict.lookup eqv d k = some p.2 := (PyDict.lookup_of_keyed he hd k p.2).2 ⟨p.1, hk, hp⟩
    rw [h] at h2
    cases h2
    rfl
  · rfl

theorem update_lookup (he : IsEquiv eqv) {d : List (κ × ν)} (hd : Keyed eqv d) (h : ∀ p ∈ ps, PyDict.lookup eqv d p.1 = some p.2) :
    PyDict.update eqv d ps = d := by
  induction ps with
  | nil => rfl
  | cons p ps ih =>
    show PyDict.update eqv (PyDict.set eqv d p.1 p.2) ps = d
    rw [set_lookup he hd (h p (by simp))]
    exact ih fun q hq => h q (by simp [hq])

/-- Iteration over the dict object `o` at `b` yields the keys of `ps`, and it has their values. -/
structure Src (eqv : κ → κ → Bool) (L : ListAPI σ κ) (m : Mem κ ν σ) (b : Nat) (o : Obj κ ν) (ps : List (κ × ν)) : Prop where
  obj : m.dicts[b]? = some o
  keys : iter L b m = (.ok (keys ps), m)
  lookup : ∀ p ∈ ps, PyDict.lookup eqv o.items p.1 = some p.2
  length : o.items.length = ps.length

theorem iter_same {ks : List κ} (ho : m.dicts[b]? = some o) (h : iter L b m = (.ok ks, m)) (ho' : m'.dicts[b]? = some o)
    (hl : ∀ (k : Nat) (s : σ), m.lists[k]? = some s → m'.lists[k]? = some s) : iter L b m' = (.ok ks, m') := by
  obtain ⟨d, at'⟩ := o
  cases at' with
  | none =>
    simp only [iter, ho] at h
    simp only [iter, ho']
    cases h
    rfl
  | some x =>
    have e : attrs b m = (.ok x, m) := by simp only [attrs, ho, Option.bind_some]
    have e' : attrs b m' = (.ok x, m') := by simp only [attrs, ho', Option.bind_some]
    simp only [iter, ho, bound] at h
    simp only [iter, ho', bound]
    rw [Py.bind_ok e] at h
    rw [Py.bind_ok e']
    simp only [onList] at h ⊢
    cases e1 : m.lists[x.methods]? with
    | none => rw [e1] at h; cases h
    | some t =>
      rw [e1] at h
      rw [hl _ _ e1]
      simp only [readList] at h ⊢
      have := congrArg Prod.fst h
      cases this
      rw [set_self (hl _ _ e1)]

theorem Src.stays (h : Src eqv L m b o ps) (hs : Stays A Nil m m') (hb : ¬ A b) : Src eqv L m' b o ps :=
  ⟨hs.dicts b o hb h.obj, iter_same h.obj h.keys (hs.dicts b o hb h.obj) fun k s e => hs.lists k s id e, h.lookup, h.length⟩

/-- A plain dict. -/
theorem Src.plain (he : IsEquiv eqv) {d : List (κ × ν)} (h : m.dicts[b]? = some { items := d, attrs := none }) (hd : Keyed eqv d) :
    Src eqv L m b { items := d, attrs := none } d :=
  ⟨h, by simp only [iter, h], fun p hp => PyDict.lookup_mem he hd hp, rfl⟩

theorem getitem_src (h : m.dicts[b]? = some o) {k : κ} {v : ν} (hv : PyDict.lookup eqv o.items k = some v) :
    getitem eqv b k m = (.ok v, m) := by
  have e : items b m = (.ok o.items, m) := by simp only [items, h]
  unfold getitem
  rw [Py.bind_ok e]
  simp only [PyDict.getitem, hv]
  rfl

/-- The memory in which the items of the dict object `o` at `a` are `d`. -/
abbrev put (m : Mem κ ν σ) (a : Nat) (o : Obj κ ν) (d : List (κ × ν)) : Mem κ ν σ :=
  { m with dicts := m.dicts.set a { o with items := d } }

theorem onDict_run (h : m.dicts[a]? = some o) (f : List (κ × ν) → List (κ × ν)) : onDict a f m = (.ok (), put m a o (f o.items)) := by
  simp only [onDict, h]

theorem put_self (h : m.dicts[a]? = some o) : put m a o o.items = m := by
  have : (⟨o.items, o.attrs⟩ : Obj κ ν) = o := rfl
  simp only [put, this, set_self h]

theorem put_put (d d' : List (κ × ν)) : put (put m a o d) a { o with items := d } d' = put m a o d' := by
  simp only [put, List.set_set]

theorem put_get (h : m.dicts[a]? = some o) (d : List (κ × ν)) : (put m a o d).dicts[a]? = some { o with items := d } := by
  simp [put, lt_of_some h]

theorem put_get_ne (hab : a ≠ b) (d : List (κ × ν)) : (put m a o d).dicts[b]? = m.dicts[b]? := by
  simp only [put]; rw [List.getElem?_set_ne hab]

/-- The loop of `merge`. -/
theorem merge_loop (hab : a ≠ b) (ha : m.dicts[a]? = some o) (hb : m.dicts[b]? = some ob)
    (hl : ∀ p ∈ ps, PyDict.lookup eqv ob.items p.1 = some p.2) :
    Py.forEach (fun k => do
      let v ← getitem eqv b k
      onDict a fun d => PyDict.set eqv d k v) (keys ps) m = (.ok (), put m a o (PyDict.update eqv o.items ps)) := by
  induction ps generalizing m o with
  | nil =>
    show (Except.ok (), m) = _
    rw [show PyDict.update eqv o.items [] = o.items from rfl, put_self ha]
  | cons p ps ih =>
    show ((getitem eqv b p.1 >>= fun v => onDict a fun d => PyDict.set eqv d p.1 v) >>= fun _ => Py.forEach _ (keys ps)) m = _
    rw [Py.bind_assoc', Py.bind_ok (getitem_src hb (hl p (by simp))), Py.bind_ok (onDict_run ha _),
      ih (put_get ha _) ((put_get_ne hab _).trans hb) fun q hq => hl q (by simp [hq]), put_put]
    rfl

theorem merge_other (hab : a ≠ b) (ha : m.dicts[a]? = some o) (hb : Src eqv L m b ob ps) :
    merge eqv L a b m = (.ok (), put m a o (PyDict.update eqv o.items ps)) := by
  unfold merge
  rw [Py.bind_ok hb.keys]
  exact merge_loop hab ha hb.obj hb.lookup

theorem merge_self_loop (he : IsEquiv eqv) (ha : m.dicts[a]? = some o) (hk : Keyed eqv o.items)
    (hl : ∀ p ∈ ps, PyDict.lookup eqv o.items p.1 = some p.2) :
    Py.forEach (fun k => do
      let v ← getitem eqv a k
      onDict a fun d => PyDict.set eqv d k v) (keys ps) m = (.ok (), m) := by
  induction ps with
  | nil => rfl
  | cons p ps ih =>
    show ((getitem eqv a p.1 >>= fun v => onDict a fun d => PyDict.set eqv d p.1 v) >>= fun _ => Py.forEach _ (keys ps)) m = _
    rw [Py.bind_assoc', Py.bind_ok (getitem_src ha (hl p (by simp))), Py.bind_ok (onDict_run ha _),
      set_lookup he hk (hl p (by simp)), put_self ha]
    exact ih fun q hq => hl q (by simp [hq])

theorem merge_run (he : IsEquiv eqv) (ha : m.dicts[a]? = some o) (hk : Keyed eqv o.items) (hb : Src eqv L m b ob ps) :
    merge eqv L a b m = (.ok (), put m a o (PyDict.update eqv o.items ps)) := by
  by_cases hab : a = b
  · subst hab
    have : o = ob := by simpa using ha.symm.trans hb.obj
    subst this
    unfold merge
    rw [Py.bind_ok hb.keys, merge_self_loop he ha hk hb.lookup, update_lookup he hk hb.lookup, put_self ha]
  · exact merge_other hab ha hb

/-- Several dicts, and their items one after the other. -/
inductive Sources (eqv : κ → κ → Bool) (L : ListAPI σ κ) (m : Mem κ ν σ) : List Nat → List (κ × ν) → Prop
  | nil : Sources eqv L m [] []
  | cons {b : Nat} {o : Obj κ ν} {qs : List (κ × ν)} {bs : List Nat} {ps : List (κ × ν)} :
    Src eqv L m b o qs → Sources eqv L m bs ps → Sources eqv L m (b :: bs) (qs ++ ps)

theorem Sources.stays {bs : List Nat} (h : Sources eqv L m bs ps) (hs : Stays A Nil m m') (hb : ∀ b ∈ bs, ¬ A b) :
    Sources eqv L m' bs ps := by
  induction h with
  | nil => exact .nil
  | cons h1 _ ih => exact .cons (h1.stays hs (hb _ (by simp))) (ih fun b hb' => hb b (by simp [hb']))

theorem Sources.lt {bs : List Nat} (h : Sources eqv L m bs ps) : ∀ b ∈ bs, b < m.dicts.length := by
  induction h with
  | nil => intro b hb; cases hb
  | cons h1 _ ih =>
    intro b hb
    rcases List.mem_cons.1 hb with rfl | hb
    · exact lt_of_some h1.obj
    · exact ih b hb

theorem put_stays (h : m.dicts[a]? = some o) (d : List (κ × ν)) : Stays (· = a) B m (put m a o d) := .setDict h d rfl

theorem merges_run {bs : List Nat} (h : Sources eqv L m bs ps) (hab : a ∉ bs) (ha : m.dicts[a]? = some o) :
    Py.forEach (merge eqv L a) bs m = (.ok (), put m a o (PyDict.update eqv o.items ps)) := by
  induction bs generalizing m o ps with
  | nil =>
    cases h
    show (Except.ok (), m) = _
    rw [show PyDict.update eqv o.items [] = o.items from rfl, put_self ha]
  | cons b bs ih =>
    cases h with
    | cons h1 h2 =>
      simp only [List.mem_cons, not_or] at hab
      show (merge eqv L a b >>= fun _ => Py.forEach _ bs) m = _
      rw [Py.bind_ok (merge_other hab.1 ha h1),
        ih (h2.stays (put_stays ha _) fun b hb => fun (hh : b = a) => hab.2 (hh ▸ hb)) hab.2 (put_get ha _), put_put,
        PyDict.update_append]

/-- What the argument of a call on the dict at `a` yields, and the exception that ends it. -/
def ArgIs (eqv : κ → κ → Bool) (L : ListAPI σ κ) (m : Mem κ ν σ) (a : Nat) (ps : List (κ × ν)) (fail : Option PyErr) : Arg κ ν → Prop
  | .obj b => (∃ o, Src eqv L m b o ps) ∧ fail = none
  | .itemsOf bs => Sources eqv L m bs ps ∧ (a ∉ bs ∨ bs = [a]) ∧ fail = none
  | .pairs items f => items = ps ∧ f = fail

/-- The argument by value. -/
def Arg.value (ps : List (κ × ν)) : Arg κ ν → DictArg κ ν
  | .obj _ => .dict ps
  | .itemsOf _ => .pairs ps none
  | .pairs items f => .pairs items f

theorem ArgIs.items {arg : Arg κ ν} {fail : Option PyErr} (h : ArgIs eqv L m a ps fail arg) :
    (arg.value ps).items = ps ∧ (arg.value ps).fail = fail := by
  cases arg with
  | obj b => exact ⟨rfl, h.2.symm⟩
  | itemsOf bs => exact ⟨rfl, h.2.2.symm⟩
  | pairs items f => exact h

/-- The exception, if any. -/
def ends : Option PyErr → Except PyErr Unit
  | none => .ok ()
  | some e => .error e

theorem dictUpdate_run (he : IsEquiv eqv) {arg : Arg κ ν} {fail : Option PyErr} (ha : m.dicts[a]? = some o) (hk : Keyed eqv o.items)
    (h : ArgIs eqv L m a ps fail arg) :
    dictUpdate eqv L a arg m = (ends fail, put m a o (PyDict.update eqv o.items ps)) := by
  cases arg with
  | obj b =>
    obtain ⟨⟨ob, hb⟩, rfl⟩ := h
    exact merge_run he ha hk hb
  | itemsOf bs =>
    obtain ⟨hb, hab | hab, rfl⟩ := h
    · exact merges_run hb hab ha
    · subst hab
      cases hb with
      | cons h1 h2 =>
        cases h2
        show (merge eqv L a a >>= fun _ => Py.forEach _ []) m = _
        rw [Py.bind_ok (merge_run he ha hk h1), List.append_nil]
        rfl
  | pairs items f =>
    obtain ⟨rfl, rfl⟩ := h
    cases f with
    | none => simp only [dictUpdate]; rw [Py.bind_ok (onDict_run ha _)]; rfl
    | some e => simp only [dictUpdate]; rw [Py.bind_ok (onDict_run ha _)]; rfl

/-- `LiftsAt`: the method does what it does by value, in the memory `m` where the sorted dict at `a` has the value `s`. -/
def LiftsAt (a l : Nat) (m : Mem κ ν σ) (s : SD κ ν σ) (r : Run κ ν σ β) (f : Py (SD κ ν σ) β) : Prop :=
  ∃ m', r m = ((f s).1, m') ∧ At m' a l (f s).2 ∧ Own a l m m'

theorem LiftsAt.bind {r : Run κ ν σ β} {f : Py (SD κ ν σ) β} {r' : β → Run κ ν σ γ} {f' : β → Py (SD κ ν σ) γ}
    (h : LiftsAt a l m s r f)
    (h' : ∀ b m' s', f s = (.ok b, s') → At m' a l s' → Own a l m m' → LiftsAt a l m' s' (r' b) (f' b)) :
    LiftsAt a l m s (r >>= r') (f >>= f') := by
  obtain ⟨m1, e1, h1, o1⟩ := h
  rcases e : f s with ⟨x | b, s1⟩
  · rw [e] at e1 h1
    unfold LiftsAt
    rw [Py.bind_error e1, Py.bind_error e]
    exact ⟨m1, rfl, h1, o1⟩
  · rw [e] at e1 h1
    unfold LiftsAt
    rw [Py.bind_ok e1, Py.bind_ok e]
    obtain ⟨m2, e2, h2, o2⟩ := h' b m1 s1 e h1 o1
    exact ⟨m2, e2, h2, o1.trans o2⟩

theorem At.put (h : At m a l s) (d : List (κ × ν)) :
    At (put m a ⟨s.dict, some ⟨l, l⟩⟩ d) a l { s with dict := d } := ⟨put_get h.dict d, h.list⟩

theorem dictUpdate_lifts (he : IsEquiv eqv) {arg : Arg κ ν} {fail : Option PyErr} (hs : At m a l s) (hk : Keyed eqv s.dict)
    (h : ArgIs eqv L m a ps fail arg) : LiftsAt a l m s (dictUpdate eqv L a arg) (SD.dictUpdate eqv (arg.value ps)) := by
  refine ⟨_, ?_, ?_, put_stays hs.dict (PyDict.update eqv s.dict ps)⟩
  · rw [dictUpdate_run he hs.dict hk h]
    congr 1
    unfold SD.dictUpdate
    rw [h.items.1, h.items.2]
    cases fail <;> rfl
  · have : (SD.dictUpdate eqv (arg.value ps) s).2 = { s with dict := PyDict.update eqv s.dict ps } := by
      unfold SD.dictUpdate
      rw [h.items.1, h.items.2]
      cases fail <;> rfl
    rw [this]
    exact hs.put _

/-- `pairs` in `update`. -/
theorem pairsOf_run (he : IsEquiv eqv) {arg : Arg κ ν} {fail : Option PyErr} (h : ArgIs eqv L m a ps fail arg) :
    ∃ m1, Stays Nil Nil m m1 ∧ match SD.pairsOf eqv (arg.value ps) with
      | .error e => pairsOf eqv L arg m = (.error e, m1)
      | .ok qs => ∃ b o, pairsOf eqv L arg m = (.ok b, m1) ∧ Src eqv L m1 b o qs := by
  have fresh : ∀ (arg : Arg κ ν), (pairsOf eqv L arg : Run κ ν σ Nat) = (do
        let b ← newDict { items := [], attrs := none }
        dictUpdate eqv L b arg
        pure b) → ∀ fail, ArgIs eqv L { m with dicts := m.dicts ++ [{ items := [], attrs := none }] } m.dicts.length ps fail arg →
      ∃ m1, Stays Nil Nil m m1 ∧ match fail with
        | some e => pairsOf eqv L arg m = (.error e, m1)
        | none => ∃ b o, pairsOf eqv L arg m = (.ok b, m1) ∧ Src eqv L m1 b o (ofPairs eqv ps) := by
    intro arg e fail harg
    have e1 : (newDict { items := [], attrs := none } : Run κ ν σ Nat) m =
      (.ok m.dicts.length, { m with dicts := m.dicts ++ [{ items := [], attrs := none }] }) := rfl
    have hb : ({ m with dicts := m.dicts ++ [{ items := [], attrs := none }] } : Mem κ ν σ).dicts[m.dicts.length]? =
      some { items := [], attrs := none } := by simp
    have e2 := dictUpdate_run he hb .nil harg
    have hst : Stays Nil Nil m (put { m with dicts := m.dicts ++ [{ items := [], attrs := none }] } m.dicts.length
        { items := [], attrs := none } (ofPairs eqv ps)) :=
      Stays.trans_of (.newDict _) (put_stays hb (ofPairs eqv ps)) (fun b hb hb' => by omega) fun _ _ h => h
    refine ⟨_, hst, ?_⟩
    rw [e, Py.bind_ok e1]
    cases fail with
    | some x => rw [Py.bind_error e2]; rfl
    | none =>
      rw [Py.bind_ok e2]
      exact ⟨_, _, rfl, Src.plain he (put_get hb _) (PyDict.Keyed.nil.update ps)⟩
  cases arg with
  | obj b =>
    obtain ⟨⟨o, ho⟩, _⟩ := h
    exact ⟨m, .refl _ _ m, b, o, rfl, ho⟩
  | itemsOf bs =>
    obtain ⟨hb, _, _⟩ := h
    refine fresh _ rfl none ⟨hb.stays (A := Nil) (.newDict _) fun _ _ => id, .inl fun hm => ?_, rfl⟩
    exact absurd (hb.lt _ hm) (Nat.lt_irrefl _)
  | pairs items f =>
    obtain ⟨rfl, rfl⟩ := h
    obtain ⟨m1, h1, h2⟩ := fresh (.pairs items f) rfl f ⟨rfl, rfl⟩
    refine ⟨m1, h1, ?_⟩
    cases f with
    | none => exact h2
    | some e => exact h2

theorem Lifts.at {r : Run κ ν σ β} {f : Py (SD κ ν σ) β} (h : Lifts a l r f) (hs : At m a l s) : LiftsAt a l m s r f := h m s hs

/-- The loop over the keys of another dict. -/
theorem setitems_lifts (hab : a ≠ b) (hs : At m a l s) (hb : m.dicts[b]? = some ob)
    (hl : ∀ p ∈ ps, PyDict.lookup eqv ob.items p.1 = some p.2) :
    LiftsAt a l m s (Py.forEach (fun k => do
      let v ← getitem eqv b k
      setitem eqv L a k v) (keys ps)) (Py.forEach (fun p => SD.setitem eqv L p.1 p.2) ps) := by
  induction ps generalizing m s with
  | nil => exact ⟨m, rfl, hs, .refl _ _ m⟩
  | cons p ps ih =>
    have e : Py.forEach (fun k => do
        let v ← getitem eqv b k
        setitem eqv L a k v) (keys (p :: ps)) m = (setitem eqv L a p.1 p.2 >>= fun _ => Py.forEach (fun k => do
        let v ← getitem eqv b k
        setitem eqv L a k v) (keys ps)) m := by
      show ((getitem eqv b p.1 >>= fun v => setitem eqv L a p.1 v) >>= fun _ => Py.forEach _ (keys ps)) m = _
      rw [Py.bind_assoc', Py.bind_ok (getitem_src hb (hl p (by simp)))]
    have h2 : LiftsAt a l m s (setitem eqv L a p.1 p.2 >>= fun _ => Py.forEach (fun k => do
        let v ← getitem eqv b k
        setitem eqv L a k v) (keys ps)) (Py.forEach (fun p => SD.setitem eqv L p.1 p.2) (p :: ps)) := by
      refine LiftsAt.bind (f := SD.setitem eqv L p.1 p.2) ((Lifts.setitem eqv L p.1 p.2).at hs) fun _ m' s' _ hs' ho => ?_
      exact ih hs' (ho.dicts b ob (fun h => hab h.symm) hb) fun q hq => hl q (by simp [hq])
    unfold LiftsAt at h2 ⊢
    rw [e]
    exact h2

theorem LiftsAt.items {r : List (κ × ν) → Run κ ν σ β} {f : SD κ ν σ → Py (SD κ ν σ) β} (hs : At m a l s)
    (h : LiftsAt a l m s (r s.dict) (f s)) : LiftsAt a l m s (DictHeap.items a >>= r) (Py.get >>= f) := by
  unfold LiftsAt at h ⊢
  rw [Py.bind_ok (items_run hs)]
  exact h

theorem bounds_lifts (hs : At m a l s) : LiftsAt a l m s (do bound a (L.update (keys (← items a))))
    (do let s ← Py.get; SD.onList (L.update (keys s.dict)) : Py (SD κ ν σ) Unit) :=
  LiftsAt.items hs ((Lifts.bound _).at hs)

/-- `update` with dicts by reference. -/
theorem update_lifts (he : IsEquiv eqv) {arg : Arg κ ν} {fail : Option PyErr} (hs : At m a l s) (hk : Keyed eqv s.dict)
    (h : ArgIs eqv L m a ps fail arg) : LiftsAt a l m s (update eqv L a arg) (SD.update eqv L (arg.value ps)) := by
  unfold update SD.update
  refine LiftsAt.items hs ?_
  split
  · exact LiftsAt.bind (dictUpdate_lifts he hs hk h) fun _ m' s' _ hs' _ => bounds_lifts hs'
  · rename_i hne
    obtain ⟨m1, h1, h2⟩ := pairsOf_run he h
    have hs1 : At m1 a l s := hs.same h1 id id
    have o1 : Own a l m m1 := h1.mono (fun _ h => h.elim) fun _ h => h.elim
    cases e : SD.pairsOf eqv (arg.value ps) with
    | error x =>
      rw [e] at h2
      simp only at h2
      unfold LiftsAt
      rw [Py.bind_error h2, Py.lift_error_bind]
      exact ⟨m1, rfl, hs1, o1⟩
    | ok qs =>
      rw [e] at h2
      obtain ⟨b, o, e2, hb⟩ := h2
      unfold LiftsAt
      rw [Py.bind_ok e2, Py.lift_ok_bind, Py.bind_ok (show items b m1 = (.ok o.items, m1) by simp only [items, hb.obj]),
        Py.bind_ok (items_run hs1), hb.length]
      have key : LiftsAt a l m1 s (if 10 * qs.length > s.dict.length then (do
            dictUpdate eqv L a (.obj b)
            bound a L.clear
            bound a (L.update (keys (← items a))))
          else (do
            Py.forEach (fun k => do
              let v ← getitem eqv b k
              setitem eqv L a k v) (← iter L b))) (if 10 * qs.length > s.dict.length then (do
            SD.dictUpdate eqv (.dict qs)
            SD.onList L.clear
            let s ← Py.get
            SD.onList (L.update (keys s.dict)))
          else Py.forEach (fun p => SD.setitem eqv L p.1 p.2) qs) := by
        split
        · exact LiftsAt.bind (dictUpdate_lifts he hs1 hk (arg := .obj b) (fail := none) ⟨⟨o, hb⟩, rfl⟩) fun _ m' s' _ hs' _ =>
            LiftsAt.bind ((Lifts.bound _).at hs') fun _ m' s' _ hs' _ => bounds_lifts hs'
        · rename_i hlen
          have hab : a ≠ b := by
            intro hh
            subst hh
            have e3 := hs1.dict.symm.trans hb.obj
            simp only [Option.some.injEq] at e3
            have := hb.length
            rw [← e3] at this
            simp only at this
            omega
          unfold LiftsAt
          rw [Py.bind_ok hb.keys]
          exact setitems_lifts hab hs1 hb.obj hb.lookup
      obtain ⟨m2, f1, f2, f3⟩ := key
      exact ⟨m2, f1, f2, o1.trans f3⟩

/-- The constructor with dicts by reference. -/
theorem init_value (he : IsEquiv eqv) {arg : Arg κ ν} {fail : Option PyErr} (h : ArgIs eqv L m m.dicts.length ps fail arg) :
    ∃ m', Stays Nil Nil m m' ∧ match SD.new eqv L (arg.value ps) with
      | .error e => init eqv L arg m = (.error e, m')
      | .ok s => init eqv L arg m = (.ok m.dicts.length, m') ∧ At m' m.dicts.length m.lists.length s := by
  unfold SD.new
  cases e : L.new none with
  | error x => exact ⟨m, .refl _ _ m, by simp only [init, e]; rfl⟩
  | ok s0 =>
    have st : Stays Nil Nil m (fresh m s0) := fresh_stays m s0
    have harg : ArgIs eqv L (fresh m s0) m.dicts.length ps fail arg := by
      cases arg with
      | obj b =>
        obtain ⟨⟨o, ho⟩, e⟩ := h
        exact ⟨⟨o, ho.stays st id⟩, e⟩
      | itemsOf bs => exact ⟨h.1.stays st fun _ _ => id, h.2⟩
      | pairs items f => exact h
    obtain ⟨m', h1, h2, h3⟩ := update_lifts he (fresh_at m s0) .nil harg
    refine ⟨m', st.trans_of h3 (fun b hb hb' => by omega) (fun b hb hb' => by omega), ?_⟩
    rw [init_run eqv L arg e]
    rcases hu : SD.update eqv L (arg.value ps) { dict := [], list := s0 } with ⟨x | u, s'⟩
    · rw [hu] at h1
      simp only [hu]
      rw [Py.bind_error h1]
    · rw [hu] at h1 h2
      simp only [hu]
      rw [Py.bind_ok h1]
      exact ⟨rfl, h2⟩

end DictHeap
end Verif
