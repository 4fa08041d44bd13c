import Verif.Proofs.ReentrantSetCalls
import Verif.Props.SortedDict
import Verif.Proofs.IterHeapSets
/-!
# Sorted dicts whose comparisons and key function query them
-/

namespace Verif
namespace Reent
variable {σ W κ ν β : Type}

namespace SD
variable {eqv : κ → κ → Bool} {L : ListAPI σ κ} {O : Spec.Order κ} {I : σ → Prop} {Re : σ → σ → Prop}

/-- `(k, d[k])` -/
def item (eqv : κ → κ → Bool) (d : List (κ × ν)) (k : κ) : Except PyErr (κ × ν) := do
  let v ← PyDict.getitem eqv d k
  pure (k, v)

/-- The items of a new dict made of the items of this one. -/
def made (eqv : κ → κ → Bool) (O : Spec.Order κ) (pairs : List (κ × ν) → List (κ × ν)) (own : Except PyErr (List (κ × ν))) :
    Except PyErr (DOut κ ν) :=
  own.map fun own => .items (DictSpec.sortedItems eqv O (PyDict.ofPairs eqv (pairs own)))

/-- What a query is answered when the built-in dict is `d` and the list holds the keys `ks`, whether or not these go together. -/
def reply (eqv : κ → κ → Bool) (O : Spec.Order κ) (q : SDOp κ ν) (d : List (κ × ν)) (ks : List κ) : Except PyErr (DOut κ ν) :=
  match q with
  | .peekitem i | .itemsAt i => ((Spec.getInt i ks).1.bind (item eqv d)).map fun p => .item p.1 p.2
  | .valuesAt i => ((Spec.getInt i ks).1.bind (PyDict.getitem eqv d)).map .val
  | .itemsSlice sl => ((Spec.getSlice sl ks).1.bind (mapE (item eqv d))).map .items
  | .valuesSlice sl => ((Spec.getSlice sl ks).1.bind (mapE (PyDict.getitem eqv d))).map .vals
  | .keysAt i => (Spec.getInt i ks).1.map .key
  | .keysSlice sl => (Spec.getSlice sl ks).1.map .keys
  | .getitem k => (PyDict.getitem eqv d k).map .val
  | .get k => .ok ((PyDict.lookup eqv d k).elim .none .val)
  | .contains k => .ok (.bool (PyDict.has eqv d k))
  | .len => .ok (.int d.length)
  | .iter => .ok (.keys ks)
  | .reversed => .ok (.keys ks.reverse)
  | .items => (mapE (item eqv d) ks).map .items
  | .values => (mapE (PyDict.getitem eqv d) ks).map .vals
  | .bisectLeft k => (Spec.bisectLeft O k ks).1.map fun n => .int n
  | .bisectRight k => (Spec.bisectRight O k ks).1.map fun n => .int n
  | .index k a b => (Spec.index O k a b ks).1.map .int
  | .irange lo hi a b r => (Spec.irange O lo hi a b r ks).1.map .keys
  | .islice a b r => (Spec.islice a b r ks).1.map .keys
  | .copy => made eqv O id (mapE (item eqv d) ks)
  | .or other => made eqv O (· ++ other) (mapE (item eqv d) ks)
  | .ror other => made eqv O (other ++ ·) (mapE (item eqv d) ks)
  | _ => .error .modelGap

theorem out_fst {τ : Type} (f : β → DOut κ ν) (m : Py τ β) (s : τ) : (Verif.SD.out f m s).1 = (m s).1.map f := by
  unfold Verif.SD.out
  rw [Py.bind_apply]
  rcases m s with ⟨_ | _, _⟩ <;> rfl

theorem out_snd {τ : Type} (f : β → DOut κ ν) (m : Py τ β) (s : τ) : (Verif.SD.out f m s).2 = (m s).2 := by
  unfold Verif.SD.out
  rw [Py.bind_apply]
  rcases m s with ⟨_ | _, _⟩ <;> rfl

theorem mapEach_getitem (ks : List κ) (s : SD κ ν σ) :
    Py.mapEach (Verif.SD.getitem eqv) ks s = (mapE (PyDict.getitem eqv s.dict) ks, s) := by
  induction ks with
  | nil => rfl
  | cons k ks ih =>
    have hk : Verif.SD.getitem eqv k s = (PyDict.getitem eqv s.dict k, s) := rfl
    simp only [Py.mapEach, mapE]
    rw [Py.bind_apply, hk]
    cases PyDict.getitem eqv s.dict k with
    | error e => rfl
    | ok v =>
      simp only
      rw [Py.bind_apply, ih]
      cases mapE (PyDict.getitem eqv s.dict) ks <;> rfl

theorem item_run (k : κ) (s : SD κ ν σ) :
    (do let v ← Verif.SD.getitem eqv k; pure (k, v) : Py (SD κ ν σ) (κ × ν)) s = (item eqv s.dict k, s) := by
  have hk : Verif.SD.getitem eqv k s = (PyDict.getitem eqv s.dict k, s) := rfl
  rw [Py.bind_apply, hk]
  unfold item
  cases PyDict.getitem eqv s.dict k <;> rfl

theorem mapEach_item (ks : List κ) (s : SD κ ν σ) :
    Py.mapEach (fun k => do let v ← Verif.SD.getitem eqv k; pure (k, v) : κ → Py (SD κ ν σ) (κ × ν)) ks s = (mapE (item eqv s.dict) ks, s) := by
  induction ks with
  | nil => rfl
  | cons k ks ih =>
    simp only [Py.mapEach, mapE]
    rw [Py.bind_apply, item_run]
    cases item eqv s.dict k with
    | error e => rfl
    | ok v =>
      simp only
      rw [Py.bind_apply, ih]
      cases mapE (item eqv s.dict) ks <;> rfl

theorem items_eq (s : SD κ ν σ) : Verif.SD.items eqv L s = mapE (item eqv s.dict) (L.iter s.list) := rfl

/-- Keys from the list, then values from the dict. -/
theorem keyed_run {γ : Type} {m : Py σ β} {f : Py (List κ) β} (hm : Refines I L.iter m f) {g : β → Py (SD κ ν σ) γ}
    {g' : List (κ × ν) → β → Except PyErr γ} (hg : ∀ b s, g b s = (g' s.dict b, s)) {s : SD κ ν σ} (hi : I s.list) :
    ((Verif.SD.onList m >>= g) s).1 = (f (L.iter s.list)).1.bind (g' s.dict) := by
  rw [Py.bind_apply]
  have e := (hm s.list hi).1
  unfold Verif.SD.onList
  rcases hr : m s.list with ⟨r, l⟩
  rw [hr] at e
  simp only at e ⊢
  rw [← e]
  cases r with
  | error e => rfl
  | ok b => simp only [hg]; rfl

theorem made_run (h : Verif.SD.Good L O eqv I) (pairs : List (κ × ν) → List (κ × ν)) (f : SD κ ν σ → Except PyErr (SD κ ν σ))
    (hf : ∀ s, f s = (Verif.SD.items eqv L s).bind fun own => Verif.SD.new eqv L (.pairs (pairs own) none)) (s : SD κ ν σ) :
    (Verif.SD.out .items (Verif.SD.itemsOf eqv L f) s).1 = made eqv O pairs (mapE (item eqv s.dict) (L.iter s.list)) := by
  rw [out_fst, made, ← items_eq (eqv := eqv) (L := L)]
  unfold Verif.SD.itemsOf
  rw [hf]
  cases Verif.SD.items eqv L s with
  | error e => rfl
  | ok own =>
    obtain ⟨s', e, h1, h2⟩ := Verif.SD.new_ok h (arg := .pairs (pairs own) none) rfl
    have h1 : s'.dict = PyDict.ofPairs eqv (pairs own) := h1
    simp only [Except.bind, e, Verif.SD.items_ok h h2, h1, Except.map]

/-- A query of a dict whose list and built-in dict need not go together. -/
theorem step_reply (h : Verif.SD.Good L O eqv I) (q : SDOp κ ν) (hq : q.isQuery = true) {s : SD κ ν σ} (hi : I s.list) :
    (Verif.SD.step eqv L q s).1 = reply eqv O q s.dict (L.iter s.list) := by
  have ol : ∀ {β : Type} (f' : β → DOut κ ν) {m : Py σ β} {f : Py (List κ) β}, Refines I L.iter m f →
      (Verif.SD.out f' (Verif.SD.onList m) s).1 = (f (L.iter s.list)).1.map f' := by
    intro β f' m f hm
    rw [out_fst, ← (hm s.list hi).1]; rfl
  cases q with
  | peekitem i => exact (out_fst ..).trans (congrArg _ (keyed_run (h.list.getInt i) (g' := item eqv) (fun b s => item_run b s) hi))
  | itemsAt i => exact (out_fst ..).trans (congrArg _ (keyed_run (h.list.getInt i) (g' := item eqv) (fun b s => item_run b s) hi))
  | valuesAt i => exact (out_fst ..).trans (congrArg _ (keyed_run (h.list.getInt i) (g' := PyDict.getitem eqv) (fun b s => rfl) hi))
  | itemsSlice sl =>
    exact (out_fst ..).trans (congrArg _ (keyed_run (h.list.getSlice sl) (g' := fun d => mapE (item eqv d)) (fun b s => mapEach_item b s) hi))
  | valuesSlice sl =>
    exact (out_fst ..).trans (congrArg _ (keyed_run (h.list.getSlice sl) (g' := fun d => mapE (PyDict.getitem eqv d)) (fun b s => mapEach_getitem b s) hi))
  | keysAt i => exact ol _ (h.list.getInt i)
  | keysSlice sl => exact ol _ (h.list.getSlice sl)
  | bisectLeft k => exact ol _ (h.list.bisectLeft k)
  | bisectRight k => exact ol _ (h.list.bisectRight k)
  | index k a b => exact ol _ (h.list.index k a b)
  | irange lo hi a b r => exact ol _ (h.list.irange lo hi a b r)
  | islice a b r => exact ol _ (h.list.islice a b r)
  | getitem k => exact out_fst ..
  | get k => exact out_fst ..
  | contains k => exact out_fst ..
  | len => exact out_fst ..
  | iter => exact out_fst ..
  | reversed =>
    refine (out_fst ..).trans ?_
    show Except.ok _ = Except.ok _
    exact congrArg (fun l => Except.ok (DOut.keys l)) (Except.ok.inj (h.list.reversed s.list hi).1)
  | items => exact out_fst ..
  | values => exact out_fst ..
  | copy => exact made_run h id _ (fun _ => rfl) s
  | or other => exact made_run h (· ++ other) _ (fun _ => rfl) s
  | ror other => exact made_run h (other ++ ·) _ (fun _ => rfl) s
  | _ => cases hq

/-! ## What is answered when dict and list do not go together -/

theorem reply_store (q : SDOp κ ν) (ha : q.asksStore = true) (d : List (κ × ν)) (ks ks' : List κ) :
    reply eqv O q d ks = reply eqv O q d ks' := by
  cases q <;> first | rfl | (cases ha; done)

theorem mapE_congr {γ : Type} {f g : β → Except PyErr γ} {xs : List β} (h : ∀ x ∈ xs, f x = g x) : mapE f xs = mapE g xs := by
  induction xs with
  | nil => rfl
  | cons x xs ih =>
    simp only [mapE, h x (List.mem_cons_self ..), ih fun y hy => h y (List.mem_cons_of_mem _ hy)]

theorem mapE_missing {γ : Type} {f : β → Except PyErr γ} (hf : ∀ x e, f x = .error e → e = .keyError) {xs : List β} {x : β} (hx : x ∈ xs)
    (h : f x = .error .keyError) : mapE f xs = .error .keyError := by
  induction xs with
  | nil => cases hx
  | cons y ys ih =>
    simp only [mapE]
    cases hy : f y with
    | error e => rw [hf y e hy]
    | ok b =>
      rcases List.mem_cons.1 hx with rfl | hx
      · rw [h] at hy; cases hy
      · rw [ih hx]

theorem getitem_error (d : List (κ × ν)) (x : κ) (e : PyErr) (h : PyDict.getitem eqv d x = .error e) : e = .keyError := by
  unfold PyDict.getitem at h
  split at h <;> cases h
  rfl

theorem item_error (d : List (κ × ν)) (x : κ) (e : PyErr) (h : item eqv d x = .error e) : e = .keyError := by
  unfold item at h
  cases hg : PyDict.getitem eqv d x with
  | error e' => rw [hg] at h; cases h; exact getitem_error d x _ hg
  | ok v => rw [hg] at h; cases h

theorem item_missing {d : List (κ × ν)} {x : κ} (h : PyDict.getitem eqv d x = .error .keyError) : item eqv d x = .error .keyError := by
  unfold item; rw [h]; rfl

theorem item_congr {d d' : List (κ × ν)} {x : κ} (h : PyDict.getitem eqv d x = PyDict.getitem eqv d' x) : item eqv d x = item eqv d' x := by
  unfold item; rw [h]

/-- Dicts with the same values for the keys that the query needs. -/
theorem reply_agree (q : SDOp κ ν) (ha : q.asksStore = false) {d d' : List (κ × ν)} {ks : List κ}
    (h : ∀ x ∈ q.valuesOf ks, PyDict.getitem eqv d x = PyDict.getitem eqv d' x) : reply eqv O q d ks = reply eqv O q d' ks := by
  have one : ∀ (i : Int), (∀ x ∈ (match (Spec.getInt i ks).1 with | .ok k => [k] | .error _ => []), PyDict.getitem eqv d x = PyDict.getitem eqv d' x) →
      (Spec.getInt i ks).1.bind (item eqv d) = (Spec.getInt i ks).1.bind (item eqv d') ∧
      (Spec.getInt i ks).1.bind (PyDict.getitem eqv d) = (Spec.getInt i ks).1.bind (PyDict.getitem eqv d') := by
    intro i hx
    cases hk : (Spec.getInt i ks).1 with
    | error e => exact ⟨rfl, rfl⟩
    | ok k =>
      rw [hk] at hx
      have := hx k (by simp)
      exact ⟨item_congr this, this⟩
  have some : ∀ (sl : PySlice), (∀ x ∈ (match (Spec.getSlice sl ks).1 with | .ok ks => ks | .error _ => []), PyDict.getitem eqv d x = PyDict.getitem eqv d' x) →
      (Spec.getSlice sl ks).1.bind (mapE (item eqv d)) = (Spec.getSlice sl ks).1.bind (mapE (item eqv d')) ∧
      (Spec.getSlice sl ks).1.bind (mapE (PyDict.getitem eqv d)) = (Spec.getSlice sl ks).1.bind (mapE (PyDict.getitem eqv d')) := by
    intro sl hx
    cases hk : (Spec.getSlice sl ks).1 with
    | error e => exact ⟨rfl, rfl⟩
    | ok k =>
      rw [hk] at hx
      exact ⟨mapE_congr fun x hm => item_congr (hx x hm), mapE_congr hx⟩
  cases q with
  | peekitem i | itemsAt i => exact congrArg (Except.map _) (one i h).1
  | valuesAt i => exact congrArg (Except.map _) (one i h).2
  | itemsSlice sl => exact congrArg (Except.map _) (some sl h).1
  | valuesSlice sl => exact congrArg (Except.map _) (some sl h).2
  | items => exact congrArg (Except.map _) (mapE_congr fun x hm => item_congr (h x hm))
  | copy | or | ror => exact congrArg (made eqv O _) (mapE_congr fun x hm => item_congr (h x hm))
  | values => exact congrArg (Except.map _) (mapE_congr h)
  | _ => first | rfl | (cases ha; done)

/-- A dict without a value for a key that the query needs. -/
theorem reply_missing (q : SDOp κ ν) {d : List (κ × ν)} {ks : List κ} {x : κ} (hx : x ∈ q.valuesOf ks)
    (h : PyDict.getitem eqv d x = .error .keyError) : reply eqv O q d ks = .error .keyError := by
  have one : ∀ (i : Int), x ∈ (match (Spec.getInt i ks).1 with | .ok k => [k] | .error _ => []) →
      (Spec.getInt i ks).1.bind (item eqv d) = .error .keyError ∧ (Spec.getInt i ks).1.bind (PyDict.getitem eqv d) = .error .keyError := by
    intro i hx
    cases hk : (Spec.getInt i ks).1 with
    | error e => rw [hk] at hx; cases hx
    | ok k =>
      rw [hk] at hx
      cases List.mem_singleton.1 hx
      exact ⟨item_missing h, h⟩
  have some : ∀ (sl : PySlice), x ∈ (match (Spec.getSlice sl ks).1 with | .ok ks => ks | .error _ => []) →
      (Spec.getSlice sl ks).1.bind (mapE (item eqv d)) = .error .keyError ∧
      (Spec.getSlice sl ks).1.bind (mapE (PyDict.getitem eqv d)) = .error .keyError := by
    intro sl hx
    cases hk : (Spec.getSlice sl ks).1 with
    | error e => rw [hk] at hx; cases hx
    | ok k =>
      rw [hk] at hx
      exact ⟨mapE_missing (item_error d) hx (item_missing h), mapE_missing (getitem_error d) hx h⟩
  cases q with
  | peekitem i | itemsAt i => exact congrArg (Except.map _) (one i hx).1
  | valuesAt i => exact congrArg (Except.map _) (one i hx).2
  | itemsSlice sl => exact congrArg (Except.map _) (some sl hx).1
  | valuesSlice sl => exact congrArg (Except.map _) (some sl hx).2
  | items => exact congrArg (Except.map _) (mapE_missing (item_error d) hx (item_missing h))
  | copy | or | ror => exact congrArg (made eqv O _) (mapE_missing (item_error d) hx (item_missing h))
  | values => exact congrArg (Except.map _) (mapE_missing (getitem_error d) hx h)
  | _ => cases hx

theorem valuesOf_sub (q : SDOp κ ν) (ks : List κ) : ∀ x ∈ q.valuesOf ks, x ∈ ks := by
  intro x
  have one : ∀ (i : Int), x ∈ (match (Spec.getInt i ks).1 with | .ok k => [k] | .error _ => []) → x ∈ ks := by
    intro i hx
    cases hp : (Spec.position ks.length i).bind (ks[·]?) with
    | none => simp only [Spec.getInt, hp] at hx; cases hx
    | some k =>
      simp only [Spec.getInt, hp] at hx
      cases List.mem_singleton.1 hx
      obtain ⟨p, -, hk⟩ := Option.bind_eq_some_iff.1 hp
      exact List.mem_of_getElem? hk
  have some : ∀ (sl : PySlice), x ∈ (match (Spec.getSlice sl ks).1 with | .ok ks => ks | .error _ => []) → x ∈ ks := by
    intro sl hx
    cases hp : Spec.slicePositions sl ks.length with
    | error e => simp only [Spec.getSlice, hp] at hx; cases hx
    | ok ps =>
      simp only [Spec.getSlice, hp] at hx
      obtain ⟨p, -, hk⟩ := List.mem_filterMap.1 hx
      exact List.mem_of_getElem? hk
  cases q with
  | peekitem i | itemsAt i | valuesAt i => exact one i
  | itemsSlice sl | valuesSlice sl => exact some sl
  | items | copy | or | ror | values => exact id
  | _ => exact nofun

/-! ## Queries in the middle of a call -/

/-- The built-in dict is `d0`, and the list is `s0` but for the positional index. -/
structure Same (Re : σ → σ → Prop) (I : σ → Prop) (d0 : List (κ × ν)) (s0 : σ) (s : SD κ ν σ) : Prop where
  dict : s.dict = d0
  re : Re s0 s.list
  inv : I s.list

variable {L' : RListAPI (List (κ × ν) × W) σ κ} {d0 : List (κ × ν)} {s0 : σ} {J : W → Prop}

theorem onList_reads {m : RPy (List (κ × ν) × W) σ β} {f : Py σ β} (hm : Reads Re I (fun w => w.1 = d0 ∧ J w.2) s0 m f) {p : SD κ ν σ × W}
    (hp : Same Re I d0 s0 p.1) (hJ : J p.2) :
    (onList m p).1 = (f p.1.list).1 ∧ Same Re I d0 s0 (onList m p).2.1 ∧ J (onList m p).2.2 := by
  obtain ⟨e, h⟩ := hm (p.1.list, p.1.dict, p.2) ⟨hp.re, hp.inv, hp.dict, hJ⟩
  exact ⟨e, ⟨h.world.1, h.re, h.inv⟩, h.world.2⟩

/-- The queries that call the client's code. -/
def calls : SDOp κ ν → Bool
  | .bisectLeft _ | .bisectRight _ | .index .. | .irange .. | .copy | .or _ | .ror _ => true
  | _ => false

theorem free_same (h : Verif.SD.Good L O eqv I) (hs : L.Settled Re) {s : SD κ ν σ} (hp : Same Re I d0 s0 s) {q : SDOp κ ν}
    (hq : q.isQuery = true) (hn : calls q = false) : Same Re I d0 s0 (Verif.SD.step eqv L q s).2 := by
  have ol : ∀ {β : Type} {m : Py σ β} {f : Py (List κ) β}, Refines I L.iter m f → (∀ s, Re s (m s).2) →
      Preserves (Same Re I d0 s0) (Verif.SD.onList m : Py (SD κ ν σ) β) := fun hm hr s hp =>
    ⟨hp.dict, hs.trans hp.re (hr _), (hm _ hp.inv).2.2⟩
  have gi : ∀ k, Preserves (Same Re I d0 s0) (Verif.SD.getitem eqv k : Py (SD κ ν σ) ν) := fun k s hp => hp
  have it : ∀ k, Preserves (Same Re I d0 s0) (do let v ← Verif.SD.getitem eqv k; pure (k, v) : Py (SD κ ν σ) (κ × ν)) := fun k =>
    Preserves.bind (gi k) fun _ => Preserves.pure _
  have out : ∀ {β : Type} (f : β → DOut κ ν) {m : Py (SD κ ν σ) β}, Preserves (Same Re I d0 s0) m →
      Same Re I d0 s0 (Verif.SD.out f m s).2 := fun f m hm => by rw [out_snd]; exact hm s hp
  have a := fun i => ol (h.list.getInt i) (hs.getInt i)
  have b := fun sl => ol (h.list.getSlice sl) (hs.getSlice sl)
  cases q with
  | peekitem i => exact out _ (Preserves.bind (a i) it)
  | itemsAt i => exact out _ (Preserves.bind (a i) it)
  | valuesAt i => exact out _ (Preserves.bind (a i) gi)
  | itemsSlice sl => exact out _ (Preserves.bind (b sl) fun _ => Preserves.mapEach it _)
  | valuesSlice sl => exact out _ (Preserves.bind (b sl) fun _ => Preserves.mapEach gi _)
  | keysAt i => exact out _ (a i)
  | keysSlice sl => exact out _ (b sl)
  | islice a b r => exact out _ (ol (h.list.islice a b r) (hs.islice a b r))
  | getitem k => exact out _ (gi k)
  | get | contains | len | iter | reversed => exact hp
  | items | values => rw [Verif.SD.step, out_snd]; exact hp
  | _ => first | (cases hq; done) | (cases hn; done)

theorem newItems_same (h : Verif.SD.Good L O eqv I) (hs : L.Settled Re) (hL : L'.Mimics L Re I (fun w => w.1 = d0 ∧ J w.2) s0)
    (pairs : List (κ × ν) → List (κ × ν)) {p : SD κ ν σ × W} (hp : Same Re I d0 s0 p.1) (hJ : J p.2) :
    (Verif.SD.out .items (newItems eqv L L' pairs) p).1 = made eqv O pairs (mapE (item eqv d0) (L.iter s0)) ∧
      Same Re I d0 s0 (Verif.SD.out .items (newItems eqv L L' pairs) p).2.1 ∧ J (Verif.SD.out .items (newItems eqv L L' pairs) p).2.2 := by
  rw [out_fst, out_snd]
  have hi : Verif.SD.items eqv L p.1 = mapE (item eqv d0) (L.iter s0) := by rw [items_eq, hp.dict, hs.iter hp.re]
  have hu : newItems eqv L L' pairs p = (do
      let own ← free (Py.lift (mapE (item eqv d0) (L.iter s0)))
      let d := PyDict.update eqv [] (pairs own)
      let keys ← onList (L'.newValues (PyDict.keys d))
      free (Py.lift (mapE (item eqv d) keys)) : RPy W (SD κ ν σ) (List (κ × ν))) p := by
    rw [← hi]; rfl
  rw [hu]
  cases mapE (item eqv d0) (L.iter s0) with
  | error e => exact ⟨rfl, hp, hJ⟩
  | ok own =>
    have e0 : (free (Py.lift (.ok own)) : RPy W (SD κ ν σ) (List (κ × ν))) p = (.ok own, p) := rfl
    rw [Py.bind_ok e0]
    obtain ⟨e1, h1, h2⟩ := onList_reads (hL.newValues (PyDict.keys (PyDict.update eqv [] (pairs own)))) hp hJ
    obtain ⟨n, en, -, hn⟩ := h.list.new (some (PyDict.keys (PyDict.update eqv [] (pairs own))))
    have e1 : (onList (L'.newValues (PyDict.keys (PyDict.update eqv [] (pairs own)))) p).1 =
        .ok (DictSpec.sortedKeys O (PyDict.update eqv [] (pairs own))) := by
      rw [e1, Py.lift_apply, ListAPI.newValues, en]
      exact congrArg Except.ok hn
    rcases hm : onList (L'.newValues (PyDict.keys (PyDict.update eqv [] (pairs own)))) p with ⟨r, p'⟩
    rw [hm] at e1 h1 h2
    simp only at e1 h1 h2
    subst e1
    rw [Py.bind_ok hm]
    refine ⟨?_, h1, h2⟩
    obtain ⟨s', -, k1, k2⟩ := Verif.SD.new_ok h (arg := .pairs (pairs own) none) rfl
    have k3 := Verif.SD.items_ok h k2
    have k1 : s'.dict = PyDict.update eqv [] (pairs own) := k1
    rw [items_eq, k2.iter, k1] at k3
    exact congrArg (Except.map _) k3

/-- A query, asked in the middle of a call: the built-in dict is `d0` and the list is `s0`. -/
theorem query_same (h : Verif.SD.Good L O eqv I) (hs : L.Settled Re) (hL : L'.Mimics L Re I (fun w => w.1 = d0 ∧ J w.2) s0)
    (op : SDOp κ ν) (hq : op.isQuery = true) {p : SD κ ν σ × W} (hp : Same Re I d0 s0 p.1) (hJ : J p.2) :
    (step eqv L L' op p).1 = reply eqv O op d0 (L.iter s0) ∧ Same Re I d0 s0 (step eqv L L' op p).2.1 ∧ J (step eqv L L' op p).2.2 := by
  have ol : ∀ {β : Type} (f' : β → DOut κ ν) {m : RPy (List (κ × ν) × W) σ β} {f : Py σ β} {g : Py (List κ) β},
      Reads Re I (fun w => w.1 = d0 ∧ J w.2) s0 m f → Refines I L.iter f g →
      (Verif.SD.out f' (onList m) p).1 = (g (L.iter s0)).1.map f' ∧ Same Re I d0 s0 (Verif.SD.out f' (onList m) p).2.1 ∧
        J (Verif.SD.out f' (onList m) p).2.2 := by
    intro β f' m f g hm hf
    obtain ⟨e, h1, h2⟩ := onList_reads hm hp hJ
    rw [out_fst, out_snd, e, (hf _ hp.inv).1, hs.iter hp.re]
    exact ⟨rfl, h1, h2⟩
  have fr : step eqv L L' op = free (Verif.SD.step eqv L op) → calls op = false →
      (step eqv L L' op p).1 = reply eqv O op d0 (L.iter s0) ∧ Same Re I d0 s0 (step eqv L L' op p).2.1 ∧ J (step eqv L L' op p).2.2 := by
    intro e hc
    rw [e]
    refine ⟨?_, free_same h hs hp hq hc, hJ⟩
    rw [← hp.dict, ← hs.iter hp.re]
    exact step_reply h op hq hp.inv
  cases op with
  | bisectLeft k => exact ol _ (hL.bisectLeft k) (h.list.bisectLeft k)
  | bisectRight k => exact ol _ (hL.bisectRight k) (h.list.bisectRight k)
  | index k a b => exact ol _ (hL.index k a b) (h.list.index k a b)
  | irange lo hi a b r => exact ol _ (hL.irange lo hi a b r) (h.list.irange lo hi a b r)
  | copy => exact newItems_same h hs hL _ hp hJ
  | or other => exact newItems_same h hs hL _ hp hJ
  | ror other => exact newItems_same h hs hL _ hp hJ
  | _ => first | exact fr rfl rfl | (cases hq; done)

/-- The built-in dict while the call runs client's code. -/
def meanwhile (eqv : κ → κ → Bool) (op : SDOp κ ν) (d : List (κ × ν)) : List (κ × ν) :=
  match op with
  | .delitem k => PyDict.erase eqv d k
  | .setdefault k v => if PyDict.has eqv d k then d else PyDict.set eqv d k v
  | _ => d

/-- A call that does not rebuild the list, when the client's code changes nothing: it is the call without client, from a list that differs in the
positional index only. -/
theorem call_ends (hs : L.Settled Re) (op : SDOp κ ν) (hq : op.isQuery = false) (hb : op.bulk = false) {s : SD κ ν σ} (hi : I s.list)
    {w : W} (hJ : J w) (hL : L'.Mimics L Re I (fun w => w.1 = meanwhile eqv op s.dict ∧ J w.2) s.list) :
    ∃ l w', Re s.list l ∧ I l ∧ J w' ∧
      step eqv L L' op (s, w) = ((Verif.SD.step eqv L op ⟨s.dict, l⟩).1, (Verif.SD.step eqv L op ⟨s.dict, l⟩).2, w') := by
  have same : ∀ {m : RPy W (SD κ ν σ) (DOut κ ν)}, m (s, w) = ((Verif.SD.step eqv L op s).1, (Verif.SD.step eqv L op s).2, w) →
      ∃ l w', Re s.list l ∧ I l ∧ J w' ∧ m (s, w) = ((Verif.SD.step eqv L op ⟨s.dict, l⟩).1, (Verif.SD.step eqv L op ⟨s.dict, l⟩).2, w') :=
    fun e => ⟨s.list, w, hs.refl _, hi, hJ, e⟩
  cases op with
  | setitem k v =>
    by_cases hm : PyDict.has eqv s.dict k = true <;> have hc : ∀ l, Verif.SD.contains eqv k (⟨s.dict, l⟩ : SD κ ν σ) = _ := fun _ => by first | exact hm | exact Bool.eq_false_iff.2 hm
    all_goals have hc' : Verif.SD.contains eqv k s = _ := hc s.list
    · refine same ?_
      simp only [step, Verif.SD.step, setitem, Verif.SD.setitem, Verif.SD.out, Py.bind_apply, free, Py.get, hm, hc, hc', if_true, Verif.SD.onDict,
        Py.modify]
      rfl
    · obtain ⟨p', hp', e⟩ := hL.add k (s.list, s.dict, w) ⟨hs.refl _, hi, rfl, hJ⟩
      refine ⟨p'.1, p'.2.2, hp'.re, hp'.inv, hp'.world.2, ?_⟩
      simp only [step, Verif.SD.step, setitem, Verif.SD.setitem, Verif.SD.out, Py.bind_apply, free, Py.get, hm, hc, hc', if_false,
        Bool.false_eq_true, Verif.SD.onDict, Py.modify, onList, Verif.SD.onList, e, hp'.world.1, meanwhile]
      cases (L.add k p'.1).1 <;> rfl
  | delitem k =>
    by_cases hm : PyDict.has eqv s.dict k = true <;> have hc : ∀ l, Verif.SD.contains eqv k (⟨s.dict, l⟩ : SD κ ν σ) = _ := fun _ => by first | exact hm | exact Bool.eq_false_iff.2 hm
    all_goals have hc' : Verif.SD.contains eqv k s = _ := hc s.list
    · obtain ⟨p', hp', e⟩ := hL.remove k (s.list, PyDict.erase eqv s.dict k, w) ⟨hs.refl _, hi, rfl, hJ⟩
      refine ⟨p'.1, p'.2.2, hp'.re, hp'.inv, hp'.world.2, ?_⟩
      simp only [step, Verif.SD.step, delitem, Verif.SD.delitem, Verif.SD.dictDelitem, Verif.SD.out, Py.bind_apply, free, Py.get, hm, hc, hc', if_true,
        Verif.SD.onDict, Py.modify, onList, Verif.SD.onList, e, hp'.world.1, meanwhile]
      cases (L.remove k p'.1).1 <;> rfl
    · refine same ?_
      simp only [step, Verif.SD.step, delitem, Verif.SD.delitem, Verif.SD.dictDelitem, Verif.SD.out, Py.bind_apply, free, Py.get, hm, hc, hc', if_false,
        Bool.false_eq_true, Py.raise]
  | pop k default =>
    by_cases hm : PyDict.has eqv s.dict k = true <;> have hc : ∀ l, Verif.SD.contains eqv k (⟨s.dict, l⟩ : SD κ ν σ) = _ := fun _ => by first | exact hm | exact Bool.eq_false_iff.2 hm
    all_goals have hc' : Verif.SD.contains eqv k s = _ := hc s.list
    · obtain ⟨p', hp', e⟩ := hL.remove k (s.list, s.dict, w) ⟨hs.refl _, hi, rfl, hJ⟩
      refine ⟨p'.1, p'.2.2, hp'.re, hp'.inv, hp'.world.2, ?_⟩
      simp only [step, Verif.SD.step, pop, Verif.SD.pop, Verif.SD.out, Py.bind_apply, free, Py.get, hm, hc, hc', if_true,
        onList, Verif.SD.onList, e, hp'.world.1, meanwhile, Verif.SD.dictPop, Py.lift]
      cases (L.remove k p'.1).1 with
      | error e => rfl
      | ok _ =>
        simp only [Verif.SD.onDict, Py.modify]
        cases PyDict.getitem eqv s.dict k <;> rfl
    · refine same ?_
      simp only [step, Verif.SD.step, pop, Verif.SD.pop, Verif.SD.out, Py.bind_apply, free, Py.get, hm, hc, hc', if_false, Bool.false_eq_true]
      cases default <;> rfl
  | setdefault k v =>
    by_cases hm : PyDict.has eqv s.dict k = true <;> have hc : ∀ l, Verif.SD.contains eqv k (⟨s.dict, l⟩ : SD κ ν σ) = _ := fun _ => by first | exact hm | exact Bool.eq_false_iff.2 hm
    all_goals have hc' : Verif.SD.contains eqv k s = _ := hc s.list
    · refine same ?_
      simp only [step, Verif.SD.step, setdefault, Verif.SD.setdefault, Verif.SD.out, Py.bind_apply, free, Py.get, hm, hc, hc', if_true,
        Verif.SD.getitem, Py.lift]
      cases PyDict.getitem eqv s.dict k <;> rfl
    · obtain ⟨p', hp', e⟩ := hL.add k (s.list, PyDict.set eqv s.dict k v, w) ⟨hs.refl _, hi, (if_neg hm).symm, hJ⟩
      refine ⟨p'.1, p'.2.2, hp'.re, hp'.inv, hp'.world.2, ?_⟩
      simp only [step, Verif.SD.step, setdefault, Verif.SD.setdefault, Verif.SD.out, Py.bind_apply, free, Py.get, hm, hc, hc', if_false,
        Bool.false_eq_true, Verif.SD.onDict, Py.modify, onList, Verif.SD.onList, e, hp'.world.1, meanwhile]
      cases (L.add k p'.1).1 <;> rfl
  | popitem i => exact same rfl
  | viewDelInt i => exact same rfl
  | clear => exact same rfl
  | update | viewDelSlice | reset => cases hb
  | _ => cases hq

end SD
end Reent
end Verif
