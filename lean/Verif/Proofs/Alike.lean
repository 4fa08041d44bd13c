import Verif.Props.SortedDict
/-!
# Dicts that show the same items are interchangeable
-/

namespace Verif
namespace DictSpec
open PyDict
variable {κ ν : Type} {eqv : κ → κ → Bool} {O : Spec.Order κ}

/-- The two dicts show the same items in the same order. -/
structure Alike (eqv : κ → κ → Bool) (O : Spec.Order κ) (d e : List (κ × ν)) : Prop where
  left : Keyed eqv d
  right : Keyed eqv e
  items : sortedItems eqv O d = sortedItems eqv O e

variable (hO : StrictWeakOrder O.lt) (he : IsEquiv eqv) {d e : List (κ × ν)}
include hO he

theorem Alike.keys (h : Alike eqv O d e) : sortedKeys O d = sortedKeys O e := by
  rw [← keys_sortedItems hO he, h.items, keys_sortedItems hO he]

theorem Alike.lookup (h : Alike eqv O d e) (k : κ) : lookup eqv d k = lookup eqv e k := by
  rw [← lookup_sortedItems hO he h.left, h.items, lookup_sortedItems hO he h.right]

theorem Alike.has (h : Alike eqv O d e) (k : κ) : has eqv d k = has eqv e k := by
  rw [has_eq_lookup, has_eq_lookup, h.lookup hO he]

theorem Alike.length (h : Alike eqv O d e) : d.length = e.length := by
  have hl : ∀ d : List (κ × ν), (sortedKeys O d).length = d.length := fun d => by
    rw [(sortedKeys_sort hO d).perm.length_eq]; simp [PyDict.keys]
  rw [← hl d, ← hl e, h.keys hO he]

theorem Alike.set (h : Alike eqv O d e) (k : κ) (v : ν) : Alike eqv O (set eqv d k v) (set eqv e k v) := by
  refine ⟨h.left.set k v, h.right.set k v, sortedItems_congr ?_ fun k' => ?_⟩
  · rcases Bool.eq_false_or_eq_true (PyDict.has eqv d k) with hk | hk
    · rw [sortedKeys_set_old hk, sortedKeys_set_old (h.has hO he k ▸ hk), h.keys hO he]
    · rw [sortedKeys_set_new hk, sortedKeys_set_new (h.has hO he k ▸ hk), h.keys hO he]
  · rw [lookup_set he, lookup_set he, h.lookup hO he]

theorem Alike.erase (h : Alike eqv O d e) (k : κ) : Alike eqv O (erase eqv d k) (erase eqv e k) := by
  refine ⟨h.left.erase k, h.right.erase k, sortedItems_congr ?_ fun k' => ?_⟩
  · rw [sortedKeys_erase hO, sortedKeys_erase hO, h.keys hO he]
  · rw [lookup_erase he, lookup_erase he, h.lookup hO he]

theorem Alike.update (ps : List (κ × ν)) : ∀ {d e : List (κ × ν)}, Alike eqv O d e → Alike eqv O (update eqv d ps) (update eqv e ps) := by
  induction ps with
  | nil => exact fun h => h
  | cons p ps ih => exact fun h => ih (h.set hO he p.1 p.2)

theorem Alike.eraseAll (ks : List κ) : ∀ {d e : List (κ × ν)}, Alike eqv O d e → Alike eqv O (eraseAll eqv ks d) (eraseAll eqv ks e) := by
  induction ks with
  | nil => exact fun h => h
  | cons k ks ih => exact fun h => ih (h.erase hO he k)

/-- Dicts that show the same items answer alike, and show the same items after the call. -/
theorem Alike.step (h : Alike eqv O d e) (op : SDOp κ ν) :
    (step eqv O op d).1 = (step eqv O op e).1 ∧ Alike eqv O (step eqv O op d).2 (step eqv O op e).2 := by
  have hk := h.keys hO he
  have hi := h.items
  have hl := h.lookup hO he
  have out : ∀ {β : Type} (f : β → DOut κ ν) {m : Py (List (κ × ν)) β}, (m d).1 = (m e).1 → Alike eqv O (m d).2 (m e).2 →
      (out f m d).1 = (out f m e).1 ∧ Alike eqv O (out f m d).2 (out f m e).2 := by
    intro β f m h1 h2
    unfold DictSpec.out
    rw [Py.bind_apply, Py.bind_apply]
    rcases h3 : m d with ⟨r, d'⟩
    rcases h4 : m e with ⟨r', e'⟩
    rw [h3, h4] at h1 h2
    simp only at h1 h2
    subst h1
    cases r <;> exact ⟨rfl, h2⟩
  have qu : ∀ {β : Type} (f : β → DOut κ ν) {g : List (κ × ν) → Except PyErr β}, g d = g e →
      (DictSpec.out f (query g) d).1 = (DictSpec.out f (query g) e).1 ∧ Alike eqv O (DictSpec.out f (query g) d).2 (DictSpec.out f (query g) e).2 :=
    fun f g hg => out f hg h
  have onk : ∀ {β : Type} (f : β → DOut κ ν) {g : Py (List κ) β}, (DictSpec.out f (onKeys O g) d).1 = (DictSpec.out f (onKeys O g) e).1 ∧
      Alike eqv O (DictSpec.out f (onKeys O g) d).2 (DictSpec.out f (onKeys O g) e).2 := fun f g => out f (by simp only [onKeys, hk]) h
  have oni : ∀ {β : Type} (f : β → DOut κ ν) {g : Py (List (κ × ν)) β}, (DictSpec.out f (onItems eqv O g) d).1 = (DictSpec.out f (onItems eqv O g) e).1 ∧
      Alike eqv O (DictSpec.out f (onItems eqv O g) d).2 (DictSpec.out f (onItems eqv O g) e).2 := fun f g => out f (by simp only [onItems, hi]) h
  have onv : ∀ {β : Type} (f : β → DOut κ ν) {g : Py (List ν) β}, (DictSpec.out f (onValues eqv O g) d).1 = (DictSpec.out f (onValues eqv O g) e).1 ∧
      Alike eqv O (DictSpec.out f (onValues eqv O g) d).2 (DictSpec.out f (onValues eqv O g) e).2 :=
    fun f g => out f (by simp only [onValues, sortedValues, hi]) h
  cases op with
  | setitem k v => exact out _ rfl (h.set hO he k v)
  | delitem k =>
    apply out _ <;> simp only [DictSpec.delitem, h.has hO he k]
    · split <;> rfl
    · split
      · exact h.erase hO he k
      · exact h
  | clear => exact out _ rfl ⟨Keyed.nil, Keyed.nil, rfl⟩
  | pop k default =>
    apply out _ <;> simp only [DictSpec.pop, hl k]
    · split <;> rfl
    · split
      · exact h.erase hO he k
      · exact h
      · exact h
  | popitem i =>
    apply out _ <;> simp only [DictSpec.popitem, h.length hO he, hi]
    · split
      · rfl
      · split <;> rfl
    · split
      · exact h
      · split
        · exact h.erase hO he _
        · exact h
  | setdefault k v =>
    apply out _ <;> simp only [DictSpec.setdefault, hl k]
    · split <;> rfl
    · split
      · exact h
      · exact h.set hO he k v
  | update arg => exact out _ rfl (Alike.update hO he arg.items h)
  | viewDelInt i =>
    apply out _ <;> simp only [DictSpec.viewDelInt, hk]
    · split <;> rfl
    · split
      · exact h.erase hO he _
      · exact h
  | viewDelSlice sl =>
    apply out _ <;> simp only [DictSpec.viewDelSlice, hk]
    · split <;> rfl
    · split
      · exact Alike.eraseAll hO he _ h
      · exact h
  | reset load => exact out _ rfl h
  | getitem k => exact qu _ (by simp only [PyDict.getitem, hl])
  | get k => exact qu _ (by simp only [hl])
  | contains k => exact qu _ (by simp only [h.has hO he])
  | len => exact qu _ (by simp only [h.length hO he])
  | iter => exact qu _ (by simp only [hk])
  | reversed => exact qu _ (by simp only [hk])
  | items => exact qu _ (by simp only [hi])
  | values => exact qu _ (by simp only [sortedValues, hi])
  | copy => exact qu _ (by simp only [hi])
  | or other => exact qu _ (by simp only [(Alike.update hO he other h).items])
  | ror other => exact qu _ (by rw [← sortedItems_ror hO he h.left, hi, sortedItems_ror hO he h.right])
  | keysAt | keysSlice | bisectLeft | bisectRight | index | irange | islice => exact onk _
  | peekitem | itemsAt | itemsSlice => exact oni _
  | valuesAt | valuesSlice => exact onv _

theorem Alike.hist (ops : List (SDOp κ ν)) : ∀ {d e : List (κ × ν)}, Alike eqv O d e →
    (runHist (DictSpec.step eqv O) ops d).1 = (runHist (DictSpec.step eqv O) ops e).1 ∧
      Alike eqv O (runHist (DictSpec.step eqv O) ops d).2 (runHist (DictSpec.step eqv O) ops e).2 := by
  induction ops with
  | nil => exact fun h => ⟨rfl, h⟩
  | cons op ops ih =>
    intro d e h
    obtain ⟨h1, h2⟩ := h.step hO he op
    obtain ⟨h3, h4⟩ := ih h2
    simp only [runHist]
    exact ⟨by rw [h1, h3], h4⟩

end DictSpec
end Verif
