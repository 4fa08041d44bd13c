import Verif.Cut
import Verif.IterSpec
import Verif.Model.InterruptSets
/-!
# Interrupted calls on sorted sets and dicts: what they may leave behind

A sorted set has two stores: the built-in set that answers `v in ss` and `len(ss)`, and the sorted list that answers iteration and
positions.  A sorted dict has two as well: the built-in dict and the sorted list of keys.  An interruption can leave them out of step.
-/

namespace Verif
variable {α κ ν τ : Type}

/-! ## SortedSet -/

/-- What iteration may yield (`l`) after a call was interrupted; `before` is what it yielded before the call, `after` what it yields if the
call is not interrupted. -/
def SSOp.Aftermath (load : Nat) (before after l : List α) : SSOp α → Prop
  | .add _ => l = before ∨ Lost (load + 1) after l
  | .discard _ | .remove _ | .delInt _ | .pop _ => l = before ∨ Torn (load * 2) after l
  | .clear => l = before ∨ l = []
  | .update _ => PartOf after l
  | .intersectionUpdate _ | .symmetricDifferenceUpdate _ => l = before ∨ PartOf after l
  | .delSlice _ | .differenceUpdate _ => ∃ F, PartOf before F ∧ Torn (load * 2) F l
  | .reset _ => PartOf before l
  | _ => l = before

/-- How far the call has come.  The two stores: `before` and `l0` when it starts, `after` and `l1` if it is not interrupted, `x` and `l` when it is.
`pop` changes the list first, then the set in one step; the other calls on one value, `del ss[i:j]`, `clear`, `&=` and `^=` change the set first,
in one step; `update` and `difference_update` may change the set value by value. -/
def SSOp.Progress (mem : α → τ → Bool) (before after x : τ) (l0 l1 l : List α) : SSOp α → Prop
  | .pop _ => x = before ∨ (x = after ∧ l = l1)
  | .add _ | .discard _ | .remove _ | .delInt _ | .delSlice _ | .clear | .intersectionUpdate _ | .symmetricDifferenceUpdate _ =>
    (x = before ∧ l = l0) ∨ x = after
  | .update _ => (∀ v, mem v before = true → mem v x = true) ∧ (∀ v, mem v x = true → mem v after = true) ∧ ∀ v ∈ l, mem v x = true
  | .differenceUpdate _ => (∀ v, mem v after = true → mem v x = true) ∧ ∀ v, mem v x = true → mem v before = true
  | _ => x = before

/-- The values that a call puts in. -/
def SSOp.inserted : SSOp α → List α
  | .add v => [v]
  | .update xss => xss.flatten
  | .symmetricDifferenceUpdate xs => xs
  | _ => []

/-! ## SortedDict -/

/-- What iteration over the keys may yield (`l`) after a call was interrupted. -/
def SDOp.Aftermath (load : Nat) (before after l : List κ) : SDOp κ ν → Prop
  | .setitem .. | .setdefault .. => l = before ∨ Lost (load + 1) after l
  | .delitem _ | .pop .. | .popitem _ | .viewDelInt _ => l = before ∨ Torn (load * 2) after l
  | .clear => l = before ∨ l = []
  | .update _ => PartOf after l
  | .viewDelSlice _ => ∃ F, PartOf before F ∧ Torn (load * 2) F l
  | .reset _ => PartOf before l
  | _ => l = before

/-- How far the call has come.  `sd[k] = v`, `pop`, `popitem` and `del view[i]` change the list of keys first, then the dict in one step;
`del sd[k]`, `setdefault` and `clear` change the dict first, in one step; `del view[i:j]` changes the list first and then the dict key by
key; `update` may change the dict key by key. -/
def SDOp.Progress (lookup : κ → List (κ × ν) → Option ν) (same : κ → κ → Bool) (before after x : List (κ × ν)) (l0 l1 l : List κ) : SDOp κ ν → Prop
  | .setitem .. | .pop .. | .popitem _ | .viewDelInt _ => x = before ∨ (x = after ∧ l = l1)
  | .delitem _ | .setdefault .. | .clear => (x = before ∧ l = l0) ∨ x = after
  | .viewDelSlice _ => x = before ∨ (l = l1 ∧ ∀ k, lookup k x = lookup k before ∨ lookup k x = lookup k after)
  | .update arg => ∀ k, lookup k x = lookup k before ∨ ∃ p ∈ arg.items, same p.1 k = true ∧ lookup k x = some p.2
  | _ => x = before

/-- The items that a call puts in. -/
def SDOp.inserted : SDOp κ ν → List (κ × ν)
  | .setitem k v | .setdefault k v => [(k, v)]
  | .update arg => arg.items
  | _ => []

/-! ## Histories with interruptions -/

/-- `s'` is `s` with another positional index. -/
def ListClass.Reindexed : (c : ListClass α) → c.State → c.State → Prop
  | .plain _ => fun (s s' : St α α) => ∃ index offset, s' = { s with index := index, offset := offset }
  | .keyed (κ := κ) _ => fun (s s' : St α κ) => ∃ index offset, s' = { s with index := index, offset := offset }

/-- The methods of a sorted list of the same kind as `c`, with and without log; the comparisons may be any, and may raise. -/
def ListClass.Calls : (c : ListClass α) → IListAPI c.State α → ListAPI c.State α → Prop
  | .plain _ => fun IL L => ∃ E : Env α, E.Sane ∧ IL = Interrupt.SL.api E ∧ L = SL.api E
  | .keyed (κ := κ) _ => fun IL L => ∃ K : KEnv α κ, K.Sane ∧ IL = Interrupt.SKL.api K ∧ L = SKL.api K

/-- The sorted sets a client can have whose calls may be interrupted, any number of them, when only values with `V` were ever put in.
`new`: `SortedSet(iterable)` is `SortedSet()` and then `update(iterable)` (sortedset.py:156-157).  `fromset`: the results of `copy`, `-`, `&`, `^`.
`rest`: the positional index may be damaged in any way. -/
inductive SS.Cut (S : SetOps τ α) (c : ListClass α) (V : α → Prop) : SS τ c.State → Prop where
  | new {IL L s} : c.Calls IL L → SS.new S L none = .ok s → SS.Cut S c V s
  | fromset {IL L t s} : c.Calls IL L → SS.fromset S L t = .ok s → (∀ v ∈ S.toList t, V v) → SS.Cut S c V s
  | done {IL L s} (op : SSOp α) : c.Calls IL L → op.Valid → (∀ v ∈ op.inserted, V v) → SS.Cut S c V s →
      ((Interrupt.SS.step S IL L op).run s).1 ≠ .error .modelGap → SS.Cut S c V ((Interrupt.SS.step S IL L op).run s).2
  | cut {IL L s x} (op : SSOp α) : c.Calls IL L → op.Valid → (∀ v ∈ op.inserted, V v) → SS.Cut S c V s →
      x ∈ (Interrupt.SS.step S IL L op).points s → SS.Cut S c V x
  | rest {s l} : SS.Cut S c V s → c.Reindexed s.list l → SS.Cut S c V { s with list := l }

/-- The same for a sorted dict; the items that were ever put in have `V`.  Load factors are positive; the argument of `update` may raise.
`new`: `SortedDict(...)` is `SortedDict()` and then `update(...)` (sorteddict.py:170). -/
inductive SD.Cut (eqv : κ → κ → Bool) (c : ListClass κ) (V : κ → ν → Prop) : SD κ ν c.State → Prop where
  | new {IL L l} : c.Calls IL L → L.new none = .ok l → SD.Cut eqv c V { dict := [], list := l }
  | done {IL L s} (op : SDOp κ ν) : c.Calls IL L → (∀ load, op = .reset load → 1 ≤ load) → (∀ p ∈ op.inserted, V p.1 p.2) → SD.Cut eqv c V s →
      ((Interrupt.SD.step eqv IL L op).run s).1 ≠ .error .modelGap → SD.Cut eqv c V ((Interrupt.SD.step eqv IL L op).run s).2
  | cut {IL L s x} (op : SDOp κ ν) : c.Calls IL L → (∀ load, op = .reset load → 1 ≤ load) → (∀ p ∈ op.inserted, V p.1 p.2) → SD.Cut eqv c V s →
      x ∈ (Interrupt.SD.step eqv IL L op).points s → SD.Cut eqv c V x
  | rest {s l} : SD.Cut eqv c V s → c.Reindexed s.list l → SD.Cut eqv c V { s with list := l }

end Verif
