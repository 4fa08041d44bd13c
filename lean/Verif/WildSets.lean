import Verif.Wild
import Verif.IterSpec
import Verif.Model.SortedSet
import Verif.Model.SortedDict
/-!
# Sorted sets and sorted dicts whose values do not compare well

The vocabulary for C63 (`clear` recovers from everything) and C64 (the two stores stay in step).  In all of this the
comparisons and the key function may be different in every call: a class `c` only fixes what kind of sorted list there is,
and every call brings its own `L`.
-/

namespace Verif
variable {α κ ν τ : Type}

/-! ## Any history whatsoever -/

/-- The methods of a sorted list of the same kind as `c`, with comparisons, a key function, a `sorted` and a `log` of which
nothing is assumed. -/
def ListClass.Any : (c : ListClass α) → ListAPI c.State α → Prop
  | .plain _ => fun L => ∃ E : Env α, L = SL.api E
  | .keyed (κ := κ) _ => fun L => ∃ K : KEnv α κ, L = SKL.api K

/-- The objects a client can ever get hold of: any calls, returning or raising anywhere.  (Load factors are positive.) -/
inductive ListClass.Ever (c : ListClass α) : c.State → Prop where
  | new {L xs s} : c.Any L → L.new xs = .ok s → c.Ever s
  | step {L s} (op : Op α) : c.Any L → op.Valid → c.Ever s → c.Ever (L.step op s).2
  | keyCall {L s m} : c.Any L → L.keyCall m → c.Ever s → c.Ever (m s).2

/-- The same for sorted sets.  `fromset`: the results of `copy`, `-`, `&`, `^`. -/
inductive SS.Ever (S : SetOps τ α) (c : ListClass α) : SS τ c.State → Prop where
  | new {L xs s} : c.Any L → SS.new S L xs = .ok s → SS.Ever S c s
  | fromset {L t s} : c.Any L → SS.fromset S L t = .ok s → SS.Ever S c s
  | step {L s} (op : SSOp α) : c.Any L → op.Valid → SS.Ever S c s → SS.Ever S c (SS.step S L op s).2
  | keyCall {L s m} : c.Any L → L.keyCall m → SS.Ever S c s → SS.Ever S c (SS.onList m s).2

/-- The same for sorted dicts.  `update` may be given an iterable that raises, or pairs that are not pairs. -/
inductive SD.Ever (eqv : κ → κ → Bool) (c : ListClass κ) : SD κ ν c.State → Prop where
  | new {L arg s} : c.Any L → SD.new eqv L arg = .ok s → SD.Ever eqv c s
  | step {L s} (op : SDOp κ ν) : c.Any L → (∀ load, op = .reset load → 1 ≤ load) → SD.Ever eqv c s →
      SD.Ever eqv c (SD.step eqv L op s).2
  | keyCall {L s m} : c.Any L → L.keyCall m → SD.Ever eqv c s → SD.Ever eqv c (SD.onList m s).2

/-! ## Histories in which the calls that compare returned -/

/-- The methods of a sorted list of the same kind as `c`, with comparisons and a key function of which this is assumed: a
`sorted` that returns, returns a rearrangement; `int(log(n, 2))` is not too small; and values for which `==` is true are
equal for the built-in set or dict too (`eqv`). -/
def ListClass.Erratic (eqv : α → α → Bool) : (c : ListClass α) → ListAPI c.State α → Prop
  | .plain _ => fun L => ∃ E : Env α, E.Sane ∧ (∀ x y, E.cmp .eq x y = .ok true → eqv x y = true) ∧ L = SL.api E
  | .keyed (κ := κ) _ => fun L => ∃ K : KEnv α κ, K.Sane ∧ (∀ x y, K.vcmp .eq x y = .ok true → eqv x y = true) ∧
      L = SKL.api K

/-- The mutating calls on a sorted set that compare values, and so may raise halfway. -/
def SSOp.compares : SSOp α → Bool
  | .add _ | .discard _ | .remove _ | .delSlice _ | .update _ | .differenceUpdate _ | .intersectionUpdate _
  | .symmetricDifferenceUpdate _ | .reset _ => true
  | _ => false

/-- The mutating calls on a sorted dict that compare keys, and so may raise halfway. -/
def SDOp.compares : SDOp κ ν → Bool
  | .setitem .. | .delitem _ | .pop .. | .setdefault .. | .update _ | .viewDelSlice _ | .reset _ => true
  | _ => false

/-- The sorted sets a client has as long as the mutating calls that compare values return, or leave the object as it was;
queries may raise, and so may calls that go by position.  After a mutating call that raised halfway, `clear()` brings the
object back. -/
inductive SS.Wild (S : SetOps τ α) (eqv : α → α → Bool) (c : ListClass α) : SS τ c.State → Prop where
  | new {L xs s} : c.Erratic eqv L → SS.new S L xs = .ok s → SS.Wild S eqv c s
  | fromset {L t s} : c.Erratic eqv L → SS.fromset S L t = .ok s → SS.Wild S eqv c s
  | step {L s} (op : SSOp α) : c.Erratic eqv L → op.Valid → SS.Wild S eqv c s →
      (op.compares = true → (∃ r, (SS.step S L op s).1 = .ok r) ∨ (SS.step S L op s).2 = s) →
      SS.Wild S eqv c (SS.step S L op s).2
  | keyCall {L s m} : c.Erratic eqv L → L.keyCall m → SS.Wild S eqv c s → SS.Wild S eqv c (SS.onList m s).2
  | cleared {L s} : c.Erratic eqv L → SS.Ever S c s → SS.Wild S eqv c (SS.clear S L s).2

/-- The sorted dicts a client has as long as the mutating calls that compare keys return, or leave the object as it was. -/
inductive SD.Wild (eqv : κ → κ → Bool) (c : ListClass κ) : SD κ ν c.State → Prop where
  | new {L arg s} : c.Erratic eqv L → SD.new eqv L arg = .ok s → SD.Wild eqv c s
  | step {L s} (op : SDOp κ ν) : c.Erratic eqv L → (∀ load, op = .reset load → 1 ≤ load) → SD.Wild eqv c s →
      (op.compares = true → (∃ r, (SD.step eqv L op s).1 = .ok r) ∨ (SD.step eqv L op s).2 = s) →
      SD.Wild eqv c (SD.step eqv L op s).2
  | keyCall {L s m} : c.Erratic eqv L → L.keyCall m → SD.Wild eqv c s → SD.Wild eqv c (SD.onList m s).2
  | cleared {L s} : c.Erratic eqv L → SD.Ever eqv c s → SD.Wild eqv c (SD.clear L s).2

/-! ## What the calls do, whatever the order of iteration -/

namespace SetSpec

/-- Is a value equal to `v` in the set after the call `op`, if `l` are the values before, in the order of iteration? -/
def after (eqv : α → α → Bool) (op : SSOp α) (l : List α) (v : α) : Bool :=
  let before := l.any (eqv · v)
  match op with
  | .add x => before || eqv x v
  | .discard x | .remove x => before && !eqv x v
  | .pop i | .delInt i => (Spec.delInt i l).2.any (eqv · v)
  | .delSlice sl => (Spec.delSlice sl l).2.any (eqv · v)
  | .clear => false
  | .update xss => before || xss.any fun xs => xs.any (eqv · v)
  | .differenceUpdate xss => before && !xss.any fun xs => xs.any (eqv · v)
  | .intersectionUpdate xss => before && xss.all fun xs => xs.any (eqv · v)
  | .symmetricDifferenceUpdate xs => before != xs.any (eqv · v)
  | _ => before

/-- The values in the order of iteration after a call that does not compare values. -/
def remaining (op : SSOp α) (l : List α) : List α :=
  match op with
  | .pop i | .delInt i => (Spec.delInt i l).2
  | .clear => []
  | _ => l

/-- All values of `l` are in `r`. -/
def sub (eqv : α → α → Bool) (l r : List α) : Bool := l.all fun x => r.any (eqv · x)

/-- What the call answers, where that does not depend on how values compare. -/
def answer (eqv : α → α → Bool) (op : SSOp α) (l : List α) : Option (Except PyErr (Out α)) :=
  match op with
  | .remove x => some (if l.any (eqv · x) then .ok .none else .error .keyError)
  | .pop i => some (Spec.out .val (Spec.pop i) l).1
  | .delInt i => some (Spec.out (fun _ => .none) (Spec.delInt i) l).1
  | .delSlice sl => some (Spec.out (fun _ => .none) (Spec.delSlice sl) l).1
  | .add _ | .discard _ | .clear | .update _ | .differenceUpdate _ | .intersectionUpdate _ | .symmetricDifferenceUpdate _
  | .reset _ => some (.ok .none)
  | .getInt i => some (Spec.out .val (Spec.getInt i) l).1
  | .getSlice sl => some (Spec.out .vals (Spec.getSlice sl) l).1
  | .islice a b r => some (Spec.out .vals (Spec.islice a b r) l).1
  | .contains v => some (.ok (.bool (l.any (eqv · v))))
  | .len => some (.ok (.int l.length))
  | .iter => some (.ok (.vals l))
  | .reversed => some (.ok (.vals l.reverse))
  | .count v => some (.ok (.int (if l.any (eqv · v) then 1 else 0)))
  | .isdisjoint xs => some (.ok (.bool (xs.all fun x => !l.any (eqv · x))))
  | .issubset xs => some (.ok (.bool (sub eqv l xs)))
  | .issuperset xs => some (.ok (.bool (sub eqv xs l)))
  | .compare op xs => some (.ok (.bool (match op with
      | .eq => sub eqv l xs && sub eqv xs l
      | .ne => !(sub eqv l xs && sub eqv xs l)
      | .le => sub eqv l xs
      | .ge => sub eqv xs l
      | .lt => sub eqv l xs && !sub eqv xs l
      | .gt => sub eqv xs l && !sub eqv l xs)))
  | _ => none

/-- Is a value equal to `v` in the set that the call returns, for the calls that return a set? -/
def result (eqv : α → α → Bool) (op : SSOp α) (l : List α) (v : α) : Option Bool :=
  let before := l.any (eqv · v)
  match op with
  | .copy => some before
  | .union xss => some (before || xss.any fun xs => xs.any (eqv · v))
  | .intersection xss => some (before && xss.all fun xs => xs.any (eqv · v))
  | .difference xss => some (before && !xss.any fun xs => xs.any (eqv · v))
  | .symmetricDifference xs => some (before != xs.any (eqv · v))
  | _ => none

end SetSpec

namespace DictSpec
open PyDict

/-- The items of the dict `d` in the order `ks` of iteration. -/
def itemsIn (eqv : κ → κ → Bool) (ks : List κ) (d : List (κ × ν)) : List (κ × ν) :=
  ks.filterMap fun k => (lookup eqv d k).map fun v => (k, v)

/-- The items of a plain dict after the call, if `d` are its items before and `ks` its keys in the order of iteration. -/
def after (eqv : κ → κ → Bool) (op : SDOp κ ν) (ks : List κ) (d : List (κ × ν)) : List (κ × ν) :=
  match op with
  | .setitem k v => set eqv d k v
  | .delitem k | .pop k _ => erase eqv d k
  | .clear => []
  | .popitem i | .viewDelInt i =>
    match (Spec.getInt i ks).1 with
    | .ok k => erase eqv d k
    | .error _ => d
  | .setdefault k v => if has eqv d k then d else set eqv d k v
  | .update arg => PyDict.update eqv d arg.items
  | .viewDelSlice sl =>
    match (Spec.getSlice sl ks).1 with
    | .ok ks => eraseAll eqv ks d
    | .error _ => d
  | _ => d

/-- The keys in the order of iteration after a call that does not compare keys. -/
def remaining (op : SDOp κ ν) (ks : List κ) : List κ :=
  match op with
  | .popitem i | .viewDelInt i => (Spec.delInt i ks).2
  | .clear => []
  | _ => ks

/-- What the call answers, where that does not depend on how keys compare. -/
def answer (eqv : κ → κ → Bool) (op : SDOp κ ν) (ks : List κ) (d : List (κ × ν)) : Option (Except PyErr (DOut κ ν)) :=
  let items := itemsIn eqv ks d
  match op with
  | .delitem k => some (if has eqv d k then .ok .none else .error .keyError)
  | .pop k default =>
    some (match lookup eqv d k, default with
      | some v, _ => .ok (.val v)
      | none, some v => .ok (.val v)
      | none, none => .error .keyError)
  | .popitem i => some (if d.length = 0 then .error .keyError else (out (fun p => .item p.1 p.2) (Spec.getInt i) items).1)
  | .peekitem i | .itemsAt i => some (out (fun p => .item p.1 p.2) (Spec.getInt i) items).1
  | .setdefault k v => some (.ok (.val ((lookup eqv d k).getD v)))
  | .update arg => if arg.fail = none then some (.ok .none) else none
  | .setitem .. | .clear | .reset _ => some (.ok .none)
  | .getitem k => some (out .val (Py.lift (PyDict.getitem eqv d k)) ()).1
  | .get k => some (.ok ((lookup eqv d k).elim .none .val))
  | .contains k => some (.ok (.bool (has eqv d k)))
  | .len => some (.ok (.int d.length))
  | .iter => some (.ok (.keys ks))
  | .reversed => some (.ok (.keys ks.reverse))
  | .items => some (.ok (.items items))
  | .values => some (.ok (.vals (items.map Prod.snd)))
  | .keysAt i => some (out .key (Spec.getInt i) ks).1
  | .keysSlice sl => some (out .keys (Spec.getSlice sl) ks).1
  | .itemsSlice sl => some (out .items (Spec.getSlice sl) items).1
  | .valuesAt i => some (out .val (Spec.getInt i) (items.map Prod.snd)).1
  | .valuesSlice sl => some (out .vals (Spec.getSlice sl) (items.map Prod.snd)).1
  | .viewDelInt i => some (out (fun _ => .none) (Spec.delInt i) ks).1
  | .viewDelSlice sl => some (out (fun _ => .none) (Spec.delSlice sl) ks).1
  | .islice a b r => some (out .keys (Spec.islice a b r) ks).1
  | _ => none

/-- The value for the key `k` in the dict that the call returns, for the calls that return a dict. -/
def result (eqv : κ → κ → Bool) (op : SDOp κ ν) (d : List (κ × ν)) (k : κ) : Option (Option ν) :=
  match op with
  | .copy => some (lookup eqv d k)
  | .or other => some ((lookup eqv other.reverse k).or (lookup eqv d k))
  | .ror other => some ((lookup eqv d k).or (lookup eqv other.reverse k))
  | _ => none

end DictSpec
end Verif
