import Verif.Model.Gen
import Verif.SetSpec
import Verif.DictSpec
/-!
# Specification of arguments that use the container they are passed to

The argument is used up first, while the plain container answers the calls that it makes; then the plain container
is updated with the list of what it yielded.  (`Gen.drain` and `Gen.each` say what a generator does; they know nothing of
sorted containers.)
-/

namespace Verif

/-- One call on the plain sorted list. -/
def Spec.genStep {α C : Type} (O : Spec.Order α) (step : C → Py (List α) (Out α)) : GenOp C α → Py (List α) (Out α)
  | .plain op => step op
  | .update g => do
    let xs ← g.drain step
    fun l => (.ok .none, Spec.insertAll O l xs)
  | .concat g => do
    let before ← Py.get
    let xs ← g.drain step
    pure (.vals (Spec.insertAll O before xs))

namespace SetSpec
variable {α : Type} [DecidableEq α] (O : Spec.Order α)

/-- The values yielded that are in the set when they are yielded. -/
def hits : SS.Arg α → Py (List α) (List α)
  | .done => pure []
  | .fail e => Py.raise e
  | .yield v rest => do
    let l ← Py.get
    let vs ← hits rest
    pure (if v ∈ l then v :: vs else vs)
  | .call op k => fun l =>
    let r := step O op l
    hits (k r.1) r.2

/-- One call on the plain sorted set. -/
def genStep : SSGenOp α → Py (List α) (Out α)
  | .plain op => step O op
  | .update gs => do
    let xss ← Gen.drainAll (step O) gs
    step O (.update xss)
  | .differenceUpdate gs => do
    let xss ← Gen.drainAll (step O) gs
    step O (.differenceUpdate xss)
  | .symmetricDifferenceUpdate g => do
    let xs ← g.drain (step O)
    step O (.symmetricDifferenceUpdate xs)
  | .intersectionUpdate g => do
    let vs ← hits O g
    fun _ => (.ok .none, insertAll O [] vs)

end SetSpec

namespace DictSpec
variable {κ ν : Type} (eqv : κ → κ → Bool) (O : Spec.Order κ)

/-- `d.update(dict(gen))` -/
def updateFrom (g : SD.Arg κ ν) : Py (List (κ × ν)) (DOut κ ν) := do
  let items ← g.drain (step eqv O)
  step eqv O (.update (.pairs items none))

/-- `for k, v in gen: d[k] = v` -/
def assignFrom (g : SD.Arg κ ν) : Py (List (κ × ν)) Unit :=
  g.each (step eqv O) fun p => assign fun d => PyDict.set eqv d p.1 p.2

end DictSpec

/-- The calls on a dict that do not involve the order: `sd[k]`, `sd.get(k)`, `k in sd`, `len(sd)`. -/
def SDOp.isLookup {κ ν : Type} : SDOp κ ν → Bool
  | .getitem _ | .get _ | .contains _ | .len => true
  | _ => false

end Verif
