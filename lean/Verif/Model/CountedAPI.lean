import Verif.Model.Counted
import Verif.Model.API
/-!
# One call of a metered method

The vocabulary of calls is that of `Op.lean`; only the calls that have a metered program are interpreted.
-/

namespace Verif

/-- The call that adds one value.  (Scaffolding of the model: no code of /repo.) -/
def Op.adds {α : Type} : Op α → Bool
  | .add _ => true
  | _ => false

/-- The calls that delete at most one value.  (Scaffolding of the model: no code of /repo.) -/
def Op.deletes {α : Type} : Op α → Bool
  | .discard _ | .remove _ | .delInt _ | .pop _ => true
  | _ => false

/-- The searches: by value, and by position.  (Scaffolding of the model: no code of /repo.) -/
def Op.search {α : Type} : Op α → Bool
  | .contains _ | .getInt _ | .bisectLeft _ | .bisectRight _ | .count _ | .index .. | .irange .. => true
  | _ => false

/-- The same for a SortedKeyList.  (Scaffolding of the model: no code of /repo.) -/
def KOp.adds {α κ : Type} : KOp α κ → Bool
  | .op o => o.adds
  | _ => false

/-- The calls that delete at most one value.  (Scaffolding of the model: no code of /repo.) -/
def KOp.deletes {α κ : Type} : KOp α κ → Bool
  | .op o => o.deletes
  | _ => false

/-- The searches.  (Scaffolding of the model: no code of /repo.) -/
def KOp.search {α κ : Type} : KOp α κ → Bool
  | .op o => o.search
  | _ => true

/-- One metered call on a SortedList (the methods of `Model/Counted.lean`); other calls are not interpreted.
(Dispatch of the model: each call goes to the definition of its method, which cites its lines.) -/
def Counted.SL.step {α : Type} (E : CEnv α) : Op α → CPy (St α α) (Out α)
  | .add v => Spec.out (fun _ => .none) (add E v)
  | .discard v => Spec.out (fun _ => .none) (discard E v)
  | .remove v => Spec.out (fun _ => .none) (remove E v)
  | .delInt i => Spec.out (fun _ => .none) (delInt delete E.ilog2 i)
  | .pop i => Spec.out .val (pop delete E.ilog2 i)
  | .contains v => Spec.out .bool (contains E v)
  | .getInt i => Spec.out .val (getInt E.ilog2 i)
  | .bisectLeft v => Spec.out (fun (n : Nat) => .int n) (bisect_left E v)
  | .bisectRight v => Spec.out (fun (n : Nat) => .int n) (bisect_right E v)
  | .count v => Spec.out .int (count E v)
  | .index v start stop => Spec.out .int (index E v start stop)
  | .irange lo hi incMin incMax reverse => Spec.out .vals (irange E lo hi incMin incMax reverse)
  | _ => CPy.free (Py.raise .modelGap)

/-- One metered call on a SortedKeyList.
(Dispatch of the model: each call goes to the definition of its method, which cites its lines.) -/
def Counted.SKL.step {α κ : Type} (K : CKEnv α κ) : KOp α κ → CPy (St α κ) (Out α)
  | .op (.add v) => Spec.out (fun _ => .none) (add K v)
  | .op (.discard v) => Spec.out (fun _ => .none) (discard K v)
  | .op (.remove v) => Spec.out (fun _ => .none) (remove K v)
  | .op (.delInt i) => Spec.out (fun _ => .none) (delInt delete K.ilog2 i)
  | .op (.pop i) => Spec.out .val (pop delete K.ilog2 i)
  | .op (.contains v) => Spec.out .bool (contains K v)
  | .op (.getInt i) => Spec.out .val (getInt K.ilog2 i)
  | .op (.bisectLeft v) => Spec.out (fun (n : Nat) => .int n) (bisect_left K v)
  | .op (.bisectRight v) => Spec.out (fun (n : Nat) => .int n) (bisect_right K v)
  | .op (.count v) => Spec.out (fun (n : Nat) => .int n) (count K v)
  | .op (.index v start stop) => Spec.out .int (index K v start stop)
  | .op (.irange lo hi incMin incMax reverse) => Spec.out .vals (irange K lo hi incMin incMax reverse)
  | .bisectKeyLeft k => Spec.out (fun (n : Nat) => .int n) (bisect_key_left K k)
  | .bisectKeyRight k => Spec.out (fun (n : Nat) => .int n) (bisect_key_right K k)
  | .irangeKey lo hi incMin incMax reverse => Spec.out .vals (irange_key K lo hi incMin incMax reverse)
  | _ => CPy.free (Py.raise .modelGap)

end Verif
