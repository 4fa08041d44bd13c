import Verif.Cut
/-!
# What other threads may see of a list that one thread changes
-/

namespace Verif
variable {α β : Type}

/-- What another thread may find in the list (`l`) while one thread makes the calls `ops`, none of which raises: what is there when all calls are done, or what one of
them may leave behind when it is interrupted.  `step`: the plain list; `load i`: the load factor after `i` calls. -/
def Moment (step : Op α → Py (List α) β) (load : Nat → Nat) (ops : List (Op α)) (start l : List α) : Prop :=
  l = (runHist step ops start).2 ∨
    ∃ (i : Nat) (op : Op α), ops[i]? = some op ∧
      op.Aftermath (load i) (runHist step (ops.take i) start).2 (runHist step (ops.take (i + 1)) start).2 l

end Verif
