import Verif.Op
import Verif.Model.Threads
/-!
# Threads that change one object

A call that changes a container may raise because other threads change it too.  `Mishaps` says what such a thread still can rely on: a call that raises unexpectedly has either had its whole
effect on the plain container, or none; all other calls are answered as by the plain container.
-/

namespace Verif
variable {τ ω β κ ν α : Type}

/-- The calls `cs` of one thread get `xs`, and lead from the plain container `s` to `t`.  `step`: the plain container.  `sure`: the calls that are answered right, if they do not raise
unexpectedly.  `before`, `after`: the calls that may raise an exception of `errs` unexpectedly, and then have had no effect on the plain container, or their whole effect. -/
inductive Mishaps (step : ω → Py τ β) (sure before after : ω → Prop) (errs : PyErr → Prop) : τ → List ω → List (Except PyErr β) → τ → Prop where
  | nil {s} : Mishaps step sure before after errs s [] [] s
  | call {s t c cs x xs} : (sure c → x = (step c s).1) → Mishaps step sure before after errs (step c s).2 cs xs t →
      Mishaps step sure before after errs s (c :: cs) (x :: xs) t
  | before {s t c cs e xs} : before c → errs e → Mishaps step sure before after errs s cs xs t → Mishaps step sure before after errs s (c :: cs) (.error e :: xs) t
  | after {s t c cs e xs} : after c → errs e → Mishaps step sure before after errs (step c s).2 cs xs t → Mishaps step sure before after errs s (c :: cs) (.error e :: xs) t

/-- The value that is put in or taken out. -/
def SSOp.changed : SSOp α → Option α
  | .add v | .discard v | .remove v => some v
  | _ => none

/-- The value that a call is about. -/
def SSOp.about : SSOp α → Option α
  | .contains v | .count v => some v
  | op => op.changed

/-- The key that is put in or taken out. -/
def SDOp.changed : SDOp κ ν → Option κ
  | .setitem k _ | .delitem k | .pop k _ | .setdefault k _ => some k
  | _ => none

/-- The key that a call is about. -/
def SDOp.about : SDOp κ ν → Option κ
  | .contains k | .getitem k | .get k => some k
  | op => op.changed

/-- No other thread than the `i`th puts `v` in or takes it out. -/
def SSOp.OnlyBy (threads : List (List (SSOp α))) (i : Nat) (v : α) : Prop := ∀ j cs, j ≠ i → threads[j]? = some cs → ∀ op ∈ cs, op.changed ≠ some v

/-- No other thread than the `i`th puts a key equal to `k` in or takes it out. -/
def SDOp.OnlyBy (eqv : κ → κ → Bool) (threads : List (List (SDOp κ ν))) (i : Nat) (k : κ) : Prop :=
  ∀ j cs, j ≠ i → threads[j]? = some cs → ∀ op ∈ cs, ∀ k', op.changed = some k' → eqv k k' = false

/-- The calls that change the list of keys before the dict. -/
def SDOp.listFirst : SDOp κ ν → Prop
  | .setitem .. | .pop .. => True
  | _ => False

/-- The calls that change the dict before the list of keys. -/
def SDOp.dictFirst : SDOp κ ν → Prop
  | .delitem _ | .setdefault .. => True
  | _ => False

/-- What the program may raise, whatever other threads do. -/
def Prog.MayRaise (errs : PyErr → Prop) : Prog τ β → Prop
  | .ret x => ∀ e, x = .error e → errs e
  | .read k => ∀ s, MayRaise errs (k s)
  | .write _ k => MayRaise errs k

/-- The program does not change `f` of the object, whatever other threads do. -/
def Prog.Leaves {γ : Type} (f : τ → γ) : Prog τ β → Prop
  | .ret _ => True
  | .read k => ∀ s, Leaves f (k s)
  | .write g k => (∀ s, f (g s) = f s) ∧ Leaves f k

/-- What the calls of a sorted list may raise when several threads change it: IndexError or ValueError. -/
def listErr (e : PyErr) : Prop := e = .indexError ∨ e = .valueError

end Verif
