import Verif.Model.Race
/-!
# Threads that take a lock

The library takes no locks.  Here its clients do: each thread makes its calls as `with lock: answer = sl.method(...)`, with one `threading.Lock` for the list.  A thread whose turn it is
takes the lock if it is free, or makes its next access to the list (`Model/Race.lean`) if it holds it, or gives it back if its call has ended, or waits.
-/

namespace Verif

/-- An object that several threads use under a lock.  (Scaffolding of the model: no code of /repo.) -/
structure Guarded (σ γ β : Type) where
  shared : σ
  /-- who holds the lock, for which call, and what is left of that call -/
  holder : Option (Nat × γ × Task σ β)
  /-- the calls that each thread has yet to begin -/
  waiting : List (List γ)
  /-- the calls that have ended, with their answers, in the order in which the lock was given back -/
  log : List (Nat × γ × Except PyErr β)

namespace Guarded
variable {σ γ β : Type}

/-- Thread `i` has a turn.  (Scaffolding of the model: no code of /repo.) -/
def turn (step : γ → Task σ β) (p : Guarded σ γ β) (i : Nat) : Guarded σ γ β :=
  match p.holder with
  | none =>
    match p.waiting[i]? with
    | some (c :: cs) => { p with holder := some (i, c, step c), waiting := p.waiting.set i cs }
    | _ => p
  | some (j, c, m) =>
    if i = j then
      match m with
      | .ret x => { p with holder := none, log := p.log ++ [(j, c, x)] }
      | .act f k => { p with shared := f p.shared, holder := some (j, c, k p.shared) }
      | .spin => p
    else p

/-- The threads have turns in the order of the schedule.  (Scaffolding of the model: no code of /repo.) -/
def run (step : γ → Task σ β) (p : Guarded σ γ β) (schedule : List Nat) : Guarded σ γ β := schedule.foldl (turn step) p

/-- Nobody has anything left to do.  (Scaffolding of the model: no code of /repo.) -/
def Done (p : Guarded σ γ β) : Prop := p.holder = none ∧ ∀ cs ∈ p.waiting, cs = []

/-- The calls of thread `i` that have ended.  (Scaffolding of the model: no code of /repo.) -/
def ended (p : Guarded σ γ β) (i : Nat) : List γ := (p.log.filter fun e => e.1 == i).map fun e => e.2.1

/-- The call that thread `i` is in.  (Scaffolding of the model: no code of /repo.) -/
def current (p : Guarded σ γ β) (i : Nat) : List γ :=
  match p.holder with
  | some (j, c, _) => if j = i then [c] else []
  | none => []

end Guarded

namespace Race
variable {α κ : Type}

/-- Threads that have a SortedList and a lock in common.  (Scaffolding of the model: no code of /repo.) -/
def SL.guarded (s : St α α) (threads : List (List (Op α))) : Guarded (Shared α α) (Op α) (Out α) :=
  { shared := Shared.of s, holder := none, waiting := threads, log := [] }

/-- Threads that have a SortedKeyList and a lock in common.  (Scaffolding of the model: no code of /repo.) -/
def SKL.guarded (s : St α κ) (threads : List (List (KOp α κ))) : Guarded (Shared α κ) (KOp α κ) (Out α) :=
  { shared := Shared.of s, holder := none, waiting := threads, log := [] }

end Race
end Verif
