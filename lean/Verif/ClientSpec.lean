import Verif.Spec
/-!
# Code of the client that queries the list it is called for

The comparison operators of the values and the key function are code of the client.  When they are called, they may ask the list on whose
behalf they are called, and go on with what it answers.
-/

namespace Verif

/-- What the client's code does when it is called: it asks a query and goes on with the answer (or the exception), or is done, with a
result or an exception. -/
inductive Client (Q R β : Type) where
  | done (r : Except PyErr β)
  | ask (q : Q) (k : Except PyErr R → Client Q R β)

/-- What the client has seen so far: how often its code was called, and the queries it asked, with their answers, latest first. -/
structure Seen (Q R : Type) where
  calls : Nat := 0
  answers : List (Q × Except PyErr R) := []

namespace Client
variable {Q R β : Type}

/-- What the code comes to if the queries are answered by `ans`. -/
def says (ans : Q → Except PyErr R) : Client Q R β → Except PyErr β
  | .done r => r
  | .ask q k => (k (ans q)).says ans

/-- The code comes to `r` whatever it is told. -/
def Always (r : Except PyErr β) : Client Q R β → Prop
  | .done r' => r' = r
  | .ask _ k => ∀ a, (k a).Always r

end Client

/-- The queries of a SortedList. -/
def Query (α : Type) : Type := { op : Op α // op.isQuery = true }

/-- The calls on a SortedKeyList that rebuild it from many values at once. -/
def KOp.bulk {α κ : Type} : KOp α κ → Bool
  | .op o => o.bulk
  | _ => false

/-- The queries of a SortedKeyList. -/
def KQuery (α κ : Type) : Type := { op : KOp α κ // op.isQuery = true }

/-- The comparison operators of the values of a SortedList, as code of the client.  The code may depend on how deep calls are nested (`0`:
called by a method that the client called from outside), on what it has seen so far, and on the arguments.  `pairs xs` are the comparisons
that `sorted(xs)` makes. -/
structure SL.Clients (α : Type) where
  cmp : Nat → CmpOp → α → α → Seen (Query α) (Out α) → Client (Query α) (Out α) Bool
  pairs : List α → List (α × α)

/-- The key function and the comparison operators of a SortedKeyList, as code of the client. -/
structure SKL.Clients (α κ : Type) where
  key : Nat → α → Seen (KQuery α κ) (Out α) → Client (KQuery α κ) (Out α) κ
  kcmp : Nat → CmpOp → κ → κ → Seen (KQuery α κ) (Out α) → Client (KQuery α κ) (Out α) Bool
  vcmp : Nat → CmpOp → α → α → Seen (KQuery α κ) (Out α) → Client (KQuery α κ) (Out α) Bool
  pairs : List κ → List (κ × κ)

/-- The code of the client is right: it compares as `cmp` if its queries are answered as a plain sorted list answers them.  Calls nest at
most `D` deep: at depth `D` nothing is asked. -/
structure SL.Clients.Honest {α : Type} (C : SL.Clients α) (O : Spec.Order α) (cmp : CmpOp → α → α → Except PyErr Bool) (D : Nat) : Prop where
  cmp : ∀ d op a b w l, Sorted O.lt l → (C.cmp d op a b w).says (fun q => (Spec.step O q.1 l).1) = cmp op a b
  quiet : ∀ op a b w, ∃ r, C.cmp D op a b w = .done r

/-- The code of the client is right whatever it is told. -/
structure SL.Clients.Steadfast {α : Type} (C : SL.Clients α) (cmp : CmpOp → α → α → Except PyErr Bool) (D : Nat) : Prop where
  cmp : ∀ d op a b w, (C.cmp d op a b w).Always (cmp op a b)
  quiet : ∀ op a b w, ∃ r, C.cmp D op a b w = .done r

/-- The code of the client is right, if its queries are answered as a plain list sorted by key answers them. -/
structure SKL.Clients.Honest {α κ : Type} (C : SKL.Clients α κ) (key : α → κ) (klt : κ → κ → Bool) (O : Spec.Order α)
    (keyOf : α → Except PyErr κ) (kcmp : CmpOp → κ → κ → Except PyErr Bool) (vcmp : CmpOp → α → α → Except PyErr Bool) (D : Nat) : Prop where
  of_key : ∀ d a w l, Sorted O.lt l → (C.key d a w).says (fun q => (Spec.kstep key klt O q.1 l).1) = keyOf a
  of_kcmp : ∀ d op a b w l, Sorted O.lt l → (C.kcmp d op a b w).says (fun q => (Spec.kstep key klt O q.1 l).1) = kcmp op a b
  of_vcmp : ∀ d op a b w l, Sorted O.lt l → (C.vcmp d op a b w).says (fun q => (Spec.kstep key klt O q.1 l).1) = vcmp op a b
  quiet_key : ∀ a w, ∃ r, C.key D a w = .done r
  quiet_kcmp : ∀ op a b w, ∃ r, C.kcmp D op a b w = .done r
  quiet_vcmp : ∀ op a b w, ∃ r, C.vcmp D op a b w = .done r

/-- The code of the client is right whatever it is told. -/
structure SKL.Clients.Steadfast {α κ : Type} (C : SKL.Clients α κ) (keyOf : α → Except PyErr κ)
    (kcmp : CmpOp → κ → κ → Except PyErr Bool) (vcmp : CmpOp → α → α → Except PyErr Bool) (D : Nat) : Prop where
  of_key : ∀ d a w, (C.key d a w).Always (keyOf a)
  of_kcmp : ∀ d op a b w, (C.kcmp d op a b w).Always (kcmp op a b)
  of_vcmp : ∀ d op a b w, (C.vcmp d op a b w).Always (vcmp op a b)
  quiet_key : ∀ a w, ∃ r, C.key D a w = .done r
  quiet_kcmp : ∀ op a b w, ∃ r, C.kcmp D op a b w = .done r
  quiet_vcmp : ∀ op a b w, ∃ r, C.vcmp D op a b w = .done r

end Verif
