import Verif.Model.Core
import Verif.PyDict
/-!
# What `repr` is expected to show

Objects refer to each other, and a container may be reached from itself.  `Shows g inside o r`: `repr(o)`, asked for while
the containers `inside` are being shown around it, gives `r`.  A container is shown with its parts in order; one that is
already being shown is cut off with `...`; if a part cannot be shown, its exception is the result.
-/

namespace Verif

/-- The objects `repr` can meet.  A number stands for an object, by identity.  `name` is `type(o).__name__`, and a sorted list
is stored as in the models of the list classes; its values, its keys and its key function are objects. -/
inductive Node where
  /-- an object of another type; what its `__repr__` returns or raises does not depend on containers -/
  | value (shown : Except PyErr String)
  /-- a built-in list -/
  | list (values : List Nat)
  /-- a built-in tuple -/
  | tuple (values : List Nat)
  /-- a built-in dict, with its items in insertion order -/
  | dict (items : List (Nat × Nat))
  /-- a SortedList -/
  | sortedList (name : String) (list : St Nat Nat)
  /-- a SortedKeyList; `key` is `_key` -/
  | sortedKeyList (name : String) (list : St Nat Nat) (key : Nat)
  /-- a SortedSet; `list` is `_list`, `key` is `_key` -/
  | sortedSet (name : String) (list : St Nat Nat) (key : Option Nat)
  /-- a SortedDict; `dict` is what the base class stores, `list` is `_list`, `key` is `_key` -/
  | sortedDict (name : String) (dict : List (Nat × Nat)) (list : St Nat Nat) (key : Option Nat)
  /-- a view of a dict; `mapping` is `_mapping` -/
  | view (name : String) (mapping : Nat)

/-- All objects, and which of them are equal as keys of a dict. -/
structure Graph where
  node : Nat → Node
  same : Nat → Nat → Bool

/-- What shows an object that is already being shown; `none` if the type does not look for that. -/
def Node.cutoff : Node → Option String
  | .value _ | .view .. => none
  | .list _ => some "[...]"
  | .tuple _ => some "(...)"
  | .dict _ => some "{...}"
  | .sortedList .. | .sortedKeyList .. | .sortedSet .. | .sortedDict .. => some "..."

/-- A part of what is shown: another object, or an exception that comes up instead. -/
inductive ReprPart where
  | obj (o : Nat)
  | fail (e : PyErr)

/-- The items of a dict as parts, in the order of `keys`: a key and its value. -/
def itemParts (same : Nat → Nat → Bool) (dict : List (Nat × Nat)) (keys : List Nat) : List ReprPart :=
  keys.flatMap fun k => match PyDict.lookup same dict k with
    | some v => [.obj k, .obj v]
    | none => [.fail .keyError]

/-- The parts of an object, in the order in which they are asked for. -/
def Node.parts (same : Nat → Nat → Bool) : Node → List ReprPart
  | .value (.ok _) => []
  | .value (.error e) => [.fail e]
  | .list xs | .tuple xs => xs.map .obj
  | .dict items => items.flatMap fun p => [.obj p.1, .obj p.2]
  | .sortedList _ s => s.lists.flatten.map .obj
  | .sortedKeyList _ s key => s.lists.flatten.map .obj ++ [.obj key]
  | .sortedSet _ s none => s.lists.flatten.map .obj
  | .sortedSet _ s (some key) => .obj key :: s.lists.flatten.map .obj
  | .sortedDict _ d s none => itemParts same d s.lists.flatten
  | .sortedDict _ d s (some key) => .obj key :: itemParts same d s.lists.flatten
  | .view _ m => [.obj m]

/-- `', '.join(texts)` -/
def commas (texts : List String) : String := String.intercalate ", " texts

/-- `k1: v1, k2: v2, ...`, from `k1, v1, k2, v2, ...` -/
def colons : List String → List String
  | k :: v :: texts => (k ++ ": " ++ v) :: colons texts
  | _ => []

/-- What is shown, from what the parts are shown as. -/
def Node.layout : Node → List String → String
  | .value (.ok t), _ => t
  | .value (.error _), _ => ""
  | .list _, ts => "[" ++ commas ts ++ "]"
  | .tuple _, [t] => "(" ++ t ++ ",)"
  | .tuple _, ts => "(" ++ commas ts ++ ")"
  | .dict _, ts => "{" ++ commas (colons ts) ++ "}"
  | .sortedList name _, ts => name ++ "([" ++ commas ts ++ "])"
  | .sortedKeyList name _ _, ts => name ++ "([" ++ commas ts.dropLast ++ "], key=" ++ ts.getLastD "" ++ ")"
  | .sortedSet name _ none, ts => name ++ "([" ++ commas ts ++ "])"
  | .sortedSet name _ (some _), ts => name ++ "([" ++ commas ts.tail ++ "], key=" ++ ts.headD "" ++ ")"
  | .sortedDict name _ _ none, ts => name ++ "({" ++ commas (colons ts) ++ "})"
  | .sortedDict name _ _ (some _), ts => name ++ "(" ++ ts.headD "" ++ ", {" ++ commas (colons ts.tail) ++ "})"
  | .view name _, ts => name ++ "(" ++ commas ts ++ ")"

/-- All texts, or the first exception. -/
def allShown : List (Except PyErr String) → Except PyErr (List String)
  | [] => .ok []
  | .error e :: _ => .error e
  | .ok t :: rs => (t :: ·) <$> allShown rs

/-- The containers that are being shown, and `o`. -/
def within (inside : Nat → Bool) (o : Nat) : Nat → Bool := fun x => x == o || inside x

/-- What is shown for an object, and for a list of parts. -/
inductive Shows (g : Graph) : (Nat → Bool) → Nat → Except PyErr String → Prop where
  /-- a container that is being shown already -/
  | again {inside o t} (hc : (g.node o).cutoff = some t) (hi : inside o = true) : Shows g inside o (.ok t)
  /-- a container that is not: `rs` is what its parts are shown as inside it -/
  | container {inside o t} {rs : List (Except PyErr String)} (hc : (g.node o).cutoff = some t) (hi : inside o = false)
      (hl : rs.length = ((g.node o).parts g.same).length)
      (hf : ∀ (i : Nat) (e : PyErr), ((g.node o).parts g.same)[i]? = some (.fail e) → rs[i]? = some (.error e))
      (hp : ∀ (i x : Nat) (r : Except PyErr String), ((g.node o).parts g.same)[i]? = some (.obj x) → rs[i]? = some r → Shows g (within inside o) x r) :
      Shows g inside o ((g.node o).layout <$> allShown rs)
  /-- an object that does not look whether it is being shown: a view, or an object of another type -/
  | plain {inside o} {rs : List (Except PyErr String)} (hc : (g.node o).cutoff = none)
      (hl : rs.length = ((g.node o).parts g.same).length)
      (hf : ∀ (i : Nat) (e : PyErr), ((g.node o).parts g.same)[i]? = some (.fail e) → rs[i]? = some (.error e))
      (hp : ∀ (i x : Nat) (r : Except PyErr String), ((g.node o).parts g.same)[i]? = some (.obj x) → rs[i]? = some r → Shows g inside x r) :
      Shows g inside o ((g.node o).layout <$> allShown rs)

/-- Nothing is being shown. -/
def nowhere : Nat → Bool := fun _ => false

/-- There are finitely many containers and views, and views are views of dicts. -/
structure Graph.Finite (g : Graph) : Prop where
  bound : ∃ n, ∀ o, n ≤ o → ∃ r, g.node o = .value r
  views : ∀ o name m, g.node o = .view name m → ∃ t, (g.node m).cutoff = some t

end Verif
