import Verif.DictSpec
/-!
# Specification of the constructors: what the arguments mean

`F` is the type of callables that can serve as key functions.
-/

namespace Verif
variable {F κ ν : Type}

/-- An optional argument `key`: not passed, passed as None, passed as a callable. -/
inductive KeyArg (F : Type) where
  | absent
  | none
  | func (f : F)

/-- The class that is called: SortedList, SortedKeyList, or a subclass of one of them that overrides neither `__new__` nor
`__init__`. -/
inductive ListType where
  | sortedList
  | sortedKeyList
  | subclassOfSortedList
  | subclassOfSortedKeyList
deriving DecidableEq

/-- A positional argument of `SortedDict(...)` or `sd.update(...)`, as far as these tell arguments apart. -/
inductive DArg (F κ ν : Type) where
  /-- None -/
  | none
  /-- a callable that is neither a mapping nor iterable -/
  | callable (f : F)
  /-- a dict or an instance of a subclass of dict, not callable, with its items in iteration order -/
  | dict (items : List (κ × ν))
  /-- another mapping or an iterable, not callable: the pairs it yields, and the exception that ends them, if any -/
  | pairs (items : List (κ × ν)) (fail : Option PyErr)
  /-- an instance of a subclass of dict that is callable -/
  | callableDict (f : F) (items : List (κ × ν))
  /-- anything else, such as 5 -/
  | other

namespace DictSpec

/-- The items given by `update(*args, **kwargs)`: those of at most one mapping or iterable of pairs, then the keyword
arguments.  The built-in `dict(*args, **kwargs)` takes its arguments in the same way. -/
def given : List (DArg F κ ν) → List (κ × ν) → Except PyErr (List (κ × ν))
  | [], kwargs => .ok kwargs
  | [.dict items], kwargs => .ok (items ++ kwargs)
  | [.callableDict _ items], kwargs => .ok (items ++ kwargs)
  | [.pairs items none], kwargs => .ok (items ++ kwargs)
  | [.pairs _ (some e)], _ => .error e
  | [.none], _ => .error .typeError
  | [.callable _], _ => .error .typeError
  | [.other], _ => .error .typeError
  | _ :: _ :: _, _ => .error .typeError

/-- The key function and the items given by `SortedDict(*args, **kwargs)`: None or a callable in the first place is the key
function, the other arguments are as in `update`. -/
def arguments : List (DArg F κ ν) → List (κ × ν) → Except PyErr (Option F × List (κ × ν))
  | .none :: rest, kwargs => (given rest kwargs).map fun items => (none, items)
  | .callable f :: rest, kwargs => (given rest kwargs).map fun items => (some f, items)
  | .callableDict f _ :: rest, kwargs => (given rest kwargs).map fun items => (some f, items)
  | args, kwargs => (given args kwargs).map fun items => (none, items)

end DictSpec
end Verif
