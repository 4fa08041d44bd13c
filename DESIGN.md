# Formal model of sortedcontainers in Lean 4

The subject is `src/sortedcontainers/{sortedlist,sortedset,sorteddict}.py` of the pinned commit in `/repo`.
The properties are in `properties.jsonl`; `MANIFEST.json` maps each to the theorems that state it;
`AXIOMS.md` lists the axioms of each theorem; `seeded/LOG.jsonl` is the record of wrong programs.

## 1. Trusted base

* **Lean 4.33.0's kernel.**  No `native_decide`, no `bv_decide`, no `sorry`, no axioms declared here.  Mathlib is not imported.
* **Axioms.**  At most `propext`, `Classical.choice` and `Quot.sound`, the three of Lean's standard library.
  `AXIOMS.md` gives the exact list theorem by theorem, written by `tools/axioms.py` from `#print axioms`.
* **The model is faithful to the Python text.**  This is by reading: each definition cites the lines it transcribes and says
  what it simplifies.  Section 4 lists what is transcribed and what is not.
* **The assumptions about what the library calls** (section 3): `bisect`, `sorted`, list operations, slices, built-in `set`
  and `dict`, `math.log`, the mixins of `collections.abc`.
* **The specifications** (`Spec`, `SetSpec`, `DictSpec`, `IterSpec`, `HeapSpec`, `SetHeapSpec`, `DictHeapSpec`, `Wild`): small files that do not
  import the model.  They say what the same call does to a plain sorted list, a duplicate-free sorted list, a finite map.

## 2. Layout (under `lean/Verif/`)

| file | content |
|---|---|
| `Py.lean` | the fragment of Python the library rests on: exceptions as values, the monad `Py`, list primitives, `bisect`, `slice.indices`, `range` |
| `PyDict.lean` | the built-in `dict` as an insertion-ordered association list |
| `Op.lean` | the calls a client can make on a list, set or dict, as data: histories are lists of these |
| `Spec.lean`, `SetSpec.lean`, `DictSpec.lean` | what each call does to a plain sorted list / set / map |
| `IterSpec.lean` | what an iterator yields, one value at a time |
| `CtorSpec.lean` | what the arguments of the constructors mean |
| `WildSets.lean` | sorted sets and dicts with any comparisons whatsoever |
| `HeapSpec.lean`, `SetHeapSpec.lean`, `DictHeapSpec.lean` | several lists / sets / dicts with no sharing |
| `Wild.lean` | what may be expected when comparisons raise or contradict each other |
| `Model/Core.lean` | the object state `St` and the methods `SortedList` and `SortedKeyList` share |
| `Model/SortedList.lean`, `Model/SortedKeyList.lean` | the methods of the two list classes |
| `Model/API.lean` | the two classes behind one interface; `Lawful` comparisons; one call of a history |
| `Model/SortedSet.lean`, `Model/SortedDict.lean` | the two derived containers |
| `Model/Ctor.lean` | `__new__`, `__init__` and `update` with all kinds of arguments |
| `Model/Views.lean` | the views of a dict and the `collections.abc` mixins they inherit |
| `Model/Iter.lean` | iterators as objects that are advanced one value at a time |
| `Model/IterHeap.lean` | the same iterators, holding list objects |
| `Model/IterHeapSets.lean` | the same for SortedSet and SortedDict |
| `Model/Interrupt.lean` | the list classes with a log of the objects a call passes through |
| `Cut.lean` | specification: what an interrupted call may leave behind |
| `Model/Threads.lean` | the queries of the list classes as programs that can be suspended |
| `Readers.lean` | specification: the queries that do not count positions |
| `Model/InterruptSets.lean` | SortedSet and SortedDict, with the objects that a call passes through |
| `CutSets.lean` | specification: what an interrupted call on a set or dict may leave behind |
| `ReprSpec.lean` | specification: what `repr` shows |
| `ClientSpec.lean` | specification: comparisons and key functions that query the list |
| `Model/Reentrant.lean` | the methods of the list classes, calling such code |
| `ClientSets.lean`, `Model/ReentrantSets.lean` | comparisons and key functions that query their set or dict: specification, methods |
| `EqSpec.lean`, `Ordered.lean` | specification: `==` that does not follow from `<`; what is assumed then |
| `EqSets.lean` | which calls of sets and dicts are tame if `==` is finer than `<` |
| `Changing.lean` | values that are modified between the calls: stored keys, sets and dicts whose order changes |
| `Model/Gen.lean`, `GenSpec.lean` | generators that call methods of the container they are passed to |
| `Model/Reinit.lean` | `__init__` called on an object that exists already |
| `Model/Writers.lean` | `add`, `discard`, `remove`, `clear` of the lists, and `v in sl`, as programs of a thread |
| `Moments.lean` | what other threads may see of a list that one thread changes |
| `Linear.lean` | what it means that the calls of several threads take effect one at a time; lookups and one-step calls |
| `Owners.lean`, `Model/WritersSets.lean` | several threads that change one set or dict |
| `Model/Repr.lean` | `__repr__`, `recursive_repr`, threads that call `repr` |
| `Model/ThreadsSets.lean` | the queries of SortedSet and SortedDict as programs that can be suspended |
| `Model/Counted.lean` | searching and single-element methods with a meter for comparisons, steps and writes |
| `Model/CountedAPI.lean` | one metered call, for histories |
| `Model/CountedBulk.lean` | `update` of the list classes with a meter |
| `Model/CountedSets.lean` | the metered list classes inside sets and dicts |
| `Costs.lean` | what calls on sets and dicts may cost |
| `Model/Heap.lean`, `Model/World.lean` | the list classes again, with list objects by reference; several objects in one memory |
| `Model/SetHeap.lean` | SortedSet with its set, its list and its cached bound methods by reference |
| `Model/DictHeap.lean` | SortedDict with its list, its views and the arguments of its methods by reference |
| `Model/Race.lean` | the list classes as programs that are suspended between any two accesses, several of them on one list |
| `Model/Locked.lean` | clients that take a lock around each call |
| `Model/RaceSets.lean` | sortedset.py, sorteddict.py: the methods of SortedSet and SortedDict, access by access |
| `Proofs/*.lean` | invariants, lemmas and refinement proofs; nothing here needs to be trusted or read |
| `Props/*.lean` | one theorem (or a few) per property, with an `example` showing that its hypotheses are met |
| `Props/Demo*.lean` | concrete comparison environments and reachable objects for those examples |

## 3. How Python is modelled

* A method that may mutate its object and may raise is a function `σ → Except PyErr α × σ`: *mutations made before an
  exception are kept*, so failure atomicity can be stated and refuted on the same model.
* Comparisons (`<`, `==`, ...), the key function and `sorted` are parameters (`Env`, `KEnv`) returning `Except PyErr _`:
  they may raise anywhere.  The functional properties assume `Lawful`: they do not raise, `<` is a strict weak order
  and the other comparisons agree with it (equal values need not be identical, as with `1`, `1.0`, `True`), `sorted` is a
  stable sort.  C33, C34, C43, C49 and C52 assume nothing about comparisons.
* `SortedKeyList` separates the order on keys from equality on values: keys may be equal for unequal values.
* `bisect_left`, `bisect_right`, `insort` are written out as CPython's loop (`Py.lean`), so that raising comparisons are
  met in the same order.
* Integers are unbounded.  Subscripts the caller passes are `Int`; positions the code computes are `Nat`.  Where Python
  would produce a negative number in a place where the model uses `Nat` the model raises the distinguished error
  `modelGap`; the refinement theorems show that no call in a reachable state does so.
* `int(math.log(n, 2))` in `_build_index` is a parameter `ilog2` of which only `n < 2^(ilog2 n + 1)` is assumed (floating
  point may err upwards but not downwards).  C51, C66, C67 and C68 assume in addition that it does not err upwards.
* `_load` is part of the state, positive; `_reset` may change it at any time.
* The built-in `set` is an abstract structure `SetOps` with laws (`SetOps.Lawful`): membership up to an equivalence `eqv`
  (Python's `==` with `hash`), and *any* iteration order.  The built-in `dict` is an association list in insertion order whose
  assignment keeps the old key object.
* Iterators returned by `irange`, `islice`, `iter` are lists of values in the history theorems (C02, C27, ...), and objects
  with their own position in C57, C58; there they name a sublist by its position, in C69, C75 they hold the list object.
* Values are mathematical values in most theorems; list objects are references in C59, set and list objects and
  bound methods in C60, dicts, lists, bound methods and views in C65.

## 4. What is modelled, what is not

Modelled, function by function:

* `sortedlist.py`, `SortedList`: `__init__`, `__new__`, `_reset`, `clear`, `add`, `_expand`, `update`, `__contains__`, `discard`,
  `remove`, `_delete`, `_loc`, `_pos`, `_build_index`, `__delitem__`, `__getitem__`, `__setitem__`, `__iter__`,
  `__reversed__`, `reverse`, `islice`, `_islice`, `irange`, `__len__`, `bisect_left`, `bisect_right`/`bisect`, `count`,
  `copy`/`__copy__`, `append`, `extend`, `insert`, `pop`, `index`, `__add__`/`__radd__`, `__iadd__`, `__mul__`/`__rmul__`, `__imul__`,
  the six comparisons (`__make_cmp`), `__reduce__`, `_check`.
* `SortedKeyList`: `__init__`, `__new__`, `clear`, `add`, `_expand`, `update`, `__contains__`, `discard`, `remove`, `_delete`, `irange`,
  `irange_key`, `bisect_left`, `bisect_right`, `bisect_key_left`, `bisect_key_right`, `count`, `copy`, `index`, `__add__`,
  `__mul__`, the inherited `__rmul__` and `__imul__`, `__reduce__`, `_check`, and everything inherited from `SortedList`.
* `sortedset.py`: `__init__`, `_fromset`, `__contains__`, `__getitem__`, `__delitem__`, the six comparisons, `__len__`, `__iter__`,
  `__reversed__`, `add`, `clear`, `copy`, `count`, `discard`, `pop`, `remove`, `difference`, `difference_update`, `intersection`,
  `intersection_update`, `symmetric_difference`, `symmetric_difference_update`, `union`, `update`, the operators bound to them,
  `Set.__rsub__`, the delegated `isdisjoint`, `issubset`, `issuperset`, `bisect*`, `index`, `irange`, `islice`, `_reset`,
  `__reduce__`, `_check`.
* `sorteddict.py`: `__init__`, `iloc`, `clear`, `__delitem__`, `__iter__`, `__reversed__`, `__setitem__`, `__or__`, `__ror__`,
  `__ior__`, `copy`, `fromkeys`, `keys`, `items`, `values`, `pop`, `popitem`, `peekitem`, `setdefault`, `update`, `__reduce__`, `_check`,
  the inherited `__getitem__`, `get`, `__contains__`, `__len__`, `__eq__`, `__ne__` of `dict`, the delegated searches; the
  three view classes with `__getitem__`, `__delitem__`, and the inherited mixin methods `__contains__`, `__iter__`,
  `__len__`, `__reversed__`, `index`, `count`, the comparisons and the set operators.

Not modelled:

* docstrings, messages of exceptions, `traceback` output of `_check`; for `repr` (C74) the limit on the depth of recursion and threads that change what is shown.
* Subclasses of the four classes that override methods; `__slots__`, attributes set by hand.
* Two threads that change one list and each have an iterator of it, or a second list that they compare it with and change too (C88 has all calls; a call reads what it iterates to its end, and a sequence that the list is compared with is changed by nobody); threads that query are modelled (C71, C73), and one thread that changes a list (C82), a set or a dict (C83).  In C88, a call of a built-in function that calls no Python code is one access, as with CPython's global lock.  Signals (`KeyboardInterrupt`), `MemoryError`, recursion limits are modelled for calls on one object (C70, C72); elsewhere
  the only faults are exceptions from comparisons, key functions, and the iterables passed in.
* Comparisons and key functions that change the object they are being called for (those that query it are modelled, C76, C85); `__hash__`, and `==` called by the built-in set and dict, that call back into the set or dict.
* Generators passed as arguments are lists of values with an exception at the end, except in C80, where they call methods of the container (whole calls; generators that never end are not modelled).
* The object graph of values stored: a value of the model stands for an object.  That an object is modified is modelled as a change of the environment between two calls (C79); what the objects hold is not.
* `pickle` itself: `__reduce__` is modelled as the constructor arguments it hands out, and unpickling as a constructor call.

## 5. Plan per property

Notation: *refinement* = for each method, in every state satisfying the representation invariant, the model's result equals
the result of the specification on `list(sl)`, the invariant is preserved, and the new contents are the specification's.

* C01-C03, C26: representation invariant, induction over histories.
* C02, C27: refinement for each call, lifted to all call sequences by induction.
* C04, C32: `_check` is modelled as an executable function; the invariant implies that it succeeds.
* C05-C22, C28-C31: corollaries of the refinement, stated against plain-list operations.
  C31 is false of the code: `n * skl` is inherited from SortedList and forgets the key.  Refuted by a witness
  (`C31_rmul_forgets_key`), what it does instead is proved (`C31_rmul_result`), the rest is `C31_derived_lists_partial`.
* C23: `__reduce__` modelled as constructor arguments; for the four classes.
* C24, C25: from refinement: outputs depend only on the contents.
* C33: direct case analysis of the code with arbitrary raising comparisons.
* C34, C43, C49 are false of the code: `update` appends to the sublists before a sort that may raise, `SortedSet.add` and
  `SortedDict.setdefault`/`update` write to the built-in store before the list.  Refuted by witnesses (`*_not_atomic`); the part that holds is `*_partial`.
* C35: refinement plus the specification.
* C36-C42: SortedSet over an abstract built-in set (any iteration order), and over an abstract sorted
  list that refines the specification (instantiated by both list classes).  C42 is false for `other - ss`, which is
  `Set.__rsub__` and forgets the key: refuted (`C42_rsub_forgets_key`), result proved (`C42_rsub_result`), rest partial.
* C44-C48: SortedDict over an insertion-ordered dict, same technique.
* C50: direct.
* C51: a second copy of the searching and single-element methods that also advances a meter (`Model/Counted.lean`);
  proved to do exactly what the model does, with bounds on the readings (`Proofs/Counted*.lean`).  The height of the
  index needs an invariant beyond that of C04 (`Snug`, `Proofs/Snug.lean`).
* C52: with comparisons that raise or contradict each other at will (nan, mixed types), an invariant that only speaks of
  the shape (`Proofs/Robust.lean`, `RobustKey.lean`): positional calls still act as on a plain list, `add` inserts exactly
  the value somewhere, `discard` and `remove` take away at most one value, queries change nothing.
* C53: `_check` of set and dict; the invariants of both stores, plus that calls keep the load factor
  (`Proofs/Keeps.lean`).
* C54-C56: the mixin methods of `collections.abc` (`Set`, `Sequence`, the views) are modelled in `Model/Views.lean` as
  CPython resolves them for the view classes; the views are shown to behave as finite sets and as sequences.
* C57, C58: an iterator is what it has still to read (`Model/Iter.lean`, the same bounds computation as `islice` and
  `irange`, with another continuation); `next` reads the live sublists.  Spec: the list of values to come, made at
  creation (`IterSpec.lean`).  Simulation over every schedule; queries are shown to leave the sublists alone.
* C59: all methods of the list classes again, on list objects by reference (`Model/Heap.lean`, `Model/World.lean`): sublists
  are addresses in a memory of list objects.  Each method is shown to do what the model on values does and to write only to
  sublists it owns and to new lists (`Proofs/Heap.lean`); so the objects of different owners stay apart
  (`Proofs/World.lean`).  Spec: every list is a value of its own (`HeapSpec.lean`).
* C60: the same one level up (`Model/SetHeap.lean`): a SortedSet is a reference to a built-in set, a reference to a sorted
  list, and the references its cached bound methods were made with.  Spec: every set is a value of its own
  (`SetHeapSpec.lean`).  `SortedSet.__reduce__` hands out the internal set object, so clients that call it by hand and keep the
  set are excluded; `C60_reduce_shares` is a witness that they must be.
* C61: the converse of C04, C32 and C53: the assertions of `_check`, read backwards, are the representation invariant, up to
  the shape of the positional index and repetitions in the list of a set or dict, which `_check` does not look at
  (`Proofs/Audit.lean`).
* C62: the constructors with all their kinds of arguments (`Model/Ctor.lean`; meaning of the arguments: `CtorSpec.lean`), reduced
  to the constructors of the other modules, which start after the class has been chosen.
* C63: `Ever` (`WildSets.lean`) are the objects after any calls with any comparisons.  The only thing known of them is that the
  load factor is positive; `clear` establishes the full invariant from that.
* C64: `Erratic` and `Wild` (`WildSets.lean`): a class of histories in which every call brings comparisons of its own.
  `ListAPI.Robust` collects what is left of the sorted list then (the values it should hold, in some order), `InStep` says that
  the list holds exactly the members of the set or dict; every call keeps it.  The specification (`SetSpec.after`, `.remaining`,
  `.answer`, `.result`, the same in `DictSpec`) speaks of a plain set or dict and the order of iteration.
* C65: the same for SortedDict (`Model/DictHeap.lean`): a SortedDict is a dict object with a reference to a sorted list and cached
  methods of that list; views refer to a SortedDict; arguments are references, so that `sd.update(sd)` reads what it writes.
  Each method is shown to do what the model on values does to the receiver (`Lifts`), and to leave all other objects alone
  (`Inside`, `Only`, also with arbitrary comparisons).  Spec: every dict is a value of its own, a view is a name
  (`DictHeapSpec.lean`).
* C66: amortised cost.  The metered programs of C51 are run over whole histories (`Model/CountedAPI.lean`).  Potential of a
  layout: a sublist of `x` values counts `x - L` if too long and `2 (L - x)` if too short (a single sublist may be short);
  every add raises it by at most one, every deletion by at most two, every split or merge lowers it by at least `L / 2`
  (`Proofs/Amortised.lean`).  The index is built only when missing, and lost only by a split or merge.  `Bill` adds these up over
  one call, then over a history (`Proofs/AmortisedOps.lean`, `Proofs/AmortisedHist.lean`).  The spec is `Budget` in
  `Props/Amortised.lean`.  Bulk calls (`update`, slices) are not in these histories.
* C67: cost of sets and dicts.  `SS` and `SD` take the methods of their list as a parameter; given the metered methods
  (`Model/CountedSets.lean`) the same programs are metered.  `Proofs/CountedSets.lean` shows that each call makes at most one
  call of the list (two for `del ss[i]`), `Proofs/CountedPrices.lean` that these are priced by C51 and C66.  The spec is the
  tables of `Costs.lean`.  The work of the built-in set and dict is not counted, nor are steps of iterators (which cannot
  compare).  Bulk calls are C68.
* C68: cost of bulk updates.  `Model/CountedBulk.lean` meters `update` of the two list classes; the meter has a gauge for the values
  given to the built-in `sorted`, whose own comparisons are not counted.  Each path is bounded separately: the loop by C51 for each
  step (with the growing size), the other path by the sizes at which the code chooses it.  Writes of the bulk path to the top-level
  lists are not counted; slices are not covered.
* C69: iterators that hold list objects, on the memory of C59 (`Model/IterHeap.lean`).  Every method is shown to leave in each
  old list object only values that were there or in the sorted list before or after the call (`Proofs/Live.lean`); hence an
  invariant over all histories for the list objects that an iterator holds.  End of iteration by a measure.  For schedules
  with queries only: the iterator by reference stays in step with the iterator by position of C57 (`Proofs/IterQuiet.lean`).
* C70: the programs of the two list classes run with a log of the objects they pass through (`Model/Interrupt.lean`), one entry per
  statement that writes.  `Tr` (`Proofs/Interrupt.lean`) says at once that all logged objects have a property, and that the program
  does what the ordinary model does; it is proved for every method by following its text.  For histories on
  damaged objects `Thru` (`Proofs/InterruptHist.lean`): every write keeps the values within those put in, and the load factor positive.
  After interruptions the model leaves Python where `len` would become negative, or where a damaged positional index
  gives a negative position: histories in which an uninterrupted call gets there (`modelGap`) are excluded in `SL.Cut`.
* C71: a query is a program that looks at the object, or writes to it, one access at a time (`Model/Threads.lean`); a schedule says whose
  turn it is.  `Reader` (`Proofs/Threads.lean`): alone the program does what the ordinary model does, it writes nothing if the positional index is there, and if
  it writes, the positional index is there afterwards.  `Rely` is the invariant of one thread among others.  All reads between two calls of
  `_loc`, `_pos` or `_build_index` are one access; since queries write only `_index` and `_offset`, finer ones would see the same values.
* C72: the programs of SortedSet and SortedDict with the log of C70 (`Model/InterruptSets.lean`), over the list methods with their logs (`IListAPI`).  One call of a
  method of the built-in set or dict is one step.  `Trace` (`Proofs/InterruptSets.lean`) is `Tr` for any object; `step_trace` (`Proofs/InterruptSS.lean`,
  `Proofs/InterruptSD.lean`) proves `Aftermath` and `Progress` (`CutSets.lean`) for every call from what `IListAPI.Cuts` says about lists.  Histories:
  `Thru` and `Keep` (`Proofs/InterruptHistSets.lean`).
* C73: as C71, over the list queries as programs (`QListAPI`, `Model/ThreadsSets.lean`).  `Asks` (`Proofs/Threads.lean`) says that a program is a query and what it may write;
  `Proofs/ThreadsSets.lean` lifts it from the list to the set and the dict (`Prog.zoom`).
* C74: `Shows` (`ReprSpec.lean`) says what is shown, by recursion over the containers around an object.  The model is a machine with a stack and the shared set of
  pairs of the recursion guard; a run follows the derivation of `Shows`, a derivation exists because a container is entered only once on the way, and each thread looks only at its own pairs.
* C75: as C69 for sets and dicts (`Model/IterHeapSets.lean`): the programs of Model/SortedSet.lean and Model/SortedDict.lean run on a `_list` whose sublists are list objects.
  Each method is a sequence of calls on `_list`; the sequences that occur are shown to compose (`Proofs/IterHeapSets.lean`): calls that change no list object, values added
  one by one, values removed one by one, and at most one other change.  That the methods on list objects obey the laws of a sorted list (`Proofs/HeapList.lean`) gives the results of all calls.
* C76: the code of the client is data, `Client`: ask a query and go on with its answer, or be done.  `Model/Reentrant.lean` runs the methods over it: each comparison or call of the key function
  is a run of that code, in which each query is a call of the method on the very object, at one more level of nesting.  Proof: nested queries change nothing but the positional index
  (a relation between the object in the outer call's hands and the object before), so each method keeps in step with the method of Model/SortedList.lean; by induction on the depth the answers are right.
  For calls that rebuild the list the client's answers may be wrong, so there the operators have to be right whatever they are told; `C76_rebuilding_shows` is the witness.
* C77: `Env.Ordered` assumes an order for `<` only; `EqSpec.lean` says which stored values the calls compare with `==` and `!=`.  Proof: calls that use `<` only are, literally, the calls
  in the lawful environment `E.byOrder lt`; the others are proved directly, with `==` an arbitrary partial function.  `C77_list_consistent` shows that the specification is that of C01 if the operators agree.
* C78: `EqSets.lean` says which calls are tame (`ComesFirst`, `NoOther`).  Proof: the list inside is replaced by one that finds every value (`Proofs/EqualitySets.lean`, `patched`), which meets the
  specification of C01 with `eqv` for "the same value", so that all that is proved about sets and dicts applies; on tame calls the two lists agree.  What happens on other calls is computed from the
  specification of C77.  With a key function, `==` finer than the order was already allowed in C36 to C50 (`ListClass.Orders.keyed`).
* C79: the values of the model stand for objects, and modifying them changes the environment from one call to the next, as in C57.  `SL.Wild` (C57) are the lists that any such history leads to.
  `Proofs/Restored.lean` proves that they satisfy the representation invariant except for the order: in particular the maxima are the last values of the sublists, because within one call the
  comparison is a function, so `add` cannot put a value behind the maximum of the sublist that the first search found to be greater.  With the order the invariant is that of C01.
  For sets and dicts, the relation between the two stores does not mention the order.  `sl *= 1` is `clear` and `update`.
* C80: `Model/Gen.lean` models a generator by what it does next, a tree that branches on the answers of the calls it makes, and the methods that consume it statement by statement (what CPython's `sorted`,
  `set`, `dict`, `list.extend`, `dict.update` and `set.intersection_update` do with an iterator is cited there).  `GenSpec.lean` is the specification over plain containers.  Proved by induction on the generator,
  with the refinement of the single calls; for an empty dict by the invariant that the list of keys is empty and in good shape while the pairs arrive.
* C81: `Model/Reinit.lean` models `__init__` as a method of an object in any state (Model/Ctor.lean has it for new objects only).  The list is compared with the constructor; set and dict are shown to satisfy the
  representation invariant afterwards, so the refinement of single calls applies to all histories.  For a dict given few items the invariant is that the dict has the keys of the old dict and those of the list.
* C82: `Model/Writers.lean` has `add`, `discard`, `remove`, `clear` as programs that can be suspended (`C82_list_alone`: alone they are the calls of the other models), the queries are those of C71.  A simulation: the object
  has the values, maxes and keys of a second object that no other thread touches and that never has a positional index (`Follows`), so that its calls are those of the proved model; only the length and the index differ.  For the
  second half the changing thread replays the log of `Model/Interrupt.lean`; since the others never write, they see only states in that log, which C70 describes.  `Moment` (`Moments.lean`) is the specification.
* C83: the changing thread replays the log of `Model/InterruptSets.lean`, the lookups are those of `Model/ThreadsSets.lean`.  `Linear.lean` says what it means that calls take effect one at a time in an order that agrees with
  time.  A call of the changing thread takes effect when it changes the built-in set or dict (or when it returns, if it does not); a simulation over all schedules (`Pool.Due`, `Pool.linear` in `Proofs/Linear*.lean`) builds the order.
  Calls that raise leave the object as it is (`Unmoved`).  `Demo.update_not_linear` shows that `update` cannot be among the calls.  The statements about `update` (`C83_*_glances`) follow from C72.
* C84: `Model/WritersSets.lean` has the calls as programs that can be suspended, with any programs for the methods of `_list`.  Each thread knows the part of the built-in set or dict that no other thread changes; `Prog.Own` in
  `Proofs/Owners.lean` is a program logic with this part as ghost state, and `Pool.own` its soundness for all schedules.  `Owners.lean` says what a call that raises unexpectedly has done (`Mishaps`).  That the calls of `_list` raise
  nothing but IndexError and ValueError, whatever other threads do to it, is `C84_list_raises`; it is about the programs of `Model/Writers.lean`, whose looks are coarse.  All else holds for any programs.
* C85: `Model/ReentrantSets.lean` has the methods of sets and dicts over those of Model/Reentrant.lean; while a method of `_list` runs, the built-in set or dict is part of the world of the client's code.
  `ClientSets.lean` says what that code is told during a call.  Proof: the methods of `_list` keep in step with those of Model/SortedList.lean whatever the environment (`Mimics`, from C76), so the queries asked in the middle of a call
  find the built-in store of the one moment and the list of the other; what they answer then is computed from the two (`SS.query_set`, `SD.reply`).
  For code that is right whatever it is told: queries asked from any state, reachable or not, change the positional index at most (`RListAPI.Idle`), so that every method of `_list` refines its specification (`RaceAPI.Firm`, by
  induction on the nesting depth), and so do the calls (`Tracks` in `Proofs/ReentrantSetBulk.lean`, `Proofs/ReentrantDictBulk.lean`).
* C86: both containers refine the same specification (C27, C36, C44).  For sets and lists the specification's state is what is shown.  A specified dict also remembers the order of insertion; two of them that show the same items go on doing so
  (`DictSpec.Alike` in `Proofs/Alike.lean`).
* C87: from the bounds of C26, the shape of the positional index and the bound on its padding (`Snug`, used for C51).  Counted are the entries of the Python lists inside, not over-allocation nor the built-in set or dict.
* C88: every method is a tree of accesses (`Task` in `Model/Race.lean`), a schedule says who makes the next access.  A relation between what was and what is (`Bounds.Rel`: cells keep to known values, the load factor is one that was there or is given to `_reset`, and for
  threads that only add the lists do not get shorter) is kept by every access, whatever the others did in between (`Bounds.Safe`, by induction on the tree).  Loops whose end is not certain take `fuel`, and the theorems hold for all `fuel`;
  that threads which only add get through is that no loop of theirs uses up its fuel.  Losses, doubled values and the loop without end are shown by schedules from a reachable list.
* C89: the lock is modelled (`Guarded` in `Model/Locked.lean`), the list classes are those of C88.  Only the holder of the lock touches the list, so its call runs as if alone (`Guarded.Orderly`, by induction on the schedule).
  A program of `Model/Race.lean`, run alone, does what the method of `Model/SortedList.lean` or `Model/SortedKeyList.lean` does, sublist for sublist (`Agrees` in `Proofs/RaceAlone*.lean`, method by method): it answers
  the same and leaves the same object (`C89_list_alone`).  So C88 and C89 are about the same code as the other properties.  `fuel` must exceed the number of values there can be at all, of which each `*= n` allows `2 ^ n` times as many; for the lists of C89 no loop goes further.
  The other side of a comparison or of `+` is a sequence that no thread changes; a comparison walks the shared list as the generator it is, access by access.
* C90: the methods of SortedSet and SortedDict as programs (`Model/RaceSets.lean`), over either list class.  An access to the built-in set or dict is one call of a built-in function.  A program run alone does what the method
  of `Model/SortedSet.lean` or `Model/SortedDict.lean` does (`Same` in `Proofs/RaceSets.lean`; `same_step` in `Proofs/LockedSets.lean` and `Proofs/LockedDicts.lean`, method by method, `C90_set_alone`, `C90_dict_alone`), given that
  the programs of the list do (`RaceAPI.Tracks`, from C89); the rest is `Guarded.orderly` of C89.  As in C36, equal values of a set are identical and the order tells different values apart.
* C91: the programs of C90 without the lock, as in C88.  What every access keeps is `Pact.inv` (`Proofs/RacePact.lean`: values and load factor of the list, from the bounds of C88; `Proofs/RacePactSets.lean`: values of the built-in
  set; items of the dict, each with a key that equals the one its value was given with), by induction on the tree, method by method.  The repairs are those of C72 and C84, which need only the load factor.  What goes wrong is shown by schedules.  That threads which only add get through: no access of theirs
  empties `_maxes` (`Course.Lasts` in `Proofs/RaceLasts.lean`), so no loop of C88 uses up its fuel.
* C92: an event `iloc` in the world of references of C65, with the attribute `_iloc` as a table from sorted dicts to views.  C65's specification gets a table of its own, so that the refinement theorem covers it; that the attribute is never set by anything else follows by induction on the events.
* C93: the programs and the lock of C88-C90, with no law for comparisons.  `Serial.lean` says what "one after the other" means; `Guarded.serial` (`Proofs/Serial.lean`) is by induction on the schedule from `Guarded.Orderly` of C89.
  That `add` leaves no trace if it raises: all accesses before the search has ended are reads (`Task.Whole` in `Proofs/SerialAdd.lean`), except that the sublist is changed after it, where only the list itself can raise.  `sd[key] = value` adds to the list before it writes to the built-in dict, so it leaves no trace either; `ss.add` and `sd.setdefault` do (finding 4).
  `remove`, `discard`, `in`, `bisect` and `count` on lists and `sd.pop` are shown whole in the same way: the comparisons come first, and the positional index is built after them (`Proofs/SerialRemove.lean`); calls that only read leave the memory as it is, so any of them can be struck from the history (`Proofs/SerialReads.lean`); the other queries change nothing but the positional index (`Proofs/SerialQueries.lean`); `update` sorts the new values before it looks at the list, but stores them before it sorts them with the old ones (witness); `ss.remove`, `ss.discard` and `del sd[key]` change the built-in store first, and are not (witnesses).  Values and the end of calls are from the bounds of C88,
  `Pact` (with the results of C64 about new sets and dicts, `Proofs/SerialSets.lean`) and `Course.Lasts` of C91, for a call that runs alone.  As in C88, loops whose end is not certain take `fuel`, and a call whose `fuel` is used up does not end; the theorems hold for all `fuel`.
  What new sets and dicts (`copy`, `union`, `|`) raise is read off their constructors (`Proofs/SerialRaises.lean`).
  The repairs (`Props/SerialRepair.lean`, C91 and C93) are those of C72 and C84 for the state that wild comparisons left; they need the load factor, which is part of `Pact.inv`, and that no key is twice in the built-in dict.

## 6. Findings about the code

1. `n * skl` (C31) returns a SortedKeyList with the identity key: `__rmul__ = __mul__` in `SortedList` binds the wrong function.
2. `other - ss` (C42), and the set operators of `keys()` and `items()` views, drop the key function.
3. `SortedList.update` in its bulk path appends the sorted new values to `_lists` as one more sublist and then sorts all values
   together.  If a comparison raises in that sort, the extra sublist stays while `_maxes` and `_len` do not know of it (C34).
4. `SortedSet.add`, `SortedDict.setdefault`, `SortedDict.update` are not atomic (C43, C49).
5. `SortedKeyList.clear` does not reset `_offset` (harmless: the index is rebuilt before it is read).
6. `copy`, pickling and the operators do not keep the load factor.
7. `_check` rejects some valid states when the load factor is below 4, and does not notice a wrong `_offset`, a positional
   index whose number of leaf places is not a power of two (then `sl[i]` is wrong), or repetitions in the list of a set or dict:
   a list `[1, 1]` beside a set `{1, 2}` passes (C61).
8. Under contradictory comparisons `contains` and `discard` can raise `IndexError`; `SortedSet.discard` can remove the value
   from the set and then fail on the list (C52).
   With `nan`, which the set finds by identity and the list does not find at all, `ss.discard(nan)` and `del sd[nan]` raise
   ValueError and leave the two stores out of step until `clear()` (C64, example).
9. `SortedSet.__reduce__` hands out the internal `_set` object itself (C60).
10. `SortedDict(m)` takes a *callable* mapping `m` for the key function; `SortedDict(key=f)` makes an item `'key'`.
11. Iterating a list while changing it "may raise a RuntimeError" according to the docstrings (sortedlist.py:852, 863; also of set
   and dict).  It never does; `islice` and `irange` iterators may raise IndexError.  Values may be skipped (as documented), but
   also yielded twice, or yielded after their removal (C69, C75, examples); iterators of values and items raise KeyError for a key that was deleted (C75).
12. `SortedKeyList(key=None)` gives an object to which nothing can be added (C62).
13. No call is safe against KeyboardInterrupt (C70, examples).  An interrupted `add` can lose a run of values, an interrupted `discard`
   can leave a run twice and out of order, an interrupted `update` can lose everything.  Even an interrupted *query*, `sl[i]`, can leave an object on which
   `sl[i]` raises IndexError: `_build_index` fills `_index` before it sets `_offset`.
14. Queries are not safe in threads, even if nobody changes the object (C71, C73, examples).  Two threads that evaluate `sl[i]` may both find that there is no
   positional index; the second one to build it appends its own to the first one's (`reduce(iadd, reversed(tree), self._index)`), and from then on `sl[i]` and `del sl[i]` raise IndexError.
   A thread that runs between the two writes of `_build_index` gets wrong positions.  Making the queries once before the threads start avoids both.
15. An interruption can leave the two stores of a SortedSet or SortedDict out of step (C72, examples).  After an interrupted `ss.add(v)`, `v in ss` may be true although iteration does
   not yield `v`; `ss.add(v)` again does nothing, and `ss.remove(v)` raises ValueError.  After an interrupted `sd[k] = v`, iteration may yield `k` although `k in sd` is
   false; `sd.items()` raises KeyError, and `sd[k] = v` again puts the key in twice.  `ss ^= []` and a large `sd.update` happen to repair such objects; the
   documentation names no way to do it.
16. Calls that rebuild a list show it half-built to the comparisons and key functions that they call (C76, `C76_rebuilding_shows`): `update` of a list that is not empty sorts `self._lists` after appending
   the new values to it, so that a comparison which iterates over the list sees it unsorted; in `sl *= n` it sees an empty list.
17. A SortedList may not find a value that it has, if `==` is finer than what `<` tells apart (C77, `C77_stored_not_found`): `in` is false, `discard` keeps it, `remove` raises ValueError;
   yet `count` counts it, and counts values that are different from its argument; `index(v, start)` may return the position of a value that is different from `v`.
   The documentation asks for a total ordering and does not mention `==`.  A SortedKeyList, even with the identity as its key function, does find it if `!=` of keys follows from `<`.
18. A SortedSet or SortedDict without key function is torn by the removal of a value that does not come first among those that `<` does not tell apart from it (C78, `C78_set_torn`, `C78_dict_torn`):
   `ss.discard(v)` raises ValueError although it is documented not to raise, and `v` stays in the iteration but not in the set; after `del sd[k]`, `sd.items()` raises KeyError.
   With the identity as key function (and `!=` of keys that follows from `<`) none of this happens.
19. A value that is modified while it is stored is not found by `in`, `remove` and `discard` while it is out of place, but nothing is damaged (C79): if it is modified back, or the contents happen to be in order
   again, or after `sl *= 1`, the list is as good as new.  A SortedKeyList keeps going by the keys of the time of storing.
20. `sd.update(gen)` with a generator that looks at `sd` gives different results for an empty dict (pairs are stored as they arrive) and for one that is not empty (all pairs are listed first):
   `C80_dict_empty_differs`.  While an empty dict is filled, the generator sees a dict with a length but without keys to iterate over.  If it stores a key in the empty dict, the list of keys has that key twice afterwards:
   `C80_dict_empty_torn`.
21. `sd.__init__(...)` on a sorted dict that is not empty replaces `_list` by an empty list but keeps the items; only an update with more than a tenth as many items fills the list again.  Otherwise `len(sd)` counts
   items that iteration does not show, and `_check()` fails: `C81_dict_few`.  A built-in dict takes a second `__init__` as an update.
22. Even with a single thread that changes a list, queries of other threads do lasting damage: if `sl[i]` counts the sublists, is suspended during `sl.add(v)`, and then stores the counts, `sl[i]` is wrong from then on; if
   `sl.add(v)` runs between the two writes of `_build_index`, it may raise IndexError after it has added `v`, and `len(sl)` stays one short.  `v in sl` may be False, or raise IndexError, although `v` is in the list all the time.
   Two threads that change a list lose an update of `_len`.  (Examples in `Props/Writers.lean`.)
23. `list(sd.items())` and `list(sd.values())` raise KeyError while another thread is inside `sd[k] = v` with a new key, because the list of keys is changed before the dict; `v in ss` during `ss.update(...)` of another thread may find
   one of the new values and not the other.  (Examples in `Props/WritersSets.lean`.)
24. Two threads that `add` the same new value to a SortedSet leave it twice in the list; two threads that add different values to an empty set may leave the list unsorted, for good; `discard` may raise KeyError if two threads discard
   the same value.  (Examples in `Props/Owners.lean`.)
25. Two threads that only `add` to one SortedList may lose a value that had long been in it (`C88_list_loses`): one inserts between `half = _lists_pos[_load:]` and `del _lists_pos[_load:]` of the other, and what
   it pushed beyond `_load` is deleted and in no half.  If both split the same sublist, values appear twice, out of order (`C88_list_doubles`).  An `add` may raise IndexError though the value was added.
26. `add` may go round for ever although all other threads have ended (`C88_list_hangs`): `_maxes` was emptied by `clear()` of another thread, so that `add` calls `_expand(-1)`; if `_index` has been built and `_offset` has not been set yet, the loop
   `while child: ... child = (child - 1) >> 1` starts at -1 and stays there.  `update` of a SortedSet or SortedDict clears its list, too, so `ss.add(v)` and `sd[key] = value` may hang because another thread calls `update` (`C91_set_hangs`,
   `C91_dict_hangs`, `Props/RaceHangs.lean`).
27. `sl == other` may answer True although `sl` equals `other` at no time (`C88_list_compares`): the lengths are compared first and then value by value, while another thread puts values in and takes others out.

## 7. Wrong programs

`seeded/LOG.jsonl` has one line per wrong program: the definition edited, the edit, the claims it falsifies, the theorems of
those claims that no longer prove, and theorems tightened in reply.  An edit is made in a scratch copy, the copy is rebuilt,
and failing theorems are collected by name.  Because the refinement lemmas of one class are bundled
(`SL.api_lawful`, ...), an edit to a core definition takes many theorems down with it; `other_theorems_failed` counts them.
As a check that does not depend on proof scripts breaking, some edits were also run as programs on random calls against
the specification; `refuted_by_evaluation` records whether a difference was seen.
