{"id": "C01", "title": "Iteration order", "statement": "After any sequence of calls on a SortedList, iterating it yields the values in nondecreasing order.", "quantifier": "every value type with a total (pre)order, every finite sequence of API calls with arbitrary arguments (including calls that raise), every load factor >= 1", "why_tests_cant": "Sequences of mutations and queries are unbounded, and split/merge/lazy-index states are reached only by particular sequences; tests sample a few of them.", "anchors": [{"file": "src/sortedcontainers/sortedlist.py", "symbols": ["SortedList.add", "SortedList.update", "SortedList._delete", "SortedList._expand", "SortedList.__iter__"]}]}
{"id": "C02", "title": "A SortedList is a plain sorted list", "statement": "For any sequence of calls, every return value and every exception is the one obtained from the same calls on an ordinary Python list that is kept sorted by stable insertion; afterwards list(sl) equals that list.", "quantifier": "every value type with a total (pre)order, every finite sequence of API calls with arbitrary arguments (including calls that raise), every load factor >= 1", "why_tests_cant": "Sequences of mutations and queries are unbounded, and split/merge/lazy-index states are reached only by particular sequences; tests sample a few of them.", "anchors": [{"file": "src/sortedcontainers/sortedlist.py", "symbols": ["SortedList"]}]}
{"id": "C03", "title": "Length is truthful", "statement": "len(sl) is always exactly the number of values iteration yields.", "quantifier": "every value type with a total (pre)order, every finite sequence of API calls with arbitrary arguments (including calls that raise), every load factor >= 1", "why_tests_cant": "The length is a separately maintained counter, updated on different paths (add, split, merge, bulk update, slice delete).", "anchors": [{"file": "src/sortedcontainers/sortedlist.py", "symbols": ["SortedList.__len__", "SortedList.update", "SortedList._delete"]}]}
{"id": "C04", "title": "The self-audit never fails", "statement": "sl._check() passes after any sequence of calls (load factor >= 4): the table of sublist maxima and the lazily built positional index always agree with the stored values.", "quantifier": "every value type with a total (pre)order, every finite sequence of API calls with arbitrary arguments (including calls that raise), every load factor >= 1 (>= 4 for the audit itself)", "why_tests_cant": "The positional index is patched incrementally while present and dropped otherwise; a stale entry shows only for particular interleavings of queries and mutations.", "anchors": [{"file": "src/sortedcontainers/sortedlist.py", "symbols": ["SortedList._check", "SortedList._build_index", "SortedList._expand", "SortedList._delete"]}]}
{"id": "C05", "title": "Membership", "statement": "x in sl is True exactly when some stored value equals x.", "quantifier": "every reachable list, every value x, present or not, smaller/larger than all stored values", "why_tests_cant": "Sequences of mutations and queries are unbounded, and split/merge/lazy-index states are reached only by particular sequences; tests sample a few of them.", "anchors": [{"file": "src/sortedcontainers/sortedlist.py", "symbols": ["SortedList.__contains__"]}]}
{"id": "C06", "title": "add inserts once, in place, stably", "statement": "sl.add(x) inserts x exactly once, after every stored value <= x and before every value > x; all other values keep their relative order.", "quantifier": "every reachable list and every x, including duplicates and new extremes", "why_tests_cant": "Sequences of mutations and queries are unbounded, and split/merge/lazy-index states are reached only by particular sequences; tests sample a few of them.", "anchors": [{"file": "src/sortedcontainers/sortedlist.py", "symbols": ["SortedList.add", "SortedList._expand"]}]}
{"id": "C07", "title": "update is order- and strategy-independent", "statement": "sl.update(xs) leaves sl equal to the stable sort of (old values followed by xs), and equal to adding the xs one at a time, no matter whether the bulk-rebuild or the one-by-one strategy is chosen.", "quantifier": "every reachable list, every finite iterable of any size, any order, with duplicates", "why_tests_cant": "Two code paths chosen by a size threshold must agree for all sizes.", "anchors": [{"file": "src/sortedcontainers/sortedlist.py", "symbols": ["SortedList.update", "SortedList.__iadd__"]}]}
{"id": "C08", "title": "discard", "statement": "sl.discard(x) removes exactly one value equal to x (the first in order) if there is one, otherwise changes nothing; it never raises.", "quantifier": "every reachable list and every x", "why_tests_cant": "Sequences of mutations and queries are unbounded, and split/merge/lazy-index states are reached only by particular sequences; tests sample a few of them.", "anchors": [{"file": "src/sortedcontainers/sortedlist.py", "symbols": ["SortedList.discard", "SortedList._delete"]}]}
{"id": "C09", "title": "remove", "statement": "sl.remove(x) removes exactly one value equal to x if there is one; otherwise it raises ValueError and the contents are unchanged.", "quantifier": "every reachable list and every x", "why_tests_cant": "Sequences of mutations and queries are unbounded, and split/merge/lazy-index states are reached only by particular sequences; tests sample a few of them.", "anchors": [{"file": "src/sortedcontainers/sortedlist.py", "symbols": ["SortedList.remove", "SortedList._delete"]}]}
{"id": "C10", "title": "Indexing", "statement": "sl[i] equals list(sl)[i] for every integer i, negative indices included, and raises IndexError exactly when list(sl)[i] would.", "quantifier": "every reachable list (any segmentation, index built or not), every integer i", "why_tests_cant": "Index arithmetic runs through an implicit binary tree whose shape depends on the number of sublists.", "anchors": [{"file": "src/sortedcontainers/sortedlist.py", "symbols": ["SortedList.__getitem__", "SortedList._pos", "SortedList._build_index"]}]}
{"id": "C11", "title": "Slicing", "statement": "sl[a:b:c] equals list(sl)[a:b:c] for all a, b, c (present, absent, negative, out of range); step 0 raises ValueError.", "quantifier": "every reachable list and every slice", "why_tests_cant": "Several shortcuts (whole list, single sublist, step -1, generic) chosen by where the bounds fall relative to sublist boundaries.", "anchors": [{"file": "src/sortedcontainers/sortedlist.py", "symbols": ["SortedList.__getitem__", "SortedList._pos"]}]}
{"id": "C12", "title": "Deleting by index", "statement": "del sl[i] removes exactly the value list(sl)[i]; it raises IndexError exactly when i is out of range and then changes nothing.", "quantifier": "every reachable list and every integer i", "why_tests_cant": "Sequences of mutations and queries are unbounded, and split/merge/lazy-index states are reached only by particular sequences; tests sample a few of them.", "anchors": [{"file": "src/sortedcontainers/sortedlist.py", "symbols": ["SortedList.__delitem__", "SortedList._pos", "SortedList._delete"]}]}
{"id": "C13", "title": "Deleting by slice", "statement": "del sl[a:b:c] leaves the same contents as del list(sl)[a:b:c] for all slices (step 0 raises ValueError and changes nothing).", "quantifier": "every reachable list and every slice, forward or backward, any step", "why_tests_cant": "Three strategies (clear, rebuild, element-wise delete from the top) with an index that must remain valid while sublists merge under it.", "anchors": [{"file": "src/sortedcontainers/sortedlist.py", "symbols": ["SortedList.__delitem__", "SortedList._delete", "SortedList._pos"]}]}
{"id": "C14", "title": "pop", "statement": "sl.pop(i) returns list(sl)[i] and removes exactly that position; IndexError exactly when out of range or empty, and then nothing changes.", "quantifier": "every reachable list and every integer i", "why_tests_cant": "Sequences of mutations and queries are unbounded, and split/merge/lazy-index states are reached only by particular sequences; tests sample a few of them.", "anchors": [{"file": "src/sortedcontainers/sortedlist.py", "symbols": ["SortedList.pop"]}]}
{"id": "C15", "title": "Bisection", "statement": "sl.bisect_left(x) is the number of stored values < x and sl.bisect_right(x) the number of values <= x, so inserting x there keeps the list sorted.", "quantifier": "every reachable list and every x", "why_tests_cant": "Sequences of mutations and queries are unbounded, and split/merge/lazy-index states are reached only by particular sequences; tests sample a few of them.", "anchors": [{"file": "src/sortedcontainers/sortedlist.py", "symbols": ["SortedList.bisect_left", "SortedList.bisect_right", "SortedList._loc"]}]}
{"id": "C16", "title": "count", "statement": "sl.count(x) is the number of stored values equal to x.", "quantifier": "every reachable list and every x; runs of equal values may span any number of sublists", "why_tests_cant": "Sequences of mutations and queries are unbounded, and split/merge/lazy-index states are reached only by particular sequences; tests sample a few of them.", "anchors": [{"file": "src/sortedcontainers/sortedlist.py", "symbols": ["SortedList.count", "SortedList._loc"]}]}
{"id": "C17", "title": "index", "statement": "sl.index(x, start, stop) returns the least position i with start <= i < stop (bounds interpreted as for list.index, negatives included) whose value equals x, and raises ValueError exactly when there is none.", "quantifier": "every reachable list, every x, every start/stop (absent, negative, out of range)", "why_tests_cant": "Runs of equal values crossing the requested window and sublist boundaries.", "anchors": [{"file": "src/sortedcontainers/sortedlist.py", "symbols": ["SortedList.index"]}]}
{"id": "C18", "title": "irange", "statement": "sl.irange(lo, hi, inclusive, reverse) yields exactly the stored values between the bounds (each bound optional, inclusive or exclusive), in order, or reversed; empty when lo > hi.", "quantifier": "every reachable list, all bounds and flags, including lo > hi", "why_tests_cant": "Sequences of mutations and queries are unbounded, and split/merge/lazy-index states are reached only by particular sequences; tests sample a few of them.", "anchors": [{"file": "src/sortedcontainers/sortedlist.py", "symbols": ["SortedList.irange", "SortedList._islice"]}]}
{"id": "C19", "title": "islice", "statement": "list(sl.islice(a, b, reverse)) equals list(sl)[a:b], reversed if asked.", "quantifier": "every reachable list, every pair of bounds", "why_tests_cant": "Sequences of mutations and queries are unbounded, and split/merge/lazy-index states are reached only by particular sequences; tests sample a few of them.", "anchors": [{"file": "src/sortedcontainers/sortedlist.py", "symbols": ["SortedList.islice", "SortedList._islice"]}]}
{"id": "C20", "title": "Forward and reverse iteration agree", "statement": "reversed(sl) yields exactly the values of iter(sl) in the opposite order.", "quantifier": "every reachable list", "why_tests_cant": "Sequences of mutations and queries are unbounded, and split/merge/lazy-index states are reached only by particular sequences; tests sample a few of them.", "anchors": [{"file": "src/sortedcontainers/sortedlist.py", "symbols": ["SortedList.__iter__", "SortedList.__reversed__"]}]}
{"id": "C21", "title": "Sequence comparison", "statement": "sl == other, !=, <, >, <=, >= give the lexicographic comparison of list(sl) with the other sequence.", "quantifier": "every reachable list and every sequence of any length", "why_tests_cant": "Quantifies over all pairs of sequences.", "anchors": [{"file": "src/sortedcontainers/sortedlist.py", "symbols": ["SortedList.__make_cmp"]}]}
{"id": "C22", "title": "Concatenation, repetition, copy", "statement": "sl + xs, xs + sl, sl += xs, sl * n, n * sl, sl *= n and sl.copy() contain exactly the values of list + / * / copy, sorted; the non-in-place forms leave sl unchanged.", "quantifier": "every reachable list, every iterable, every integer n (also n <= 0)", "why_tests_cant": "Sequences of mutations and queries are unbounded, and split/merge/lazy-index states are reached only by particular sequences; tests sample a few of them.", "anchors": [{"file": "src/sortedcontainers/sortedlist.py", "symbols": ["SortedList.__add__", "SortedList.__iadd__", "SortedList.__mul__", "SortedList.__imul__", "SortedList.copy"]}]}
{"id": "C23", "title": "Pickle round trip", "statement": "Rebuilding a SortedList / SortedKeyList / SortedSet / SortedDict from its __reduce__ tuple gives an equal container with the same key function.", "quantifier": "every reachable container", "why_tests_cant": "Sequences of mutations and queries are unbounded, and split/merge/lazy-index states are reached only by particular sequences; tests sample a few of them.", "anchors": [{"file": "src/sortedcontainers/sortedlist.py", "symbols": ["SortedList.__reduce__", "SortedKeyList.__reduce__"]}, {"file": "src/sortedcontainers/sortedset.py", "symbols": ["SortedSet.__reduce__"]}, {"file": "src/sortedcontainers/sorteddict.py", "symbols": ["SortedDict.__reduce__"]}]}
{"id": "C24", "title": "Queries are observationally pure", "statement": "No query changes the contents, the length or the answer of any later call, although queries build and cache a positional index; repeating a query gives the same answer.", "quantifier": "every reachable list, every query, every later history", "why_tests_cant": "The cache is hidden mutable state; a defect shows only in a later call.", "anchors": [{"file": "src/sortedcontainers/sortedlist.py", "symbols": ["SortedList._loc", "SortedList._pos", "SortedList._build_index"]}]}
{"id": "C25", "title": "Load factor is unobservable", "statement": "sl._reset(load) never changes the contents, and two lists given the same calls but different load factors return the same results throughout.", "quantifier": "every reachable list, every load >= 1, every later history", "why_tests_cant": "All segmentations of the same contents.", "anchors": [{"file": "src/sortedcontainers/sortedlist.py", "symbols": ["SortedList._reset"]}]}
{"id": "C26", "title": "Segment size bounds", "statement": "No sublist is ever empty or longer than twice the load factor, and every sublist but the last has at least half the load factor: the documented basis of the running time claims.", "quantifier": "every value type with a total (pre)order, every finite sequence of API calls with arbitrary arguments (including calls that raise), every load factor >= 1", "why_tests_cant": "Sequences of mutations and queries are unbounded, and split/merge/lazy-index states are reached only by particular sequences; tests sample a few of them.", "anchors": [{"file": "src/sortedcontainers/sortedlist.py", "symbols": ["SortedList._expand", "SortedList._delete", "SortedList.update"]}]}
{"id": "C27", "title": "A SortedKeyList is a plain list sorted by key", "statement": "For any sequence of calls on a SortedKeyList, every result and exception is the one of the same calls on an ordinary list kept sorted by key with stable insertion.", "quantifier": "every value type, every total key function with totally ordered keys, every finite sequence of calls, every load >= 1", "why_tests_cant": "Sequences of mutations and queries are unbounded, and split/merge/lazy-index states are reached only by particular sequences; tests sample a few of them.", "anchors": [{"file": "src/sortedcontainers/sortedlist.py", "symbols": ["SortedKeyList"]}]}
{"id": "C28", "title": "Key order is stable", "statement": "Iterating a SortedKeyList yields values in nondecreasing key order; values with equal keys appear in the order in which they were added (with add, update or both).", "quantifier": "every history of insertions, deletions and bulk updates", "why_tests_cant": "Sequences of mutations and queries are unbounded, and split/merge/lazy-index states are reached only by particular sequences; tests sample a few of them.", "anchors": [{"file": "src/sortedcontainers/sortedlist.py", "symbols": ["SortedKeyList.add", "SortedKeyList.update"]}]}
{"id": "C29", "title": "Equal keys do not confuse values", "statement": "In a SortedKeyList, membership, count, index, remove and discard act on values that are equal to the argument and have its key, not on other values that merely share the key, even when a run of equal keys spans several sublists.", "quantifier": "every reachable sorted-key list, every value", "why_tests_cant": "The scan over a run of equal keys must cross sublist boundaries correctly for every segmentation.", "anchors": [{"file": "src/sortedcontainers/sortedlist.py", "symbols": ["SortedKeyList.__contains__", "SortedKeyList.remove", "SortedKeyList.discard", "SortedKeyList.count", "SortedKeyList.index"]}]}
{"id": "C30", "title": "Key-based search", "statement": "bisect_key_left/right(k) count the values with key < k / <= k; irange_key yields exactly the values whose key lies between the bounds; bisect_*(x) and irange(x, y) are the same with key(x), key(y).", "quantifier": "every reachable sorted-key list, all keys and bounds", "why_tests_cant": "Sequences of mutations and queries are unbounded, and split/merge/lazy-index states are reached only by particular sequences; tests sample a few of them.", "anchors": [{"file": "src/sortedcontainers/sortedlist.py", "symbols": ["SortedKeyList.bisect_key_left", "SortedKeyList.bisect_key_right", "SortedKeyList.irange_key", "SortedKeyList.irange"]}]}
{"id": "C31", "title": "Derived sorted-key lists keep the key function", "statement": "copy, skl + xs, xs + skl, skl * n and n * skl give a SortedKeyList with the same key function and the expected values.", "quantifier": "every reachable sorted-key list, every iterable, every n", "why_tests_cant": "Sequences of mutations and queries are unbounded, and split/merge/lazy-index states are reached only by particular sequences; tests sample a few of them.", "anchors": [{"file": "src/sortedcontainers/sortedlist.py", "symbols": ["SortedKeyList.copy", "SortedKeyList.__add__", "SortedKeyList.__mul__", "SortedList.__rmul__"]}]}
{"id": "C32", "title": "Cached keys are right", "statement": "SortedKeyList._check() passes after any history (load >= 4): the cached key of every stored value equals key(value), sublist by sublist.", "quantifier": "every history", "why_tests_cant": "Sequences of mutations and queries are unbounded, and split/merge/lazy-index states are reached only by particular sequences; tests sample a few of them.", "anchors": [{"file": "src/sortedcontainers/sortedlist.py", "symbols": ["SortedKeyList._check", "SortedKeyList._expand", "SortedKeyList._delete"]}]}
{"id": "C33", "title": "A failing add changes nothing", "statement": "If add raises because a comparison or the key function raises, the container is exactly as before.", "quantifier": "every SortedList / SortedKeyList state, every comparison and key function, wherever it raises", "why_tests_cant": "All crash points: the exception can occur at any comparison.", "anchors": [{"file": "src/sortedcontainers/sortedlist.py", "symbols": ["SortedList.add", "SortedKeyList.add"]}]}
{"id": "C34", "title": "A failing update changes nothing", "statement": "If update raises because a comparison or the key function raises, the container is exactly as before.", "quantifier": "every SortedList / SortedKeyList state, every comparison function, wherever it raises", "why_tests_cant": "All crash points.", "anchors": [{"file": "src/sortedcontainers/sortedlist.py", "symbols": ["SortedList.update", "SortedKeyList.update"]}]}
{"id": "C35", "title": "A call that raises leaves the contents alone", "statement": "With well-behaved comparisons, any SortedList / SortedKeyList call that raises (IndexError, ValueError, NotImplementedError) leaves contents and length unchanged.", "quantifier": "every reachable list, every call, every argument", "why_tests_cant": "Sequences of mutations and queries are unbounded, and split/merge/lazy-index states are reached only by particular sequences; tests sample a few of them.", "anchors": [{"file": "src/sortedcontainers/sortedlist.py", "symbols": ["SortedList.remove", "SortedList.pop", "SortedList.__delitem__", "SortedList.index", "SortedList.__setitem__"]}]}
{"id": "C36", "title": "SortedSet: two stores, one set", "statement": "After any sequence of SortedSet calls, iteration is sorted, has no two equal values, yields exactly the values for which `in` is True, and len is its length.", "quantifier": "every value type with hash-consistent equality and total order (or key function), every finite sequence of calls, every iteration order of the built-in set", "why_tests_cant": "The hash set and the sorted list are updated separately on every path.", "anchors": [{"file": "src/sortedcontainers/sortedset.py", "symbols": ["SortedSet"]}]}
{"id": "C37", "title": "SortedSet element operations", "statement": "add, discard, remove, pop, del ss[i], del ss[a:b:c], clear have the effect and result of the mathematical set / sorted sequence operation; remove raises KeyError exactly for absent values; pop IndexError exactly out of range.", "quantifier": "every reachable sorted set, every argument", "why_tests_cant": "Sequences of mutations and queries are unbounded, and split/merge/lazy-index states are reached only by particular sequences; tests sample a few of them.", "anchors": [{"file": "src/sortedcontainers/sortedset.py", "symbols": ["SortedSet.add", "SortedSet.discard", "SortedSet.remove", "SortedSet.pop", "SortedSet.__delitem__", "SortedSet.clear"]}]}
{"id": "C38", "title": "SortedSet algebra", "statement": "union, intersection, difference, symmetric_difference (and |, &, -, ^) return a new sorted set with exactly the values prescribed by set algebra and leave the operands unchanged.", "quantifier": "every reachable sorted set, any number of iterables with duplicates, in any order", "why_tests_cant": "Sequences of mutations and queries are unbounded, and split/merge/lazy-index states are reached only by particular sequences; tests sample a few of them.", "anchors": [{"file": "src/sortedcontainers/sortedset.py", "symbols": ["SortedSet.union", "SortedSet.intersection", "SortedSet.difference", "SortedSet.symmetric_difference"]}]}
{"id": "C39", "title": "SortedSet in-place algebra is strategy-independent", "statement": "update, difference_update, intersection_update, symmetric_difference_update leave exactly the set-algebra result whichever internal strategy (rebuild or element-wise) the size threshold selects.", "quantifier": "every reachable sorted set, any iterables of any size", "why_tests_cant": "Sequences of mutations and queries are unbounded, and split/merge/lazy-index states are reached only by particular sequences; tests sample a few of them.", "anchors": [{"file": "src/sortedcontainers/sortedset.py", "symbols": ["SortedSet.update", "SortedSet.difference_update", "SortedSet.intersection_update", "SortedSet.symmetric_difference_update"]}]}
{"id": "C40", "title": "SortedSet comparisons", "statement": "==, !=, <, <=, >, >= between sorted sets (or a set) are equality, proper subset, subset, proper superset, superset.", "quantifier": "every pair of reachable sorted sets", "why_tests_cant": "Sequences of mutations and queries are unbounded, and split/merge/lazy-index states are reached only by particular sequences; tests sample a few of them.", "anchors": [{"file": "src/sortedcontainers/sortedset.py", "symbols": ["SortedSet.__make_cmp"]}]}
{"id": "C41", "title": "SortedSet as a sequence", "statement": "ss[i], ss[a:b:c], bisect, index, irange, islice, reversed and count answer as the sorted list of its values does.", "quantifier": "every reachable sorted set, every argument", "why_tests_cant": "Sequences of mutations and queries are unbounded, and split/merge/lazy-index states are reached only by particular sequences; tests sample a few of them.", "anchors": [{"file": "src/sortedcontainers/sortedset.py", "symbols": ["SortedSet.__getitem__", "SortedSet.__init__", "SortedSet.count"]}]}
{"id": "C42", "title": "Operators keep the set's key", "statement": "The results of |, &, -, ^, copy and their reflected forms keep the key function of the sorted set operand.", "quantifier": "every reachable keyed sorted set, every operand", "why_tests_cant": "Sequences of mutations and queries are unbounded, and split/merge/lazy-index states are reached only by particular sequences; tests sample a few of them.", "anchors": [{"file": "src/sortedcontainers/sortedset.py", "symbols": ["SortedSet._fromset", "SortedSet.union", "SortedSet.__rand__", "SortedSet.__rxor__", "SortedSet.__ror__"]}]}
{"id": "C43", "title": "A failing SortedSet.add changes nothing", "statement": "If SortedSet.add raises because the value cannot be compared, the set is exactly as before.", "quantifier": "every reachable sorted set, every comparison function", "why_tests_cant": "All crash points.", "anchors": [{"file": "src/sortedcontainers/sortedset.py", "symbols": ["SortedSet.add"]}]}
{"id": "C44", "title": "SortedDict is a finite map iterated in key order", "statement": "After any sequence of SortedDict calls, lookup, membership and length are those of the finite map defined by the history, and iteration yields exactly its keys, once each, in sorted order.", "quantifier": "every key type with hash-consistent equality and total order (or key function), every finite sequence of calls", "why_tests_cant": "The dict and the key list are updated separately on every path.", "anchors": [{"file": "src/sortedcontainers/sorteddict.py", "symbols": ["SortedDict"]}]}
{"id": "C45", "title": "SortedDict item operations", "statement": "sd[k]=v, del sd[k], pop, popitem, peekitem, setdefault, clear have the finite-map effect and result; popitem/peekitem act on the item at the given position in key order; KeyError / IndexError exactly when documented, leaving the dict unchanged.", "quantifier": "every reachable sorted dict, every argument", "why_tests_cant": "Sequences of mutations and queries are unbounded, and split/merge/lazy-index states are reached only by particular sequences; tests sample a few of them.", "anchors": [{"file": "src/sortedcontainers/sorteddict.py", "symbols": ["SortedDict.__setitem__", "SortedDict.__delitem__", "SortedDict.pop", "SortedDict.popitem", "SortedDict.peekitem", "SortedDict.setdefault", "SortedDict.clear"]}]}
{"id": "C46", "title": "SortedDict.update is strategy-independent", "statement": "sd.update(pairs) (also |= and construction) leaves the map in which later pairs override earlier ones and existing items, whichever of the three internal strategies is selected.", "quantifier": "every reachable sorted dict, every sequence of pairs of any size with repeated keys", "why_tests_cant": "Sequences of mutations and queries are unbounded, and split/merge/lazy-index states are reached only by particular sequences; tests sample a few of them.", "anchors": [{"file": "src/sortedcontainers/sorteddict.py", "symbols": ["SortedDict.update", "SortedDict.__ior__", "SortedDict.__init__"]}]}
{"id": "C47", "title": "Views are positional", "statement": "keys()[i], items()[i], values()[i] and their slices are the keys / items / values in key order at those positions; del view[i] and del view[a:b:c] remove exactly those items.", "quantifier": "every reachable sorted dict, every index and slice", "why_tests_cant": "Sequences of mutations and queries are unbounded, and split/merge/lazy-index states are reached only by particular sequences; tests sample a few of them.", "anchors": [{"file": "src/sortedcontainers/sorteddict.py", "symbols": ["SortedKeysView.__getitem__", "SortedItemsView.__getitem__", "SortedValuesView.__getitem__", "_view_delitem"]}]}
{"id": "C48", "title": "Derived sorted dicts", "statement": "copy, sd | m, m | sd, fromkeys give sorted dicts with the prescribed map (right operand wins for |) and (except fromkeys) the same key function; operands unchanged.", "quantifier": "every reachable sorted dict, every mapping", "why_tests_cant": "Sequences of mutations and queries are unbounded, and split/merge/lazy-index states are reached only by particular sequences; tests sample a few of them.", "anchors": [{"file": "src/sortedcontainers/sorteddict.py", "symbols": ["SortedDict.copy", "SortedDict.__or__", "SortedDict.__ror__", "SortedDict.fromkeys"]}]}
{"id": "C49", "title": "A failing SortedDict write changes nothing", "statement": "If sd[k]=v, setdefault or update raises because a key cannot be compared, the sorted dict is exactly as before.", "quantifier": "every reachable sorted dict, every comparison function", "why_tests_cant": "All crash points.", "anchors": [{"file": "src/sortedcontainers/sorteddict.py", "symbols": ["SortedDict.__setitem__", "SortedDict.setdefault", "SortedDict.update"]}]}
{"id": "C50", "title": "Unsupported sequence methods", "statement": "sl[i] = v, append, extend, insert and reverse always raise NotImplementedError and change nothing.", "quantifier": "every reachable list and argument", "why_tests_cant": "Universally quantified, including on corrupt-prone intermediate states.", "anchors": [{"file": "src/sortedcontainers/sortedlist.py", "symbols": ["SortedList.__setitem__", "SortedList.append", "SortedList.extend", "SortedList.insert", "SortedList.reverse"]}]}
{"id": "C51", "title": "Logarithmic search", "statement": "A binary search of k items makes at most floor(log2 k)+1 comparisons. On a list of n values, membership, add, discard, remove and bisect make at most log2 n + 7 comparisons (SortedKeyList lookups by value: plus two per value sharing the key), count and index at most twice that; positional access makes no comparison; converting between positions and (sublist, offset) pairs visits at most log2 n + 1 index nodes; the key function is called at most once per argument; the index is built only when absent and has at most three entries per sublist.", "quantifier": "every list reachable by any history, every size n, every load factor, every argument", "why_tests_cant": "Bound for every n.", "anchors": [{"file": "src/sortedcontainers/sortedlist.py", "symbols": ["SortedList._loc", "SortedList._pos", "SortedList.__contains__", "SortedList.add", "SortedList.bisect_left", "SortedKeyList.__contains__", "SortedKeyList.index"]}]}
{"id": "C52", "title": "Structure survives bad comparisons", "statement": "Even if comparisons or the key function raise, contradict each other (nan) or change between calls, a SortedList / SortedKeyList stays a consistent sequence: len, iteration, indexing, slicing, islice, pop, del and clear behave as on the plain list of its values; add that returns inserts the value exactly once; discard/remove take out at most one value, one that compares equal; bulk calls that return lose and invent nothing; queries change nothing.", "quantifier": "every comparison and key function (possibly different in every call), every history in which no bulk call raised halfway, every argument", "why_tests_cant": "The misbehaving comparison can come at any point of any history; tests try a few.", "anchors": [{"file": "src/sortedcontainers/sortedlist.py", "symbols": ["SortedList.add", "SortedList.discard", "SortedList.remove", "SortedList.pop", "SortedList.update", "SortedKeyList.add", "SortedKeyList.update"]}]}
{"id": "C53", "title": "Self-check of sets and dicts never fails", "statement": "ss._check() and sd._check() pass on a set or dict after any calls, also calls that raised for a missing key or index (load factor 4 or more: _check of the list inside rejects some valid states below that).", "quantifier": "every history of calls with valid arguments on a new SortedSet / SortedDict, with or without key function, and every object derived from one by copy or an operator", "why_tests_cant": "Consistency of the two stores and the positional index after every history.", "anchors": [{"file": "src/sortedcontainers/sortedset.py", "symbols": ["SortedSet._check"]}, {"file": "src/sortedcontainers/sorteddict.py", "symbols": ["SortedDict._check"]}]}
{"id": "C54", "title": "Keys and items views are sets", "statement": "sd.keys() and sd.items() compare (==, !=, <, <=, >, >=, isdisjoint) with other sets as mathematical sets, and &, |, -, ^ with them (on either side) give a new SortedSet with exactly the members the operator asks for. The result is in natural order even if the dict has a key function.", "quantifier": "every reachable dict, every operand (view, sorted set, built-in set, for operators any iterable)", "why_tests_cant": "All pairs of dict and operand.", "anchors": [{"file": "src/sortedcontainers/sorteddict.py", "symbols": ["SortedKeysView", "SortedItemsView", "SortedKeysView._from_iterable", "SortedItemsView._from_iterable"]}]}
{"id": "C55", "title": "Views are sequences", "statement": "reversed(view) yields the keys, items or values in descending key order; view.index(x, start, stop) is the least position in the range with an equal entry, else ValueError; view.count(x) counts equal entries; x in sd.values() tells if some value is equal. None of them changes the dict.", "quantifier": "every reachable dict, every argument, every start and stop, negative ones too", "why_tests_cant": "All positions, bounds and histories.", "anchors": [{"file": "src/sortedcontainers/sorteddict.py", "symbols": ["SortedKeysView", "SortedItemsView", "SortedValuesView", "SortedValuesView.__getitem__"]}]}
{"id": "C56", "title": "Equality of dicts", "statement": "sd == other (a SortedDict or dict) is True exactly if both have the same keys with equal values, whatever the orders, key functions and histories; sorted dicts with the same total order that are equal have the same items in the same order.", "quantifier": "every pair of reachable dicts", "why_tests_cant": "All pairs of histories.", "anchors": [{"file": "src/sortedcontainers/sorteddict.py", "symbols": ["SortedDict"]}]}
{"id": "C57", "title": "Iterators under every schedule", "statement": "iter, reversed, islice, irange (and irange_key) return iterators that yield the values they were created for one at a time, each once and in order, and then stop for good, whatever other iterators are created or advanced and whatever queries (also those that build the positional index), or, for a SortedSet, adds of present values and discards of absent ones, are made in between. The calls are answered as without the iterators. Nothing is promised about an iterator after another call has been made.", "quantifier": "every reachable list, key list and set, every schedule of creating any number of iterators, advancing them and making calls", "why_tests_cant": "Unbounded interleavings of iterators and calls.", "anchors": [{"file": "src/sortedcontainers/sortedlist.py", "symbols": ["SortedList.__iter__", "SortedList.__reversed__", "SortedList.islice", "SortedList._islice", "SortedList.irange", "SortedKeyList.irange", "SortedKeyList.irange_key"]}, {"file": "src/sortedcontainers/sortedset.py", "symbols": ["SortedSet.__iter__", "SortedSet.__reversed__"]}]}
{"id": "C58", "title": "Iterating a dict while updating present keys", "statement": "Iterators over the keys, values and items of a SortedDict yield what they were created for, in key order, under every schedule of other iterators, queries, and assignments or setdefaults to present keys; iterators over values and items yield the value the key has when it is reached.", "quantifier": "every reachable dict, every schedule", "why_tests_cant": "Unbounded interleavings of iterators and calls.", "anchors": [{"file": "src/sortedcontainers/sorteddict.py", "symbols": ["SortedDict.__iter__", "SortedDict.__reversed__", "SortedDict.keys", "SortedDict.values", "SortedDict.items", "SortedDict.__setitem__", "SortedDict.setdefault"]}]}
{"id": "C59", "title": "No sharing", "statement": "Sorted lists share no list objects with each other or with the client: changing a list that was passed to a constructor, update, += or +, or a list returned by slicing or __reduce__, changes no sorted list; changing a sorted list changes no such list, no copy, and no sum or multiple made from it. This holds whether or not comparisons raise or are consistent.", "quantifier": "every history of a client with any number of lists and sorted lists, including passing a sorted list to its own methods", "why_tests_cant": "Aliasing shows only in later histories; every combination of objects and calls matters.", "anchors": [{"file": "src/sortedcontainers/sortedlist.py", "symbols": ["SortedList.__init__", "SortedList.update", "SortedList.__getitem__", "SortedList.copy", "SortedList.__add__", "SortedList.__iadd__", "SortedList.__mul__", "SortedList.__reduce__", "SortedKeyList.update", "SortedKeyList.copy", "SortedKeyList.__add__", "SortedKeyList.__mul__", "SortedKeyList.__reduce__"]}]}
{"id": "C60", "title": "Sorted sets share nothing", "statement": "Sorted sets share no set and no list objects with each other or with the client: changing a built-in set that was passed to a constructor, method or operator changes no sorted set; changing a sorted set changes no other set, no copy, and no union, difference, intersection made from it. The methods a sorted set takes from its parts when it is created (isdisjoint, issubset, issuperset, bisect, index, irange, islice) always answer for the current values. This holds whether or not comparisons raise.", "quantifier": "every history of a client with any number of built-in sets and sorted sets, including passing a sorted set to its own methods, pickling and deep copies; excluded are clients that call the pickle hook __reduce__ by hand and keep the set in its result, which is the internal one", "why_tests_cant": "Aliasing and stale bound methods show only in later histories; every combination of objects and calls matters.", "anchors": [{"file": "src/sortedcontainers/sortedset.py", "symbols": ["SortedSet.__init__", "SortedSet._fromset", "SortedSet.copy", "SortedSet.clear", "SortedSet.update", "SortedSet.difference", "SortedSet.difference_update", "SortedSet.intersection", "SortedSet.intersection_update", "SortedSet.symmetric_difference", "SortedSet.symmetric_difference_update", "SortedSet.union", "SortedSet.__reduce__"]}]}
{"id": "C61", "title": "A passing self-audit can be trusted", "statement": "If _check() passes on a sorted list, key list, set or dict, then from then on every call is answered as by the plain sorted list, set or dict with its contents, however the object got into its state: memory may have been corrupted, attributes set by hand, a call interrupted, or comparisons may have contradicted each other.", "quantifier": "every object of the right type, reachable or not, and every later history; excluded are two corruptions that _check does not look at, each shown to escape it: a positional index whose number of leaf places is not a power of two, and repetitions in the key list of a set or dict", "why_tests_cant": "The corrupted states are not reachable by calls and there are infinitely many of them.", "anchors": [{"file": "src/sortedcontainers/sortedlist.py", "symbols": ["SortedList._check", "SortedKeyList._check"]}, {"file": "src/sortedcontainers/sortedset.py", "symbols": ["SortedSet._check"]}, {"file": "src/sortedcontainers/sorteddict.py", "symbols": ["SortedDict._check"]}]}
{"id": "C62", "title": "Constructors take their arguments as documented", "statement": "SortedList(xs) is a plain sorted list; SortedList(xs, key=f) and SortedKeyList(xs, key=f) are sorted-key lists with key f; SortedKeyList(xs) uses the identity; a key for a subclass of SortedList is a TypeError; SortedSet(xs, key=f) has key f. SortedDict(*args, **kwargs) takes a first argument that is None or callable for the key function, then at most one mapping or iterable of pairs, then keywords, which win; anything else is a TypeError. sd.update(*args, **kwargs) takes its arguments in the same way, and when they have no meaning it changes nothing, except that an empty dict keeps the pairs an iterable yielded before it raised. copy, |, pickling keep the key function; fromkeys has none.", "quantifier": "every sequence of positional and keyword arguments of every kind, every content, every key function", "why_tests_cant": "All combinations of kinds of arguments, contents, duplicates between positional and keyword arguments, and failing iterables.", "anchors": [{"file": "src/sortedcontainers/sortedlist.py", "symbols": ["SortedList.__new__", "SortedList.__init__", "SortedKeyList.__new__", "SortedKeyList.__init__"]}, {"file": "src/sortedcontainers/sortedset.py", "symbols": ["SortedSet.__init__"]}, {"file": "src/sortedcontainers/sorteddict.py", "symbols": ["SortedDict.__init__", "SortedDict.update", "SortedDict.copy", "SortedDict.__or__", "SortedDict.__ror__", "SortedDict.fromkeys", "SortedDict.__reduce__"]}]}
{"id": "C63", "title": "clear() recovers from everything", "statement": "Whatever happened to a sorted list, key list, set or dict before, including calls that raised halfway and left it damaged or its two stores out of step, clear() returns None, and the answers and contents of all calls that follow are those of a plain sorted list, set or dict that starts empty.", "quantifier": "every history of calls with any comparisons, key functions and arguments, different ones in every call, returning or raising anywhere; every history after the clear with values that compare well", "why_tests_cant": "There are infinitely many ways to damage an object, and any leftover may show in any later call.", "anchors": [{"file": "src/sortedcontainers/sortedlist.py", "symbols": ["SortedList.clear", "SortedKeyList.clear"]}, {"file": "src/sortedcontainers/sortedset.py", "symbols": ["SortedSet.clear"]}, {"file": "src/sortedcontainers/sorteddict.py", "symbols": ["SortedDict.clear"]}]}
{"id": "C64", "title": "Sets are sets and dicts are dicts under any comparisons", "statement": "Even if values or keys have no consistent order (nan, values of several types, comparisons that change or raise), a SortedSet or SortedDict whose comparing calls returned is in step with itself: it iterates over exactly its members, each once, len() counts them, items() gives every key its value and does not raise; every call that returns changes the members or items as the call on a built-in set or dict does; answers by position agree with the order of iteration; missing keys and bad indexes raise KeyError and IndexError; only calls that compare values may raise anything else.", "quantifier": "every history of calls, each with its own comparisons and key function (== implies equal for the built-in set or dict), in which the mutating calls that compare returned or left the object as it was, also after a clear() that repaired it; every further call", "why_tests_cant": "No finite set of tests covers all inconsistent comparison functions and histories.", "anchors": [{"file": "src/sortedcontainers/sortedset.py", "symbols": ["SortedSet"]}, {"file": "src/sortedcontainers/sorteddict.py", "symbols": ["SortedDict"]}, {"file": "src/sortedcontainers/sortedlist.py", "symbols": ["SortedList", "SortedKeyList"]}]}
{"id": "C65", "title": "Sorted dicts share nothing, and views show their dict", "statement": "Sorted dicts share no state with the dicts they were made from, with each other, with their copies, unions and unpickled twins, or with the dict that __reduce__ hands out: all answers and contents are as if every dict and sorted dict were a value of its own. A call changes the sorted dict it is made on (or whose view it is made on) and nothing else, whether or not it raises. A sorted dict, or its items view, may be an argument of its own methods. A view keeps showing, and acting on, the present contents of its sorted dict.", "quantifier": "every sequence of events of a client that holds any number of dicts, sorted dicts and views, passes them to each other's methods and changes them in any order; the frame and view parts also for comparisons that raise or contradict each other", "why_tests_cant": "Aliasing shows only in particular interleavings of calls on different objects; there are infinitely many of these.", "anchors": [{"file": "src/sortedcontainers/sorteddict.py", "symbols": ["SortedDict.__init__", "SortedDict.update", "SortedDict.copy", "SortedDict.__or__", "SortedDict.__ror__", "SortedDict.__reduce__", "SortedDict.keys", "SortedDict.items", "SortedDict.values", "SortedKeysView", "SortedItemsView", "SortedValuesView", "_view_delitem"]}]}
{"id": "C66", "title": "Splitting, merging and indexing are amortised", "statement": "Over any history of adding, deleting and searching calls the sublists are split or merged at most once per load/2 units, where an added value counts one unit and a deleted value two (plus the debt of the initial layout: none if empty, 2*load if freshly built, 4n + 2*load at worst), and at most twice per call. Hence the total number of values moved, of sublist references shifted and of index entries built is bounded by the number of calls that add or delete times a constant multiple of the load factor, as long as the number of values is within a fixed multiple of load squared. Any number of searches builds the positional index at most once and writes nothing else. Constructors and _reset leave all sublists but the last exactly full.", "quantifier": "every history of add, discard, remove, del sl[i], pop and searches (by value, by position, by key), with any arguments, failing calls included, from every reachable SortedList or SortedKeyList, for every load factor and total order", "why_tests_cant": "A benchmark shows particular histories; an adversarial sequence that makes the structure split and merge back and forth would not be seen, and the bound is on all of them.", "anchors": [{"file": "src/sortedcontainers/sortedlist.py", "symbols": ["SortedList.add", "SortedList._expand", "SortedList._delete", "SortedList._build_index", "SortedList.update", "SortedList._reset", "SortedKeyList.add", "SortedKeyList._expand", "SortedKeyList._delete", "SortedKeyList.update"]}, {"file": "docs/performance-scale.rst", "symbols": ["amortized cost"]}]}
{"id": "C67", "title": "What calls on sorted sets and dicts cost", "statement": "On a SortedDict or SortedSet of n keys: assigning to, setting a default for or adding a key, deleting, popping or discarding one, bisecting, ranging and looking up by position make O(log n) comparisons, at most one call of the key function (two for irange) and O(log n) visits to nodes of the positional index, plus, where values are compared, two comparisons for each stored key that sorts equal to the argument; lookups by key, membership, the set predicates, assigning to a key that is present and deleting or discarding one that is absent do not touch the sorted list at all. The positional index is built only by calls that need positions, with at most three entries per sublist, and never if there is one. Over any history of these calls the values moved, references shifted and index entries built are bounded as for the list (C66): from an empty object, a constant multiple of the load factor per call that adds or deletes.", "quantifier": "every reachable SortedDict and SortedSet, with and without key function, for every total order, load factor and behaviour of the built-in set; every call and every history of the calls named, failing ones included", "why_tests_cant": "A benchmark measures particular objects and histories; the claim bounds every call on every object, and the totals of all histories.", "anchors": [{"file": "src/sortedcontainers/sorteddict.py", "symbols": ["SortedDict.__setitem__", "SortedDict.__delitem__", "SortedDict.pop", "SortedDict.popitem", "SortedDict.peekitem", "SortedDict.setdefault", "SortedKeysView.__getitem__", "SortedItemsView.__getitem__", "SortedValuesView.__getitem__"]}, {"file": "src/sortedcontainers/sortedset.py", "symbols": ["SortedSet.add", "SortedSet.discard", "SortedSet.remove", "SortedSet.pop", "SortedSet.__delitem__", "SortedSet.__getitem__"]}]}
{"id": "C68", "title": "Updating with many values is never worse than sorting them", "statement": "Updating a sorted list, set or dict of n values with k values (update, |=, -= and the operations of the same name, the constructor) gives at most a constant multiple of k values to sorted() (6k for lists, 11k for dicts, 5k and 4k for set update and difference) and makes at most k times O(log(n + k)) comparisons outside of it; the key function is called O(k) times. Filling an empty list makes no comparison outside of one call of sorted() on the k values. intersection_update and symmetric_difference_update give at most n (and n + k) values to sorted() and make no other comparison. The positional index is not built by any of these calls. In no case is a large object sorted again for a small update.", "quantifier": "every reachable object of the four classes, with and without key function, for every total order, load factor and behaviour of the built-in set; every argument, an iterable that fails half way included (dicts)", "why_tests_cant": "The code switches between two strategies by comparing the sizes; whether the bound holds around and on both sides of the switch, for all pairs of sizes and all repetitions among the values, is not visible from any set of examples.", "anchors": [{"file": "src/sortedcontainers/sortedlist.py", "symbols": ["SortedList.update", "SortedKeyList.update"]}, {"file": "src/sortedcontainers/sortedset.py", "symbols": ["SortedSet.update", "SortedSet.difference_update", "SortedSet.intersection_update", "SortedSet.symmetric_difference_update"]}, {"file": "src/sortedcontainers/sorteddict.py", "symbols": ["SortedDict.update"]}]}
{"id": "C69", "title": "Iterators while the list changes", "statement": "If a sorted list is changed while it is iterated, the iterator stays memory-safe and honest: each value that it yields was in the list at its creation or at some later moment before the request; iterators of iter() and reversed() never raise; those of islice, irange and irange_key raise at most IndexError; an iterator that has stopped never yields again; once the client stops changing the list, the iterator comes to an end after finitely many requests. As long as only queries are made, every iterator yields its values, each once and in order, however many iterators are advanced in turn; and the results of calls never depend on the iterators that exist. (A value may be yielded twice, skipped, or yielded after its removal.)", "quantifier": "every history of calls, creations of iterators and requests on a SortedList or SortedKeyList, every interleaving of any number of iterators, every behaviour of comparisons and key function (also raising or contradictory ones) for the safety part; total orders for the rest", "why_tests_cant": "What an iterator sees depends on which sublists have been split, merged, replaced or dropped since it was created; the number of interleavings of iterators and changes is unbounded, and a stale iterator usually works.", "anchors": [{"file": "src/sortedcontainers/sortedlist.py", "symbols": ["SortedList.__iter__", "SortedList.__reversed__", "SortedList.islice", "SortedList._islice", "SortedList.irange", "SortedKeyList.irange", "SortedKeyList.irange_key"]}]}
{"id": "C70", "title": "Interrupted calls", "statement": "If a call on a sorted list is interrupted (Ctrl-C, a signal handler that raises, MemoryError) the damage is bounded: an interrupted query changes no value; an interrupted add leaves the old values, or the new ones without at most one run of load+1 values, in order; an interrupted discard, remove, del sl[i] or pop leaves the old values, or the new ones with at most one run of 2*load values missing or repeated; an interrupted clear leaves all values or none; an interrupted bulk operation leaves only values from before the call or from its argument, none more often than there. After any number of interruptions, exceptions and contradictory comparisons the list holds no value that was never put in, and clear() makes it as good as new; rebuilding it with _reset makes a correct list of the values that are left.", "quantifier": "every call, every point of interruption between two writes to the object, every history of interrupted and uninterrupted calls, every behaviour of comparisons and key function", "why_tests_cant": "The point of interruption is arbitrary, and most of them are a few bytecodes wide; which values are at stake depends on splits and merges at that moment, and a damaged object may first be used, and damaged again, much later.", "anchors": [{"file": "src/sortedcontainers/sortedlist.py", "symbols": ["SortedList.add", "SortedList._expand", "SortedList._delete", "SortedList.update", "SortedList.clear", "SortedList._build_index", "SortedList.__delitem__", "SortedList._reset", "SortedKeyList.add", "SortedKeyList._expand", "SortedKeyList._delete", "SortedKeyList.update", "SortedKeyList.clear"]}]}
{"id": "C71", "title": "Threads that only query", "statement": "Several threads query one sorted list that nobody changes. Whatever the schedule, the values of the list stay as they are, and every query that does not count positions (in, iteration, reversed, irange, len, comparisons, copy, +, *; count and irange_key of a SortedKeyList) gets the right answer. If every query the threads make has been made at least once before the threads start, or if the positional index exists, then all queries of all threads get the right answer, the object does not change at all, and a thread that gets enough turns finishes.", "quantifier": "every list, every number of threads, every sequence of queries in each thread, every schedule (thread switches between any two accesses to the object)", "why_tests_cant": "A race needs a thread switch in a window of a few bytecodes; a test run shows a handful of schedules, and which query builds the positional index depends on the history.", "anchors": [{"file": "src/sortedcontainers/sortedlist.py", "symbols": ["SortedList._build_index", "SortedList._loc", "SortedList._pos", "SortedList.__getitem__", "SortedList.islice", "SortedList.bisect_left", "SortedList.bisect_right", "SortedList.count", "SortedList.index", "SortedKeyList.bisect_key_left", "SortedKeyList.bisect_key_right", "SortedKeyList.index"]}]}
{"id": "C72", "title": "Interrupted calls on sorted sets and dicts", "statement": "If a call on a SortedSet or SortedDict is interrupted (Ctrl-C, a signal handler that raises, MemoryError) membership is never torn: of every value, v in ss answers what it answered before the call or what it answers after it; sd.get(k) is the old value, the new value, or (for update) one that the argument gives for k. Iteration yields the old values, or the new ones with a damage as bounded as that of a sorted list: add and sd[k] = v miss at most one run of load+1 values, removals miss or repeat at most one run of 2*load values, bulk operations yield only values from before or after the call. An interrupted query changes nothing a client can observe but positions. After any number of interruptions, exceptions and contradictory comparisons there is no member, item or iterated value that was never put in; clear() makes the object as good as new; ss.symmetric_difference_update([]), and sd.update with a dict of more than a tenth of the size, make it a correct object with all its members.", "quantifier": "every call, every point of interruption between two writes to the object or to its list, every history of interrupted and uninterrupted calls, plain and key classes; for the bounds of one call: every reachable object, total orders", "why_tests_cant": "The two stores of a set or dict are updated one after the other, and each call has its own order; the windows in which they disagree are a few bytecodes wide, and a damaged object may first be used, and damaged again, much later.", "anchors": [{"file": "src/sortedcontainers/sortedset.py", "symbols": ["SortedSet.__delitem__", "SortedSet.add", "SortedSet.clear", "SortedSet.discard", "SortedSet.pop", "SortedSet.remove", "SortedSet.difference_update", "SortedSet.intersection_update", "SortedSet.symmetric_difference_update", "SortedSet.update"]}, {"file": "src/sortedcontainers/sorteddict.py", "symbols": ["SortedDict.__delitem__", "SortedDict.__setitem__", "SortedDict.clear", "SortedDict.pop", "SortedDict.popitem", "SortedDict.setdefault", "SortedDict.update", "SortedKeysView.__delitem__", "SortedItemsView.__getitem__", "SortedValuesView.__getitem__"]}]}
{"id": "C73", "title": "Threads that only query a sorted set or dict", "statement": "Several threads make queries on one SortedSet or SortedDict that nobody changes. Whatever the schedule, the built-in set or dict is not changed and the sorted list only in its positional index; membership, lookup by key, len, iteration, irange, comparison, set algebra and copies are answered as if there were one thread. Indexing, peekitem, slices of views, bisect, index and islice are answered correctly whatever the schedule once each of them has been made before the threads start, or once the positional index is there; then nothing at all is written and every thread that has had enough turns is finished. Without that, such a query may raise or answer wrongly.", "quantifier": "every reachable set or dict (for the first part: every object, with any comparisons), every number of threads, every list of queries for each, every schedule, plain and key classes", "why_tests_cant": "Schedules cannot be enumerated, and the window in which two threads both build the positional index is a few bytecodes wide.", "anchors": [{"file": "src/sortedcontainers/sortedset.py", "symbols": ["SortedSet.__getitem__", "SortedSet.__contains__", "SortedSet.intersection", "SortedSet.copy"]}, {"file": "src/sortedcontainers/sorteddict.py", "symbols": ["SortedDict.peekitem", "SortedKeysView.__getitem__", "SortedItemsView.__getitem__", "SortedValuesView.__getitem__"]}, {"file": "src/sortedcontainers/sortedlist.py", "symbols": ["SortedList._build_index", "SortedList._pos", "SortedList._loc"]}]}
{"id": "C74", "title": "repr of containers that contain each other", "statement": "repr of a sorted list, set, dict or view ends, however containers contain each other or themselves: it shows the name of the type, the values or items in the order of iteration and the key function, and shows '...' for a sorted container exactly where it stands inside itself. If a value's repr raises, that exception is raised. In both cases nothing is left behind: a later repr of the same object shows it in full. Calls of repr in several threads do not influence each other, whatever the schedule.", "quantifier": "every finite graph of sorted lists, sets, dicts and views, built-in lists, tuples and dicts and other objects, cyclic or not; every number of threads, every schedule of the steps of the recursion guard", "why_tests_cant": "Object graphs and schedules cannot be enumerated; a guard that is left behind shows only in a later call.", "anchors": [{"file": "src/sortedcontainers/sortedlist.py", "symbols": ["SortedList.__repr__", "SortedKeyList.__repr__"]}, {"file": "src/sortedcontainers/sortedset.py", "symbols": ["SortedSet.__repr__"]}, {"file": "src/sortedcontainers/sorteddict.py", "symbols": ["SortedDict.__repr__", "SortedKeysView", "SortedItemsView", "SortedValuesView"]}]}
{"id": "C75", "title": "Iterators while the set or dict changes", "statement": "If a sorted set or dict is changed while it is iterated, its iterators stay honest: each value (or key) that they yield was in the container at the creation of the iterator or at some later moment before the request; an iterator of values or items yields the value that the key has at the request, or raises KeyError if the key is no longer in the dict; iterators of iter() and reversed() never raise; those of islice and irange raise at most IndexError; an iterator that has stopped or has raised KeyError never yields again; once the client stops changing the container, the iterator comes to an end after finitely many requests. As long as only queries are made (or values added that are present, absent values discarded, keys that are present assigned), every iterator yields its values, each once and in order; and the results of calls never depend on the iterators that exist.", "quantifier": "every history of calls, creations of iterators and requests on a SortedSet or SortedDict, with or without key function, every interleaving of any number of iterators, every behaviour of comparisons and key function (also raising or contradictory ones) for the safety part; lawful orders for the rest", "why_tests_cant": "What an iterator sees depends on which sublists have been split, merged, replaced or dropped since it was created, and bulk operations of sets and dicts replace all of them or change them one value at a time depending on sizes; the number of interleavings is unbounded, and a stale iterator usually works.", "anchors": [{"file": "src/sortedcontainers/sortedset.py", "symbols": ["SortedSet.__iter__", "SortedSet.__reversed__", "SortedSet.update", "SortedSet.difference_update"]}, {"file": "src/sortedcontainers/sorteddict.py", "symbols": ["SortedDict.__iter__", "SortedDict.__reversed__", "SortedDict.update", "SortedItemsView", "SortedValuesView"]}, {"file": "src/sortedcontainers/sortedlist.py", "symbols": ["SortedList.__iter__", "SortedList.__reversed__", "SortedList.islice", "SortedList.irange"]}]}
{"id": "C76", "title": "Comparisons and key functions that query the list", "statement": "The comparison operators of the values and the key function may themselves query the list on whose behalf they are called (e.g. a comparison that evaluates `x in sl`, `len(sl)` or `list(sl)`), and the comparisons which answer those queries may query it again. During every call that does not rebuild the list from many values at once (add, discard, remove, pop, del sl[i], and all queries) such nested queries are answered exactly as by a plain list with the contents before the call; hence, if the operators are right when their queries are answered rightly, all results and the contents are those of a plain list sorted by that order. If the operators are right whatever they are told, this holds for the results and contents of all calls, also those which rebuild the list (update, +=, *=, slice deletion, change of the load factor); during those, nested queries may see a list that is neither the one before nor the one after the call.", "quantifier": "every lawful order, every behaviour of comparisons and key function that asks queries, to any finite depth of nesting, with any dependence on the answers and on what was asked before; every reachable SortedList or SortedKeyList; every history of calls", "why_tests_cant": "The nested queries can come at any comparison of any call, from any state, and be any of some thirty queries with any arguments, nested in each other; queries also write (the positional index is built on demand), so that a nested query changes the object between two steps of the outer call. Tests use values whose comparisons have no effects.", "anchors": [{"file": "src/sortedcontainers/sortedlist.py", "symbols": ["SortedList.add", "SortedList.discard", "SortedList.remove", "SortedList.update", "SortedList._build_index", "SortedList._loc", "SortedList.__contains__", "SortedList.bisect_left", "SortedList.__imul__", "SortedKeyList.add", "SortedKeyList.discard", "SortedKeyList.count", "SortedKeyList.index", "SortedKeyList.update"]}]}
{"id": "C77", "title": "Values whose == does not follow from <", "statement": "Only `<` has to be an order: if the other comparison operators have nothing to do with it (e.g. == is identity, as by default for classes that define only __lt__), or raise, the list stays sorted by `<`, and all results are determined. What `in` finds, and what discard and remove take away, is always a stored value that == says is equal to the argument; nothing else is removed. A SortedList looks at the first stored value not less than the argument only: so `in`, discard and remove are certain to find the argument if all stored values that `<` does not tell apart from it are equal to it, and may miss a stored value otherwise; count and index count all values that `<` does not tell apart. A SortedKeyList looks at all stored values with the key of the argument, so it finds any of them that is equal to it, and the value at the position that index returns is equal to the argument and in the window.", "quantifier": "every strict weak order `<`, every behaviour of ==, !=, <=, > and >= on values (and on keys, for SortedKeyList), also raising; every reachable list and every history of calls", "why_tests_cant": "Tests compare numbers, for which the operators agree; the claims are about every family of operators, and about every arrangement of equivalent values over sublists.", "anchors": [{"file": "src/sortedcontainers/sortedlist.py", "symbols": ["SortedList.__contains__", "SortedList.discard", "SortedList.remove", "SortedList.count", "SortedList.index", "SortedKeyList.__contains__", "SortedKeyList.discard", "SortedKeyList.remove", "SortedKeyList.count", "SortedKeyList.index"]}]}
{"id": "C78", "title": "Sets and dicts of values that < does not tell apart although they are different", "statement": "A SortedSet or SortedDict without key function may hold values that are not ordered by `<` and yet not equal (e.g. jobs compared by priority), if equal values are never ordered. Everything that goes by position or adds values works: construction, copy, |, &, -, ^, add, update, intersection_update, symmetric_difference_update, pop, del ss[i], popitem, setdefault, views, in, len; and so do discard, remove, del sd[k] and sd.pop(k) as long as the value comes first among the stored ones that `<` does not tell apart from it, and difference_update and index if there are no others. In every history of such calls the two stores agree, and a dict gives the answers of a plain dict. discard, remove and del sd[k] of a stored value that does not come first raise ValueError half-way: `in` denies the value, iteration still yields it, and then items() and values() of the dict raise KeyError. sd.pop(k) of such a key raises ValueError, even with a default, and changes nothing.", "quantifier": "every strict weak order `<`, every equivalence == that is finer than it, every reachable set and dict, every history of calls, every iteration order of the built-in set", "why_tests_cant": "Tests use values for which == and `<` agree; the claim is about every arrangement of equivalent values over the sublists and about all histories.", "anchors": [{"file": "src/sortedcontainers/sortedset.py", "symbols": ["SortedSet.discard", "SortedSet.remove", "SortedSet.difference_update", "SortedSet.update", "SortedSet.add"]}, {"file": "src/sortedcontainers/sorteddict.py", "symbols": ["SortedDict.__delitem__", "SortedDict.pop", "SortedDict.update"]}, {"file": "src/sortedcontainers/sortedlist.py", "symbols": ["SortedList.remove", "SortedList.index"]}]}
{"id": "C79", "title": "Values that are modified while they are stored", "statement": "Modifying a stored value so that it compares differently does no lasting damage: the containers keep nothing about the order of the values but the order itself. Whatever the comparisons answered in earlier calls, if the contents are in order by the comparisons of now then a SortedList answers all further calls as the plain sorted list with these contents does; so does a SortedKeyList if the keys it stored are the keys of now. The same holds for SortedSet and SortedDict without key function, if the contents are in order whenever a method is called. `sl *= 1` puts any SortedList or SortedKeyList back in order (a stable sort by the order or keys of now), after which it is as good as new. As long as the keys of stored values differ from those they were stored with, a SortedKeyList goes by the stored keys: calls by position or by key answer as before the change, and bisect_left and bisect_right of a value search its key of now among the stored keys. While the contents are out of order, a stored value may not be found.", "quantifier": "every history of calls in which the comparisons (and key functions) may be different in every call, contradict each other or raise; every strict weak order that the contents are in order by at the end; every history of calls after that", "why_tests_cant": "The claim is about every way in which values can change between calls, and every arrangement of sublists, maxima and cached keys that results.", "anchors": [{"file": "src/sortedcontainers/sortedlist.py", "symbols": ["SortedList.add", "SortedList._delete", "SortedList._expand", "SortedList.__imul__", "SortedKeyList.add", "SortedKeyList._expand", "SortedKeyList._delete", "SortedKeyList.bisect_left", "SortedKeyList.irange_key"]}, {"file": "src/sortedcontainers/sortedset.py", "symbols": ["SortedSet"]}, {"file": "src/sortedcontainers/sorteddict.py", "symbols": ["SortedDict"]}]}
{"id": "C80", "title": "Arguments that use the container they are passed to", "statement": "A generator that is passed to a method may itself call methods of the container, even methods that change it. `sl.update(gen)`, `sl += gen`, `sl + gen` and, for sets, update, difference_update, symmetric_difference_update (and |=, -=, ^=) behave as if the generator had been listed first, with every call that it makes answered by the plain container at that moment, and the container had then been updated with that list; the copy for `sl + gen` is taken before. A generator that only reads sees the contents from before the call. intersection_update keeps the values that are in the set when they are yielded. `sd.update(gen)` is `d.update(dict(gen))` on a dict that is not empty; on an empty dict it is `for k, v in gen: d[k] = v` for generators that use sd[k], get, in and len, and for generators that make any queries the dict is whole when the call returns. (Not so for generators that change the empty dict that is being updated.)", "quantifier": "every container state, every terminating generator (any calls depending in any way on the answers before, also exceptions raised in it), every history of such calls", "why_tests_cant": "The claim is about every program that a generator can run between two values, at every state of the container.", "anchors": [{"file": "src/sortedcontainers/sortedlist.py", "symbols": ["SortedList.update", "SortedList.__iadd__", "SortedList.__add__", "SortedKeyList.update", "SortedKeyList.__add__"]}, {"file": "src/sortedcontainers/sortedset.py", "symbols": ["SortedSet.update", "SortedSet.difference_update", "SortedSet.intersection_update", "SortedSet.symmetric_difference_update"]}, {"file": "src/sortedcontainers/sorteddict.py", "symbols": ["SortedDict.update"]}]}
{"id": "C81", "title": "Initialising an object again", "statement": "Calling `__init__` on an object that exists already (directly, or by a subclass whose bases both do) has a defined effect in every state of the object. A sorted list becomes the list that the class would construct from the arguments (given itself, it becomes empty, like a built-in list); a SortedList refuses a key function with an AssertionError and is unchanged. A sorted set keeps its values, adds those of the iterable, takes the new key function and is in its order, and all later calls are answered accordingly. A sorted dict that is empty is constructed anew; one that is given itself, or more than a tenth as many items as it has, is updated with them and takes the new key function, and all later calls are answered as by a plain dict. (A sorted dict that is not empty and is given fewer items is damaged: it keeps its items, but iteration yields only the added keys, and _check() fails.)", "quantifier": "every object of the four classes in any state whatsoever, all arguments of __init__, every history of calls afterwards", "why_tests_cant": "The claim ranges over all states an object can be in, all arguments, and all calls that follow; the tests construct each object once.", "anchors": [{"file": "src/sortedcontainers/sortedlist.py", "symbols": ["SortedList.__init__", "SortedKeyList.__init__"]}, {"file": "src/sortedcontainers/sortedset.py", "symbols": ["SortedSet.__init__"]}, {"file": "src/sortedcontainers/sorteddict.py", "symbols": ["SortedDict.__init__", "SortedDict.update"]}]}
{"id": "C82", "title": "A thread that changes a list while others query it", "statement": "One thread changes a sorted list while other threads query it. If it only uses add, discard, remove, clear and queries that need neither positions nor the length, then, whatever the other threads ask and whatever the schedule, the values end up as on a plain sorted list and so do its answers, except that a call may raise IndexError after it has changed the values; `_reset` afterwards makes the list a plain sorted list again, length and positions included. If the other threads only evaluate `list(sl)` and `v in sl`, the thread that changes the list (with any calls that return) notices nothing of them, `list(sl)` yields what one of its calls could leave behind when interrupted, and `v in sl` is True only if a value equivalent to v is there at some moment.", "quantifier": "all orders, all lists a client can have, all sequences of calls of the changing thread, any number of other threads with any number of queries, all schedules", "why_tests_cant": "The interleavings cannot be enumerated, and the damage (a positional index built from counts that are out of date, a length that is one short) is only visible in later calls.", "anchors": ["src/sortedcontainers/sortedlist.py:SortedList.add", "src/sortedcontainers/sortedlist.py:SortedList._expand", "src/sortedcontainers/sortedlist.py:SortedList._delete", "src/sortedcontainers/sortedlist.py:SortedList.discard", "src/sortedcontainers/sortedlist.py:SortedList.remove", "src/sortedcontainers/sortedlist.py:SortedList.clear", "src/sortedcontainers/sortedlist.py:SortedList.__contains__", "src/sortedcontainers/sortedlist.py:SortedList._build_index", "src/sortedcontainers/sortedlist.py:SortedKeyList.add", "src/sortedcontainers/sortedlist.py:SortedKeyList._delete"]}
{"id": "C83", "title": "A thread that changes a sorted set or dict while others look things up", "statement": "One thread changes a SortedSet or SortedDict while other threads look things up in it (`v in ss`, `len(ss)`, comparisons, `ss & other`, `copy`; `sd[k]`, `sd.get(k)`, `k in sd`, `len(sd)`). If the changing thread uses add, discard, remove, pop, del, clear, `&=`, `^=` (set) or `sd[k] = v`, del, pop, popitem, setdefault, clear (dict), then all calls are linear: every thread gets the answers it would get if the calls were made one at a time in an order that agrees with time, calls that raise included, and each lookup takes effect at the turn it is made. With `update`, `-=` and `del view[i:j]`, which may work value by value, this is false, but the changing thread still notices nothing, every single `v in ss` is right for some moment between two calls, every `sd.get(k)` is so too or is a value that an `update` sets on its way, and iteration yields what an interrupted call could leave behind.", "quantifier": "all orders, all sets and dicts a client can have, all sequences of calls of the changing thread, any number of other threads with any number of lookups, all schedules", "why_tests_cant": "The interleavings cannot be enumerated; whether some order explains all answers is a statement about all of them together.", "anchors": ["src/sortedcontainers/sortedset.py:SortedSet.add", "src/sortedcontainers/sortedset.py:SortedSet.discard", "src/sortedcontainers/sortedset.py:SortedSet.remove", "src/sortedcontainers/sortedset.py:SortedSet.pop", "src/sortedcontainers/sortedset.py:SortedSet.clear", "src/sortedcontainers/sortedset.py:SortedSet.__contains__", "src/sortedcontainers/sortedset.py:SortedSet.update", "src/sortedcontainers/sorteddict.py:SortedDict.__setitem__", "src/sortedcontainers/sorteddict.py:SortedDict.__delitem__", "src/sortedcontainers/sorteddict.py:SortedDict.pop", "src/sortedcontainers/sorteddict.py:SortedDict.popitem", "src/sortedcontainers/sorteddict.py:SortedDict.setdefault", "src/sortedcontainers/sorteddict.py:SortedDict.update"]}
{"id": "C84", "title": "Several threads change one sorted set or dict", "statement": "Several threads change one SortedSet with add, discard and remove, or one SortedDict with `sd[k] = v`, `del sd[k]`, pop and setdefault, and make queries. Whatever the schedule, every finished thread has been told the truth about each value or key that no other thread puts in or takes out: `v in ss`, `ss.count(v)`, `k in sd`, `sd[k]`, `get`, `pop`, `setdefault` and the KeyErrors of `remove` and `del` are those of a plain set or dict on which only this thread works. A call may raise IndexError or ValueError because of the other threads; then add, discard, remove, `del sd[k]` and setdefault have had their whole effect on membership, `sd[k] = v` and pop none. Values and items that no thread changes stay. Threads that only add need not share out the values: in the end the set has what it had and what was added. The sorted order may be damaged for good, but `ss.symmetric_difference_update([])`, or `sd.update(other)` with an `other` that is not much smaller than a non-empty `sd`, repairs the object without losing a member.", "quantifier": "all orders, all sets and dicts a client can have, any number of threads with any sequences of these calls, all schedules, and all ways in which the calls of the sorted list may be suspended", "why_tests_cant": "Races depend on the schedule; tests see a few schedules, and the promise is about all of them, for unboundedly many threads and calls.", "anchors": ["src/sortedcontainers/sortedset.py:SortedSet.add", "src/sortedcontainers/sortedset.py:SortedSet.discard", "src/sortedcontainers/sortedset.py:SortedSet.remove", "src/sortedcontainers/sortedset.py:SortedSet.__contains__", "src/sortedcontainers/sortedset.py:SortedSet.count", "src/sortedcontainers/sortedset.py:SortedSet.symmetric_difference_update", "src/sortedcontainers/sorteddict.py:SortedDict.__setitem__", "src/sortedcontainers/sorteddict.py:SortedDict.__delitem__", "src/sortedcontainers/sorteddict.py:SortedDict.pop", "src/sortedcontainers/sorteddict.py:SortedDict.setdefault", "src/sortedcontainers/sorteddict.py:SortedDict.update"]}
{"id": "C85", "title": "Comparisons and key functions that query their sorted set or dict", "statement": "The comparison operators and the key function that a SortedSet or SortedDict calls may call queries of that very set or dict, whose comparisons may query it again, to any finite depth. If they compare correctly given true answers, then every call that does not rebuild the object has the result and the effect that it has on a plain sorted set or dict, and the answers they are given are these: during add, discard and remove, what the built-in set answers (in, len, count, set comparisons, copy, &, -, ^) is as after the call and what the sorted list answers (iteration, positions, bisect, irange, index) as before it; during `sd[k] = v` and pop everything is as before the call; during setdefault and `del sd[k]` lookups are as after the call and the order of the keys as before it, and during `del sd[k]` a query that needs the position and the value of k raises KeyError. If they compare correctly whatever they are told, every history of calls, bulk calls such as update, the set operators in place, slice deletion and _reset included, has the results and the effects that it has on a plain sorted set or dict, and in the end both stores inside hold the same values.", "quantifier": "all orders, all sets and dicts a client can have, all histories of calls, all programs of the comparisons and the key function with any queries in any number and nesting, at any moment of a call", "why_tests_cant": "A test fixes a few comparison functions and the places at which they call back; the promise is about all such programs and every comparison of every call, and the answers differ between the two stores inside.", "anchors": ["src/sortedcontainers/sortedset.py:SortedSet.add", "src/sortedcontainers/sortedset.py:SortedSet.discard", "src/sortedcontainers/sortedset.py:SortedSet.remove", "src/sortedcontainers/sortedset.py:SortedSet._fromset", "src/sortedcontainers/sortedset.py:SortedSet.union", "src/sortedcontainers/sorteddict.py:SortedDict.__setitem__", "src/sortedcontainers/sorteddict.py:SortedDict.__delitem__", "src/sortedcontainers/sorteddict.py:SortedDict.pop", "src/sortedcontainers/sorteddict.py:SortedDict.setdefault", "src/sortedcontainers/sorteddict.py:SortedDict.copy", "src/sortedcontainers/sortedlist.py:SortedList.add", "src/sortedcontainers/sortedlist.py:SortedKeyList.add", "src/sortedcontainers/sortedset.py:SortedSet.update", "src/sortedcontainers/sorteddict.py:SortedDict.update"]}
{"id": "C86", "title": "Containers that show the same contents are interchangeable", "statement": "Two containers with the same order that show the same contents now answer every history of calls alike and show the same contents after it, whatever they were built from, in which order and by which calls, whatever their load factors, whether a key function or the values themselves give the order, and in whatever order the built-in sets inside yield their values. For dicts this holds even if keys that are different have no order between them. Sorted sets whose order tells different values apart and that have the same members, or are constructed from the same values in any order with any repetitions and any hash seed, show the same contents; so do sorted dicts that are equal (==) whose order tells all keys apart.", "quantifier": "all pairs of reachable lists, sets and dicts, all orders, all iteration orders of the built-in sets, all histories of calls (for lists: all but comparisons of whole sequences, which use the operators of the values and not the order)", "why_tests_cant": "A test compares a few pairs of objects with a few pasts under one hash seed; that no past can ever be told needs all pasts and all futures.", "anchors": ["src/sortedcontainers/sortedset.py:SortedSet.update", "src/sortedcontainers/sortedset.py:SortedSet.__init__", "src/sortedcontainers/sorteddict.py:SortedDict.update", "src/sortedcontainers/sorteddict.py:SortedDict.__setitem__", "src/sortedcontainers/sortedlist.py:SortedList.update", "src/sortedcontainers/sortedlist.py:SortedKeyList"]}
{"id": "C87", "title": "Space follows the contents", "statement": "The Python lists inside a sorted list, set or dict that now has n values hold at most n + 5 * (n / h + 1) references and numbers, where h is half the load factor (at least 1); with a key function at most 2 n + 6 * (n / h + 1). So deleting gives space back whatever the object held before, an empty container holds nothing, and with the default load factor the overhead is about one percent.", "quantifier": "all reachable lists, sets and dicts, all load factors, all histories of calls before", "why_tests_cant": "The bound must hold after every history of insertions, deletions, bulk updates, index builds and _reset calls; a test measures a few.", "anchors": ["src/sortedcontainers/sortedlist.py:SortedList._delete", "src/sortedcontainers/sortedlist.py:SortedList._expand", "src/sortedcontainers/sortedlist.py:SortedList._build_index", "src/sortedcontainers/sortedlist.py:SortedList.update", "src/sortedcontainers/sortedlist.py:SortedKeyList._delete"]}
{"id": "C88", "title": "Several threads change one sorted list", "statement": "Several threads call the methods of one SortedList or SortedKeyList (all that change it, all queries, the searches by key, copy, +, *, the comparisons, _reset, and those it refuses) without a lock. Whatever the schedule: the list never shows, and no call ever returns, a value that was neither in it at the start nor passed to it by one of the threads; calls raise IndexError, ValueError, NotImplementedError if one of the calls is of a method that sorted lists refuse, or what comparisons and the key function raise, nothing else; wherever the threads have stopped, clear() makes the list as good as new. Threads that only add values and look at the list do not hang, whatever the others of that kind do. More is not true: values may get lost or appear twice although all calls return, a comparison may answer that the list equals a sequence that it never equals, and a call may go round for ever.", "quantifier": "all lists, all numbers of threads, all sequences of calls of each, all schedules (turns between any two accesses to the list object or a sublist), all comparisons including raising ones", "why_tests_cant": "A test sees a few schedules of a few calls; the switch between two accesses that matters may come once in a million runs.", "anchors": ["src/sortedcontainers/sortedlist.py:SortedList.add", "src/sortedcontainers/sortedlist.py:SortedList._expand", "src/sortedcontainers/sortedlist.py:SortedList.update", "src/sortedcontainers/sortedlist.py:SortedList.discard", "src/sortedcontainers/sortedlist.py:SortedList.remove", "src/sortedcontainers/sortedlist.py:SortedList._delete", "src/sortedcontainers/sortedlist.py:SortedList._loc", "src/sortedcontainers/sortedlist.py:SortedList._pos", "src/sortedcontainers/sortedlist.py:SortedList._build_index", "src/sortedcontainers/sortedlist.py:SortedList.pop", "src/sortedcontainers/sortedlist.py:SortedList.clear", "src/sortedcontainers/sortedlist.py:SortedList.__getitem__", "src/sortedcontainers/sortedlist.py:SortedList.__delitem__", "src/sortedcontainers/sortedlist.py:SortedKeyList.add", "src/sortedcontainers/sortedlist.py:SortedKeyList._expand", "src/sortedcontainers/sortedlist.py:SortedKeyList.update", "src/sortedcontainers/sortedlist.py:SortedKeyList.remove", "src/sortedcontainers/sortedlist.py:SortedKeyList._delete", "src/sortedcontainers/sortedlist.py:SortedKeyList.count", "src/sortedcontainers/sortedlist.py:SortedList.islice", "src/sortedcontainers/sortedlist.py:SortedList.irange", "src/sortedcontainers/sortedlist.py:SortedList.index", "src/sortedcontainers/sortedlist.py:SortedKeyList.irange_key", "src/sortedcontainers/sortedlist.py:SortedKeyList.index", "src/sortedcontainers/sortedlist.py:SortedList.__make_cmp", "src/sortedcontainers/sortedlist.py:SortedList.copy", "src/sortedcontainers/sortedlist.py:SortedList.__add__", "src/sortedcontainers/sortedlist.py:SortedList.__mul__", "src/sortedcontainers/sortedlist.py:SortedList.__imul__", "src/sortedcontainers/sortedlist.py:SortedList._reset", "src/sortedcontainers/sortedlist.py:SortedKeyList.copy", "src/sortedcontainers/sortedlist.py:SortedKeyList.__add__", "src/sortedcontainers/sortedlist.py:SortedKeyList.__mul__"]}
{"id": "C89", "title": "Threads share a sorted list under a lock", "statement": "Several threads call the methods of one SortedList or SortedKeyList (all that change it, all queries, the searches by key, copy, +, *, the comparisons, _reset, and those it refuses), each call inside 'with lock:'. Whatever the schedule, and wherever in a call the other threads get their turns: the answers and exceptions are those of a plain sorted list to the same calls made one after the other in the order in which the lock was given back; each thread's own calls come in that order as it makes them; when nobody is in a call, the list holds what the plain list holds and goes on behaving like it; every call ends, and if all threads get turns again and again, all calls of all threads do.", "quantifier": "all lists reachable by calls, all numbers of threads, all sequences of calls of each, all finite schedules (safety) and all fair infinite ones (termination), all lawful orders and keys", "why_tests_cant": "That every interleaving of locked calls equals a sequential run cannot be tested for all numbers of threads and schedules; it also needs each call, seen access by access, to do exactly what it does when seen as a whole.", "anchors": ["src/sortedcontainers/sortedlist.py:SortedList.add", "src/sortedcontainers/sortedlist.py:SortedList._expand", "src/sortedcontainers/sortedlist.py:SortedList.update", "src/sortedcontainers/sortedlist.py:SortedList.discard", "src/sortedcontainers/sortedlist.py:SortedList.remove", "src/sortedcontainers/sortedlist.py:SortedList._delete", "src/sortedcontainers/sortedlist.py:SortedList._loc", "src/sortedcontainers/sortedlist.py:SortedList._pos", "src/sortedcontainers/sortedlist.py:SortedList._build_index", "src/sortedcontainers/sortedlist.py:SortedList.pop", "src/sortedcontainers/sortedlist.py:SortedList.clear", "src/sortedcontainers/sortedlist.py:SortedList.__getitem__", "src/sortedcontainers/sortedlist.py:SortedList.__delitem__", "src/sortedcontainers/sortedlist.py:SortedKeyList.add", "src/sortedcontainers/sortedlist.py:SortedKeyList._expand", "src/sortedcontainers/sortedlist.py:SortedKeyList.update", "src/sortedcontainers/sortedlist.py:SortedKeyList.remove", "src/sortedcontainers/sortedlist.py:SortedKeyList._delete", "src/sortedcontainers/sortedlist.py:SortedKeyList.count", "src/sortedcontainers/sortedlist.py:SortedList.islice", "src/sortedcontainers/sortedlist.py:SortedList.irange", "src/sortedcontainers/sortedlist.py:SortedList.index", "src/sortedcontainers/sortedlist.py:SortedKeyList.irange_key", "src/sortedcontainers/sortedlist.py:SortedKeyList.index", "src/sortedcontainers/sortedlist.py:SortedList.__make_cmp", "src/sortedcontainers/sortedlist.py:SortedList.copy", "src/sortedcontainers/sortedlist.py:SortedList.__add__", "src/sortedcontainers/sortedlist.py:SortedList.__mul__", "src/sortedcontainers/sortedlist.py:SortedList.__imul__", "src/sortedcontainers/sortedlist.py:SortedList._reset", "src/sortedcontainers/sortedlist.py:SortedKeyList.copy", "src/sortedcontainers/sortedlist.py:SortedKeyList.__add__", "src/sortedcontainers/sortedlist.py:SortedKeyList.__mul__"]}
{"id": "C90", "title": "Threads share a sorted set or dict under a lock", "statement": "Several threads call the methods of one SortedSet (add, discard, remove, pop, del, clear, update and the other in-place set operations, in, len, subscripts and slices, index, bisections, irange, islice, iteration, comparisons, copies, set algebra, _reset) or of one SortedDict (assignment, del, clear, pop, popitem, peekitem, setdefault, update, lookups, len, iteration, items, values, views by position and by slice, index, bisections, irange, islice, copies, |, _reset), each call inside 'with lock:'. Whatever the schedule, and wherever in a call the other threads get their turns: the answers and exceptions are those of a plain set or dict to the same calls made one after the other in the order in which the lock was given back; each thread's own calls come in that order as it makes them; when nobody is in a call, the built-in set or dict and the sorted list agree with each other and with the plain one, and all later calls answer like it; every call ends, and if all threads get turns again and again, all calls of all threads do.", "quantifier": "all sets and dicts reachable by calls, with and without key function, all numbers of threads, all sequences of calls of each, all finite schedules (safety) and all fair infinite ones (termination), all lawful orders and keys", "why_tests_cant": "A set or dict keeps its contents twice, and a thread can be suspended between the change of the one store and that of the other; that a lock around each call hides this for every schedule, number of threads and call cannot be tested.", "anchors": ["src/sortedcontainers/sortedset.py:SortedSet.add", "src/sortedcontainers/sortedset.py:SortedSet.clear", "src/sortedcontainers/sortedset.py:SortedSet.discard", "src/sortedcontainers/sortedset.py:SortedSet.pop", "src/sortedcontainers/sortedset.py:SortedSet.remove", "src/sortedcontainers/sortedset.py:SortedSet.__delitem__", "src/sortedcontainers/sortedset.py:SortedSet.__getitem__", "src/sortedcontainers/sortedset.py:SortedSet.update", "src/sortedcontainers/sortedset.py:SortedSet.difference_update", "src/sortedcontainers/sortedset.py:SortedSet.intersection_update", "src/sortedcontainers/sortedset.py:SortedSet.symmetric_difference_update", "src/sortedcontainers/sortedset.py:SortedSet.union", "src/sortedcontainers/sortedset.py:SortedSet.copy", "src/sortedcontainers/sorteddict.py:SortedDict.__setitem__", "src/sortedcontainers/sorteddict.py:SortedDict.__delitem__", "src/sortedcontainers/sorteddict.py:SortedDict.clear", "src/sortedcontainers/sorteddict.py:SortedDict.pop", "src/sortedcontainers/sorteddict.py:SortedDict.popitem", "src/sortedcontainers/sorteddict.py:SortedDict.peekitem", "src/sortedcontainers/sorteddict.py:SortedDict.setdefault", "src/sortedcontainers/sorteddict.py:SortedDict.update", "src/sortedcontainers/sorteddict.py:SortedDict.copy", "src/sortedcontainers/sorteddict.py:SortedDict.__or__", "src/sortedcontainers/sorteddict.py:SortedDict.__ror__", "src/sortedcontainers/sorteddict.py:_view_delitem"]}
{"id": "C91", "title": "Several threads change one sorted set or dict without a lock", "statement": "Several threads call the methods of one SortedSet or SortedDict (those of C90) and nothing protects it. The two stores may then get out of step: two threads that add the same value leave it twice in the sequence, discard may raise KeyError, two del ss[:2] may leave members that iteration does not yield, two setdefault calls may each report their own default, and an add during _reset may leave a member that iteration does not yield, and ss.add or sd[key] = value may never return if another thread calls update. But whatever the schedule, at every point: no value is shown by membership, iteration or any answer that was not in the object at the start or passed to it by one of the threads (or to the call itself, by union, symmetric_difference, |, or the default of pop); a value of a dict is shown only for a key equal to one it was stored with; calls return or raise IndexError, ValueError or KeyError, nothing else (that no value is made up holds whatever comparisons and the key function do; then calls may also raise what these raise). When the threads have stopped, wherever they are, ss.symmetric_difference_update([]) repairs the set and loses no member, sd.update(other) with an other of more than a tenth of its size repairs a non-empty dict, and clear() makes either as good as new (whatever comparisons and the key function did before). Threads that only add members (ss.add) or items (sd[key] = value, setdefault) and query the object do not hang: each ends if it gets turns again and again, whatever comparisons and the key function do.", "quantifier": "all sets and dicts reachable by calls, with and without key function, all numbers of threads, all sequences of calls of each, all schedules, stopped at any point, all later calls, all lawful orders and keys", "why_tests_cant": "The damage depends on where threads are suspended, and there are too many schedules to try; that none of them mixes up keys and values, invents a value, raises something else or makes the object irreparable cannot be tested.", "anchors": ["src/sortedcontainers/sortedset.py:SortedSet.add", "src/sortedcontainers/sortedset.py:SortedSet.clear", "src/sortedcontainers/sortedset.py:SortedSet.discard", "src/sortedcontainers/sortedset.py:SortedSet.pop", "src/sortedcontainers/sortedset.py:SortedSet.remove", "src/sortedcontainers/sortedset.py:SortedSet.__delitem__", "src/sortedcontainers/sortedset.py:SortedSet.__getitem__", "src/sortedcontainers/sortedset.py:SortedSet.update", "src/sortedcontainers/sortedset.py:SortedSet.difference_update", "src/sortedcontainers/sortedset.py:SortedSet.intersection_update", "src/sortedcontainers/sortedset.py:SortedSet.symmetric_difference_update", "src/sortedcontainers/sortedset.py:SortedSet.union", "src/sortedcontainers/sortedset.py:SortedSet.copy", "src/sortedcontainers/sorteddict.py:SortedDict.__setitem__", "src/sortedcontainers/sorteddict.py:SortedDict.__delitem__", "src/sortedcontainers/sorteddict.py:SortedDict.clear", "src/sortedcontainers/sorteddict.py:SortedDict.pop", "src/sortedcontainers/sorteddict.py:SortedDict.popitem", "src/sortedcontainers/sorteddict.py:SortedDict.peekitem", "src/sortedcontainers/sorteddict.py:SortedDict.setdefault", "src/sortedcontainers/sorteddict.py:SortedDict.update", "src/sortedcontainers/sorteddict.py:SortedDict.copy", "src/sortedcontainers/sorteddict.py:SortedDict.__or__", "src/sortedcontainers/sorteddict.py:SortedDict.__ror__", "src/sortedcontainers/sorteddict.py:_view_delitem"]}
{"id": "C92", "title": "sd.iloc is one live keys view per sorted dict", "statement": "Reading sd.iloc for the first time issues a DeprecationWarning and gives a new view; it changes no dict and no sorted dict. From then on, whatever happens to sd and to other dicts, sd.iloc is this same view and no warning is issued, and every call on it (len, iteration, indexing, slicing, deletion) is in every respect the call on sd.keys(). No other sorted dict has this view as its iloc: copies, unpickled dicts and results of | have none until theirs is read, and then get one of their own.", "quantifier": "all histories of calls on any number of dicts, sorted dicts and views before and after sd.iloc is read, all calls on the view, all comparisons, also ones that raise or contradict each other", "why_tests_cant": "A cached attribute that outlives clear, update or a failed call, or that a copy inherits, shows only after particular histories, and there is no bound on the histories.", "anchors": ["src/sortedcontainers/sorteddict.py:SortedDict.iloc", "src/sortedcontainers/sorteddict.py:SortedKeysView", "src/sortedcontainers/sorteddict.py:SortedDict.copy", "src/sortedcontainers/sorteddict.py:SortedDict.__reduce__", "src/sortedcontainers/sorteddict.py:SortedDict.__or__"]}
{"id": "C93", "title": "Threads under a lock, whatever comparisons and key functions do", "statement": "Several threads call the methods of one SortedList, SortedKeyList, SortedSet or SortedDict, each call under one lock that is given back when the call returns or raises. Nothing is assumed of comparisons and key functions: they may raise or contradict each other. At every point of every schedule, the calls that have ended, also those that raised, have the answers they have one after the other in that order, whenever no thread is in a call the object is as these calls leave it, and each thread's calls come in its own order. An add, remove, discard, in, bisect (by value or key) or count on a list, bisect on a set or dict, sd[key] = value or sd.pop(key) in which a comparison or the key function raises leaves no trace: the other calls of all threads have the answers and the effect they have without it (if the exception is not IndexError or ValueError, which lists raise themselves). Calls on lists that only read (in, len, iteration, irange, comparison with a sequence, copy, +, *; count on a SortedKeyList) leave none whether they raise or not; nor do those on sets (in, len, count, iteration, irange, comparisons with sets, copy, |, &, -, ^) and dicts (sd[key], get, in, len, iteration over keys, items and values, irange, copy, |). Threads that only query a list, set or dict change nothing of it, whether their calls raise or not: len, iteration, in on sets and sd[key] always answer the same. An update or += of a list with values that sorted cannot sort leaves none either; with values that can be compared with each other but not with those in the list it does: its values show in iteration and are not counted. ss.add and sd.setdefault that raise do leave one: the value is a member, the key has its value, and iteration does not yield it. ss.remove, ss.discard and del sd[key] that raise leave one, too: the value is no longer a member, the key no longer in the dict. No object ever shows a value that was not in it at the start or passed to it by a thread (or to the call itself, or equal to such a value in a set), and a dict shows a value only for a key equal to the one it came with; calls raise IndexError, ValueError, KeyError (sets and dicts), NotImplementedError (from a method that sorted lists refuse), or what a comparison or the key function raises. Between calls, clear() makes an object as good as new, ss.symmetric_difference_update([]) repairs a set and loses no member, and sd.update(other) with an other of more than a tenth of its size repairs a non-empty dict, if from then on comparisons are a total order. Threads that only add and query get all their calls done if each gets turns again and again: a call that raises keeps no lock and no loop runs forever.", "quantifier": "all lists, sets and dicts in any state, all comparisons and key functions, all numbers of threads, all sequences of calls of each, all schedules", "why_tests_cant": "Which call raises depends on what the other threads have added before, so the number of cases is that of all schedules times all behaviours of comparisons.", "anchors": ["src/sortedcontainers/sortedlist.py:SortedList.add", "src/sortedcontainers/sortedlist.py:SortedKeyList.add", "src/sortedcontainers/sortedlist.py:SortedList.clear", "src/sortedcontainers/sortedlist.py:SortedList.update", "src/sortedcontainers/sortedset.py:SortedSet.add", "src/sortedcontainers/sorteddict.py:SortedDict.__setitem__", "src/sortedcontainers/sorteddict.py:SortedDict.setdefault", "src/sortedcontainers/sorteddict.py:SortedDict.pop", "src/sortedcontainers/sorteddict.py:SortedDict.__delitem__", "src/sortedcontainers/sortedset.py:SortedSet.remove", "src/sortedcontainers/sortedset.py:SortedSet.discard", "src/sortedcontainers/sortedlist.py:SortedList.remove", "src/sortedcontainers/sortedlist.py:SortedList.discard", "src/sortedcontainers/sortedlist.py:SortedKeyList.remove", "src/sortedcontainers/sortedlist.py:SortedKeyList.discard"]}
