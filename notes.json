{
 "C31": {
  "note": "Holds for copy, +, *, in-place forms, pickling. False for n * skl (sortedlist.py:1429, inherited __rmul__ does not pass the key): the theorem with suffix _partial covers the rest, and a refutation with a concrete witness is among the theorems."
 },
 "C42": {
  "note": "Holds for all operators with the SortedSet on the left. False for iterable - ss (__rsub__ comes from the Set mixin, which calls the class without key); refuted with a concrete witness."
 },
 "C34": {
  "note": "False of the code: update appends to _lists before a sort that may raise (sortedlist.py:280-282, 1780-1782). Refuted by C34_update_not_atomic and C34_update_key_not_atomic; the _partial theorems describe everything that can happen."
 },
 "C43": {
  "note": "False of the code: add puts the value into _set before _list.add may raise (sortedset.py:335-338). Refuted by C43_add_not_atomic; C43_add_partial states what holds."
 },
 "C49": {
  "note": "Holds for sd[k] = v (C49_failing_setitem). False for setdefault (item stored before list add) and update (dict updated, list cleared before list update may raise), refuted with concrete witnesses; the _partial theorems state what holds."
 },
 "C60": {
  "note": "The exclusion of clients that call __reduce__ by hand is needed: C60_reduce_shares is a witness (sortedset.py:669 hands out the internal set)."
 },
 "C61": {
  "note": "C61_check_misses_index_shape and C61_check_misses_repetition show that the two exclusions are needed."
 },
 "C79": {
  "note": "Modification of stored values is a change of the environment between calls. For sets and dicts the contents must be in order whenever a method is called (otherwise the two stores can come apart, C57/C63)."
 },
 "C80": {
  "note": "C80_dict_empty_differs and C80_dict_empty_torn are witnesses of what does not hold for an empty dict. A call inside a generator is one whole call; iterators kept open between two yields are C57, C69 and C75."
 },
 "C81": {
  "note": "C81_dict_few is the case in which a second __init__ damages a dict."
 },
 "C82": {
  "note": "The examples in Props/Writers.lean show that the length and positions can be damaged for good, which is why the theorems speak of values only. The calls of the changing thread in the first half are restricted to Op.byValue; in the second half to calls that return."
 },
 "C83": {
  "note": "One call of a method of the built-in set or dict is one step (dict.update with pairs: one step for each pair); a __hash__ or __eq__ written in Python that is suspended inside such a call is not modelled. The glances theorems ask for calls that return."
 },
 "C84": {
  "note": "One call of a method of the built-in set or dict is one step, or a look and a write; a __hash__ or __eq__ written in Python that is suspended inside such a call is not modelled. What the methods of the sorted list do when several threads are in them is left open, but for the exceptions they raise (C84_list_raises, about the programs of Model/Writers.lean)."
 },
 "C85": {
  "note": "Hashing and == inside the built-in set and dict are not code of the client. The calls that rebuild the sorted list or change it value by value (update, -=, &=, ^=, slice deletion, _reset) are covered by the two _steadfast theorems, for code that is right whatever it is told; what such code is told in the middle of these calls is not stated."
 },
 "C92": {
  "note": "iloc as an event of the world of references of C65, without any assumption on comparisons; C65_no_sharing covers it too. A warning filter that turns the warning into an exception is not modelled."
 }
}