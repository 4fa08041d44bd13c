import Verif.Model.Counted
/-!
# Updates with many values, with a meter

`update` of `Model/SortedList.lean` and `Model/SortedKeyList.lean`, line for line, with the meter of `Model/Counted.lean`.  Counted are
comparisons (outside of `sorted`), calls of the key function (`sorted` calls it once for each value it is given), index nodes, the
values given to `sorted`, and the entries of sublists that are written.  The writes of the bulk paths to the top-level lists are not
counted.

All line numbers refer to /repo/src/sortedcontainers/sortedlist.py.
-/

namespace Verif
namespace Counted
variable {α κ : Type}

/-- The tail of `update` of a SortedList (sortedlist.py:290-296): the slices copy all the values. -/
def SL.fill (values : List α) : CPy (St α α) Unit := do
  moving values.length
  CPy.free (Verif.SL.fill values)

/-- `update` of a SortedList (sortedlist.py:261-296) -/
def SL.update (E : CEnv α) (iterable : List α) : CPy (St α α) Unit := do
  let values ← E.sorted iterable
  let s ← CPy.free Py.get
  if s.maxes ≠ [] then
    if values.length * 4 ≥ s.len then
      CPy.free (Py.modify fun s => { s with lists := s.lists ++ [values] })
      let s ← CPy.free Py.get
      let values ← E.sorted (Core.iter s)
      CPy.free Verif.SL.clear
      SL.fill values
    else
      Py.forEach (SL.add E) values
  else
    SL.fill values

/-- The tail of `update` of a SortedKeyList (sortedlist.py:1790-1797): the slices copy all the values, and the list of keys of each
sublist is written. -/
def SKL.fill (K : CKEnv α κ) (values : List α) : CPy (St α κ) Unit := do
  let s ← CPy.free Py.get
  moving values.length
  let subs ← CPy.free (Py.lift (Core.chunks s.load values))
  CPy.free (Py.modify fun s => { s with lists := s.lists ++ subs })
  let s ← CPy.free Py.get
  Py.forEach (fun l => do
    let ks ← Py.mapEach K.key l
    moving ks.length
    CPy.free (Py.modify fun s => { s with keys := s.keys ++ [ks] })) s.lists
  let s ← CPy.free Py.get
  let ms ← CPy.free (Py.lift (mapE lastItem s.keys))
  CPy.free (Py.modify fun s => { s with maxes := s.maxes ++ ms })
  CPy.free (Py.modify fun s => { s with len := values.length })
  CPy.free (Py.modify fun s => { s with index := [] })

/-- `update` of a SortedKeyList (sortedlist.py:1759-1799) -/
def SKL.update (K : CKEnv α κ) (iterable : List α) : CPy (St α κ) Unit := do
  let values ← K.sortedByKey iterable
  let s ← CPy.free Py.get
  if s.maxes ≠ [] then
    if values.length * 4 ≥ s.len then
      CPy.free (Py.modify fun s => { s with lists := s.lists ++ [values] })
      let s ← CPy.free Py.get
      let values ← K.sortedByKey (Core.iter s)
      CPy.free Verif.SKL.clear
      SKL.fill K values
    else
      Py.forEach (SKL.add K) values
  else
    SKL.fill K values

end Counted
end Verif
