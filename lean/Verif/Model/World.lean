import Verif.Model.Heap
import Verif.HeapSpec
/-!
# A client with several lists and sorted lists

All sublists of all sorted lists, and all lists of the client, are list objects in one memory (Model/Heap.lean).
All line numbers refer to /repo/src/sortedcontainers/sortedlist.py.
-/

namespace Verif
namespace Heap
variable {α κ : Type}

/-- The methods of a sorted list on list objects; `value` has the methods that only read sublists.
(Dispatch of the model: each call goes to the definition of its method, which cites its lines.) -/
structure HeapAPI (α κ : Type) where
  M : Core.Methods α κ
  add : α → Run α κ Unit
  discard : α → Run α κ Unit
  remove : α → Run α κ Unit
  value : ListAPI (St α κ) α

/-- SortedList (sortedlist.py:36-1586) -/
def SL.heapAPI (E : Env α) : HeapAPI α α :=
  { M := SL.methods E, add := SL.add E, discard := SL.discard E, remove := SL.remove E, value := SL.api E }

/-- SortedKeyList (sortedlist.py:1594-2526) -/
def SKL.heapAPI (K : KEnv α κ) : HeapAPI α κ :=
  { M := SKL.methods K, add := SKL.add K, discard := SKL.discard K, remove := SKL.remove K, value := SKL.api K }

namespace HeapAPI
variable (H : HeapAPI α κ)

/-- `self.__class__(iterable)` (sortedlist.py:92-116, 1620-1653), for an object that is read once and dropped. -/
def values (src : Source α) : Run α κ (List α) := fun c =>
  match H.M.update src { mem := c.mem, self := Obj.empty } with
  | (.ok (), c') => (.ok (Verif.Core.iter c'.view), { mem := c'.mem, self := c.self })
  | (.error e, c') => (.error e, { mem := c'.mem, self := c.self })

/-- One call of the API.  Queries run on the values.
(Dispatch of the model: each call goes to the definition of its method, which cites its lines.) -/
def call : Op α → Run α κ (Verif.Out α)
  | .add v => Spec.out (fun _ => .none) (H.add v)
  | .update xs => Spec.out (fun _ => .none) (H.M.update (.values xs))
  | .clear => Spec.out (fun _ => .none) H.M.clear
  | .discard v => Spec.out (fun _ => .none) (H.discard v)
  | .remove v => Spec.out (fun _ => .none) (H.remove v)
  | .getSlice sl => Spec.out .vals (do read (← Core.getSlice H.M.ilog2 sl))
  | .delInt i => Spec.out (fun _ => .none) (Core.delInt H.M i)
  | .delSlice sl => Spec.out (fun _ => .none) (Core.delSlice H.M sl)
  | .pop i => Spec.out .val (Core.pop H.M i)
  | .iadd xs => Spec.out (fun _ => .none) (Core.iadd H.M (.values xs))
  | .imul n => Spec.out (fun _ => .none) (Core.imul H.M n)
  | .reset load => Spec.out (fun _ => .none) (Core.reset H.M load)
  | .copy => Spec.out .vals (fun c => H.values (.values (Verif.Core.iter c.view)) c)
  | .concat xs => Spec.out .vals (do H.values (.list (← Core.concatArg (.values xs))))
  | .mul n => Spec.out .vals (do H.values (.list (← Core.repeated n)))
  | op => reading (H.value.step op)

end HeapAPI

/-- The memory, the client's lists and the sorted lists.  (Scaffolding of the model: no code of /repo.) -/
structure World (α κ : Type) where
  mem : Mem α κ
  lists : List Addr
  objs : List (Obj κ)

namespace World
variable (H : HeapAPI α κ)

/-- Nothing yet.  (Scaffolding of the model: no code of /repo.) -/
def empty : World α κ := { mem := { vals := [], keys := [] }, lists := [], objs := [] }

/-- A method call on the `j`-th sorted list.  (Scaffolding of the model: no code of /repo.) -/
def run {β : Type} (w : World α κ) (j : Nat) (o : Obj κ) (m : Run α κ β) : Except PyErr β × World α κ :=
  let r := m { mem := w.mem, self := o }
  (r.1, { w with mem := r.2.mem, objs := w.objs.set j r.2.self })

/-- `self.__class__(iterable)` (sortedlist.py:92-116, 1620-1653); the client keeps the object. -/
def build (src : Source α) (w : World α κ) : Except PyErr (ShareOut α) × World α κ :=
  match H.M.update src { mem := w.mem, self := Obj.empty } with
  | (.ok (), c) => (.ok (.newSorted w.objs.length), { w with mem := c.mem, objs := w.objs ++ [c.self] })
  | (.error e, c) => (.error e, { w with mem := c.mem })

/-- An argument as the method gets it: a list by reference; a sorted list as something that yields its values (`__iter__`,
sortedlist.py:847-856; every method takes all values before it changes anything). -/
def source (w : World α κ) : Arg α → Option (Source α)
  | .list i => w.lists[i]?.map .list
  | .sorted j => w.objs[j]?.map fun o => .values (Verif.Core.iter (Ctx.view { mem := w.mem, self := o }))
  | .values xs => some (.values xs)

/-- One event.  (Dispatch of the model: each call goes to the definition of its method, which cites its lines.) -/
def step : ShareEvent α → Py (World α κ) (ShareOut α)
  | .newList xs => fun w =>
    (.ok (.newList w.lists.length),
      { w with mem := { w.mem with vals := w.mem.vals ++ [xs] }, lists := w.lists ++ [w.mem.vals.length] })
  | .mutate i f => fun w =>
    match w.lists[i]? with
    | some a => (.ok .none, { w with mem := { w.mem with vals := w.mem.vals.set a (f (w.mem.vals.getD a [])) } })
    | none => (.ok .noSuch, w)
  | .read i => fun w =>
    match w.lists[i]? with
    | some a => (.ok (.value (.vals (w.mem.vals.getD a []))), w)
    | none => (.ok .noSuch, w)
  | .construct arg => fun w =>
    match w.source arg with
    | some src => w.build H src
    | none => (.ok .noSuch, w)
  | .call j op => fun w =>
    match w.objs[j]? with
    | some o =>
      let r := w.run j o (H.call op)
      (r.1.map .value, r.2)
    | none => (.ok .noSuch, w)
  | .update j arg => fun w =>
    match w.objs[j]?, w.source arg with
    | some o, some src =>
      let r := w.run j o (H.M.update src)
      (r.1.map fun _ => .none, r.2)
    | _, _ => (.ok .noSuch, w)
  | .iadd j arg => fun w =>
    match w.objs[j]?, w.source arg with
    | some o, some src =>
      let r := w.run j o (Core.iadd H.M src)
      (r.1.map fun _ => .none, r.2)
    | _, _ => (.ok .noSuch, w)
  -- sortedlist.py:1366-1388, 2386-2409
  | .concat j arg => fun w =>
    match w.objs[j]?, w.source arg with
    | some o, some src =>
      match w.run j o (Core.concatArg src) with
      | (.ok a, w) => w.build H (.list a)
      | (.error e, w) => (.error e, w)
    | _, _ => (.ok .noSuch, w)
  -- sortedlist.py:1189-1199, 2290-2300
  | .copy j => fun w =>
    match w.source (.sorted j) with
    | some src => w.build H src
    | none => (.ok .noSuch, w)
  -- sortedlist.py:1411-1429, 2411-2428
  | .mul j n => fun w =>
    match w.objs[j]? with
    | some o =>
      match w.run j o (Core.repeated n) with
      | (.ok a, w) => w.build H (.list a)
      | (.error e, w) => (.error e, w)
    | none => (.ok .noSuch, w)
  -- sortedlist.py:745-831
  | .slice j sl => fun w =>
    match w.objs[j]? with
    | some o =>
      match w.run j o (Core.getSlice H.M.ilog2 sl) with
      | (.ok a, w) => (.ok (.newList w.lists.length), { w with lists := w.lists ++ [a] })
      | (.error e, w) => (.error e, w)
    | none => (.ok .noSuch, w)
  -- sortedlist.py:1500-1502, 2430-2432
  | .reduceArgs j => fun w =>
    match w.objs[j]? with
    | some o =>
      match w.run j o flatten with
      | (.ok a, w) => (.ok (.newList w.lists.length), { w with lists := w.lists ++ [a] })
      | (.error e, w) => (.error e, w)
    | none => (.ok .noSuch, w)

/-- The values that the client sees.  (Scaffolding of the model: no code of /repo.) -/
def contents (w : World α κ) : Store α :=
  { lists := w.lists.map fun a => w.mem.vals.getD a []
    sorted := w.objs.map fun o => Verif.Core.iter (Ctx.view { mem := w.mem, self := o }) }

end World
end Heap
end Verif
