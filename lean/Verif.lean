import Verif.Py
import Verif.Op
import Verif.Spec
import Verif.Model.Core
import Verif.Model.SortedList
import Verif.Model.SortedKeyList
import Verif.Model.API
import Verif.Proofs.API
import Verif.Proofs.Laws
import Verif.Proofs.Check
import Verif.Proofs.Load
import Verif.Props.Demo
import Verif.Props.SortedList
import Verif.Props.SortedKeyList
import Verif.Model.SortedSet
import Verif.SetSpec
import Verif.Proofs.Distinct
import Verif.Proofs.SortedSet
import Verif.Proofs.SetHistory
import Verif.Props.DemoSet
import Verif.Props.SortedSet
import Verif.PyDict
import Verif.DictSpec
import Verif.Model.SortedDict
import Verif.Proofs.PyDict
import Verif.Proofs.SortedDict
import Verif.Props.SortedDict
import Verif.Wild
import Verif.Proofs.Like
import Verif.Proofs.Whole
import Verif.Proofs.Robust
import Verif.Proofs.RobustKey
import Verif.Props.DemoWild
import Verif.Props.Failure
import Verif.Proofs.Snug
import Verif.Model.Counted
import Verif.Proofs.Counted
import Verif.Proofs.CountedSL
import Verif.Proofs.CountedSKL
import Verif.Proofs.CountedSize
import Verif.Props.Counted
import Verif.Model.Views
import Verif.Proofs.Views
import Verif.Proofs.Keeps
import Verif.Props.Views
import Verif.IterSpec
import Verif.Model.Iter
import Verif.Proofs.Iter
import Verif.Model.Heap
import Verif.Proofs.Heap
import Verif.HeapSpec
import Verif.Model.World
import Verif.Proofs.World
import Verif.Props.Heap
import Verif.Props.Iter
import Verif.SetHeapSpec
import Verif.Model.SetHeap
import Verif.Proofs.SetHeap
import Verif.Proofs.SetWorld
import Verif.Proofs.SetSharing
import Verif.Props.SetSharing
import Verif.Proofs.Audit
import Verif.Props.Audit
import Verif.CtorSpec
import Verif.Model.Ctor
import Verif.Proofs.Ctor
import Verif.Props.Ctor
import Verif.WildSets
import Verif.Proofs.RobustAPI
import Verif.Proofs.WildSet
import Verif.Props.Recover
import Verif.Proofs.WildSetStep
import Verif.Proofs.WildDict
import Verif.Proofs.WildDictStep
import Verif.Props.WildSets
import Verif.DictHeapSpec
import Verif.Model.DictHeap
import Verif.Proofs.DictHeap
import Verif.Proofs.DictFrame
import Verif.Proofs.DictByRef
import Verif.Proofs.DictWorld
import Verif.Props.DictSharing
import Verif.Model.CountedAPI
import Verif.Proofs.Amortised
import Verif.Proofs.AmortisedOps
import Verif.Proofs.AmortisedHist
import Verif.Props.Amortised
import Verif.Model.CountedSets
import Verif.Costs
import Verif.Proofs.CountedSets
import Verif.Proofs.CountedPrices
import Verif.Props.CountedSets
import Verif.Model.CountedBulk
import Verif.Proofs.CountedBulk
import Verif.Proofs.CountedBulkSets
import Verif.Props.CountedBulk
import Verif.Model.IterHeap
import Verif.Proofs.Live
import Verif.Proofs.IterHeap
import Verif.Proofs.IterQuiet
import Verif.Props.IterHeap
import Verif.Model.Interrupt
import Verif.Cut
import Verif.Proofs.Interrupt
import Verif.Proofs.InterruptMut
import Verif.Proofs.InterruptKey
import Verif.Proofs.InterruptCore
import Verif.Proofs.InterruptCall
import Verif.Proofs.InterruptHist
import Verif.Props.Interrupt
import Verif.Model.Threads
import Verif.Readers
import Verif.Proofs.Threads
import Verif.Props.Threads
import Verif.Model.InterruptSets
import Verif.CutSets
import Verif.Proofs.InterruptSets
import Verif.Proofs.InterruptSS
import Verif.Proofs.InterruptSD
import Verif.Proofs.InterruptHistSets
import Verif.Props.InterruptSets
import Verif.Model.ThreadsSets
import Verif.Proofs.ThreadsSets
import Verif.Props.ThreadsSets
import Verif.ReprSpec
import Verif.Model.Repr
import Verif.Proofs.Repr
import Verif.Props.Repr
import Verif.Model.IterHeapSets
import Verif.Proofs.HeapList
import Verif.Proofs.IterBox
import Verif.Proofs.IterHeapSets
import Verif.Props.IterHeapSets
import Verif.ClientSpec
import Verif.Model.Reentrant
import Verif.Proofs.Reentrant
import Verif.Proofs.ReentrantSL
import Verif.Proofs.ReentrantBulk
import Verif.Proofs.ReentrantSKL
import Verif.Proofs.ReentrantSKLBulk
import Verif.Props.Reentrant
import Verif.EqSpec
import Verif.Ordered
import Verif.Proofs.Equality
import Verif.Proofs.EqualityKey
import Verif.Props.Equality
import Verif.EqSets
import Verif.Proofs.EqualitySets
import Verif.Props.EqualitySets
import Verif.Changing
import Verif.Proofs.Restored
import Verif.Props.Changing
import Verif.Model.Gen
import Verif.GenSpec
import Verif.Proofs.Gen
import Verif.Props.Gen
import Verif.Model.Reinit
import Verif.Proofs.Reinit
import Verif.Props.Reinit
import Verif.Model.Writers
import Verif.Moments
import Verif.Proofs.Writers
import Verif.Props.Writers
import Verif.Linear
import Verif.Proofs.Linear
import Verif.Proofs.LinearSets
import Verif.Props.WritersSets
import Verif.Owners
import Verif.Model.WritersSets
import Verif.Proofs.Owners
import Verif.Proofs.OwnersList
import Verif.Proofs.OwnersDict
import Verif.Proofs.OwnersAlone
import Verif.Proofs.OwnersAdds
import Verif.Props.Owners
import Verif.ClientSets
import Verif.Model.ReentrantSets
import Verif.Proofs.ReentrantAPI
import Verif.Proofs.ReentrantSets
import Verif.Proofs.ReentrantSetCalls
import Verif.Proofs.ReentrantDicts
import Verif.Proofs.ReentrantDictCalls
import Verif.Proofs.ReentrantSetBulk
import Verif.Proofs.ReentrantDictBulk
import Verif.Props.ReentrantSets
import Verif.Proofs.Alike
import Verif.Props.Alike
import Verif.Props.Space
import Verif.Model.Race
import Verif.Proofs.Race
import Verif.Proofs.RaceLists
import Verif.Proofs.RaceNew
import Verif.Proofs.RaceAloneNew
import Verif.Proofs.RaceCrowd
import Verif.Props.Race
import Verif.Proofs.RaceAlone
import Verif.Proofs.RaceAloneCore
import Verif.Proofs.RaceAloneSL
import Verif.Proofs.RaceAloneSKL
import Verif.Proofs.RaceAloneSlices
import Verif.Proofs.RaceAloneIndex
import Verif.Model.Locked
import Verif.Proofs.Locked
import Verif.Proofs.LockedSL
import Verif.Proofs.LockedSKL
import Verif.Model.RaceSets
import Verif.Proofs.RaceSets
import Verif.Proofs.LockedSets
import Verif.Proofs.LockedDicts
import Verif.Props.Locked
import Verif.Props.LockedSets
import Verif.Proofs.RacePact
import Verif.Proofs.RacePactSets
import Verif.Proofs.RaceLasts
import Verif.Props.RaceSets
import Verif.Props.RaceHangs
import Verif.Serial
import Verif.Proofs.Serial
import Verif.Proofs.SerialAdd
import Verif.Proofs.SerialSets
import Verif.Proofs.SerialRaises
import Verif.Proofs.SerialRemove
import Verif.Proofs.SerialReads
import Verif.Proofs.SerialQueries
import Verif.Props.Serial
import Verif.Props.SerialRepair
import Verif.Props.SerialRemove
import Verif.Props.SerialReads
import Verif.Props.SerialReadsSets
import Verif.Props.SerialQueries
import Verif.Props.SerialQueriesSets
