import Verif.Model.Outcome
import Verif.Model.Memory
import Verif.Model.ListC
import Verif.Spec.Seq
import Verif.Lemmas.Memory
import Verif.Lemmas.ListC
import Verif.Props.ListProps
import Verif.Spec.Arr
import Verif.Model.ArrayC
import Verif.Props.ArrayProps
import Verif.Spec.Sorted
import Verif.Model.SortedListC
import Verif.Lemmas.SortedListC
import Verif.Props.SortedListProps
import Verif.Model.SeqList
import Verif.Lemmas.SeqList
import Verif.Spec.Map
import Verif.Model.DictC
import Verif.Lemmas.DictC
import Verif.Props.DictProps
import Verif.Spec.MultiMap
import Verif.Model.GroupC
import Verif.Lemmas.GroupC
import Verif.Props.GroupProps
import Verif.Model.Ator
import Verif.Model.AtorOps
import Verif.Model.LazyList
import Verif.Model.Sort
import Verif.Spec.Enum
import Verif.Spec.Lazy
import Verif.Spec.LazyList
import Verif.Lemmas.AtorOps
import Verif.Lemmas.AtorOps2
import Verif.Lemmas.AtorOps3
import Verif.Lemmas.AtorSources
import Verif.Lemmas.LazyList
import Verif.Lemmas.Sort
import Verif.Props.SortProps
import Verif.Model.Pipe
import Verif.Spec.Pipe
import Verif.Lemmas.Pipe
import Verif.Props.EnumProps
import Verif.Props.LazyProps
import Verif.Model.CopyFrom
import Verif.Props.CopyProps
import Verif.Model.PartialOrdering
import Verif.Spec.Graph
import Verif.Spec.Components
import Verif.Lemmas.PartialOrdering
import Verif.Lemmas.PartialOrderingInit
import Verif.Props.PartialOrderingProps
import Verif.Model.SubClass
import Verif.Spec.SubClass
import Verif.Lemmas.SubClass
import Verif.Props.SubClassProps
import Verif.Model.Utf
import Verif.Spec.Utf
import Verif.Lemmas.UtfBits
import Verif.Lemmas.UtfReader
import Verif.Props.UtfProps
import Verif.Props.UtfReaderProps
import Verif.Model.Str
import Verif.Spec.Str
import Verif.Lemmas.StrHeap
import Verif.Lemmas.StrOps
import Verif.Lemmas.StrWorld
import Verif.Props.StrProps
import Verif.Model.Number
import Verif.Spec.Number
import Verif.Props.NumberProps
import Verif.Model.Pointer
import Verif.Spec.Pointer
import Verif.Lemmas.Pointer
import Verif.Props.PointerProps
import Verif.Model.PtrThreads
import Verif.Props.PtrThreadsProps
import Verif.Model.Nullable
import Verif.Spec.Nullable
import Verif.Props.NullableProps
import Verif.Model.Variant
import Verif.Spec.Variant
import Verif.Props.VariantProps
import Verif.Model.Tuple
import Verif.Spec.Tuple
import Verif.Props.TupleProps
import Verif.Model.Event
import Verif.Spec.Event
import Verif.Props.EventProps
import Verif.Model.GlobalStorage
import Verif.Spec.GlobalStorage
import Verif.Props.GlobalStorageProps
import Verif.Model.UnitTest
import Verif.Spec.UnitTest
import Verif.Props.UnitTestProps
import Verif.Model.DateTime
import Verif.Spec.DateTime
import Verif.Props.DateTimeProps
import Verif.Model.LoremIpsum
import Verif.Spec.LoremIpsum
import Verif.Props.LoremIpsumProps
import Verif.Model.PushOnly
import Verif.Spec.PushOnly
import Verif.Props.PushOnlyProps
import Verif.Model.Func
import Verif.Spec.Func
import Verif.Lemmas.Func
import Verif.Props.FuncProps
import Verif.Model.Float
import Verif.Spec.Float
import Verif.Lemmas.Float
import Verif.Props.FloatProps
import Verif.Model.ComPtr
import Verif.Spec.ComPtr
import Verif.Lemmas.ComPtr
import Verif.Props.ComPtrProps
import Verif.Model.ForEach
import Verif.Spec.ForEach
import Verif.Props.ForEachProps
import Verif.Spec.Moves
import Verif.Model.DictMem
import Verif.Lemmas.Refines
import Verif.Lemmas.DictMem
import Verif.Props.DictMemProps
import Verif.Model.HeapList
import Verif.Lemmas.HeapMem
import Verif.Lemmas.HeapList
import Verif.Lemmas.ListWorld
import Verif.Props.HeapListProps
import Verif.Model.MoveWorld
import Verif.Lemmas.MoveWorld
import Verif.Model.HeapDict
import Verif.Lemmas.HeapDict
import Verif.Props.HeapDictProps
import Verif.Model.HeapArray
import Verif.Lemmas.HeapArray
import Verif.Props.HeapArrayProps
import Verif.Model.HeapGroup
import Verif.Lemmas.HeapGroup
import Verif.Props.HeapGroupProps
import Verif.Spec.GroupArgs
import Verif.Model.HeapRef
import Verif.Lemmas.HeapRef
import Verif.Props.HeapRefProps
import Verif.Spec.Throws
import Verif.Model.HeapThrow
import Verif.Lemmas.HeapThrow
import Verif.Lemmas.ArrayThrow
import Verif.Props.ThrowProps
import Verif.Model.UtfWide
import Verif.Spec.UtfWide
import Verif.Props.UtfWideProps
import Verif.Model.DateTimeWin
import Verif.Spec.DateTimeWin
import Verif.Props.DateTimeWinProps
import Verif.Spec.Cursor
import Verif.Model.HeapEnum
import Verif.Lemmas.HeapEnum
import Verif.Props.HeapEnumProps
import Verif.Spec.Calls
import Verif.Spec.CallPipe
import Verif.Model.CallAtor
import Verif.Model.CallList
import Verif.Model.CallRun
import Verif.Lemmas.Gen
import Verif.Lemmas.CallAtor
import Verif.Lemmas.CallList
import Verif.Lemmas.CallRun
import Verif.Props.CallProps
import Verif.Model.EventCallbacks
import Verif.Spec.EventCallbacks
import Verif.Lemmas.EventCallbacks
import Verif.Props.EventCallbackProps
import Verif.Model.CopyString
import Verif.Props.CopyStringProps
import Verif.Model.HeapGroupEnum
import Verif.Spec.GroupCursor
import Verif.Lemmas.HeapGroupEnum
import Verif.Props.HeapGroupEnumProps
import Verif.Spec.TupleObj
import Verif.Model.TupleObj
import Verif.Lemmas.TupleObj
import Verif.Lemmas.TupleWorld
import Verif.Props.TupleObjProps
import Verif.Spec.LazyErrors
import Verif.Model.LazyVars
import Verif.Lemmas.LazyErrors
import Verif.Props.LazyErrorProps
import Verif.Spec.DictThrows
import Verif.Model.DictThrow
import Verif.Lemmas.DictThrow
import Verif.Lemmas.GroupThrow
import Verif.Props.DictThrowProps
import Verif.Props.GroupThrowProps
import Verif.Props.NumberResult
import Verif.Spec.Copied
import Verif.Model.HeapCopy
import Verif.Lemmas.HeapCopy
import Verif.Lemmas.HeapCopyArray
import Verif.Lemmas.HeapCopyGroup
import Verif.Lemmas.HeapCopyRun
import Verif.Props.HeapCopyProps
import Verif.Model.Console
import Verif.Spec.Terminal
import Verif.Props.ConsoleProps
import Verif.Model.UnitTestReport
import Verif.Spec.Report
import Verif.Props.ReportProps
import Verif.Model.StrThreads
import Verif.Spec.StrValues
import Verif.Lemmas.StrThreads
import Verif.Lemmas.StrThreadsStep
import Verif.Lemmas.StrThreadsRun
import Verif.Props.StrThreadsProps
import Verif.Model.SortEff
import Verif.Lemmas.SortEff
import Verif.Spec.SortCalls
import Verif.Props.SortEffProps
import Verif.Model.CallOrder
import Verif.Spec.CallOrder
import Verif.Props.CallOrderProps
import Verif.Lemmas.Compares
import Verif.Model.CmpEff
import Verif.Spec.CmpEff
import Verif.Lemmas.CmpEff
import Verif.Lemmas.CmpPure
import Verif.Props.CmpEffProps
import Verif.Spec.CollRef
import Verif.Model.CollRef
import Verif.Lemmas.CollRef
import Verif.Props.CollRefProps
import Verif.Spec.Overflow
import Verif.Model.MachInt
import Verif.Lemmas.MachInt
import Verif.Props.MachIntProps
import Verif.Model.EnmOwn
import Verif.Spec.EnmOwn
import Verif.Lemmas.EnmOwn
import Verif.Props.EnmOwnProps
import Verif.Spec.ListCost
import Verif.Model.ListCost
import Verif.Lemmas.ListCost
import Verif.Props.ListCostProps
import Verif.Spec.PtrGraph
import Verif.Model.PtrGraph
import Verif.Lemmas.PtrGraph
import Verif.Lemmas.PtrGraphSim
import Verif.Props.PtrGraphProps
import Verif.Spec.Resume
import Verif.Spec.ResumePipe
import Verif.Model.CallResume
import Verif.Lemmas.Resume
import Verif.Lemmas.CallResume
import Verif.Props.ResumeProps
import Verif.Spec.PtrDtor
import Verif.Model.PtrDtor
import Verif.Lemmas.PtrDtor
import Verif.Lemmas.PtrDtorSim
import Verif.Props.PtrDtorProps
import Verif.Model.DateZone
import Verif.Spec.DateZone
import Verif.Props.DateZoneProps
import Verif.Props.DateZoneWinProps
import Verif.Model.PartialOrderingEff
import Verif.Spec.Interview
import Verif.Props.PartialOrderingEffProps
import Verif.Model.PartialOrderingCost
import Verif.Props.PartialOrderingCostProps
import Verif.Model.StorageExit
import Verif.Spec.StorageExit
import Verif.Props.StorageExitProps
import Verif.Model.Ansi
import Verif.Spec.Ansi
import Verif.Props.AnsiProps
import Verif.Model.CommandLine
import Verif.Spec.CommandLine
import Verif.Props.CommandLineProps
import Verif.Model.JoinEff
import Verif.Props.JoinEffProps
import Verif.Model.StorageThrow
import Verif.Props.StorageThrowProps
