import Verif.Props.Algorithms
import Verif.Props.AnyAlgorithm
import Verif.Props.Archive
import Verif.Props.Assert
import Verif.Props.Checks
import Verif.Props.CollIter
import Verif.Props.CollectionAlias
import Verif.Props.CollectionCalls
import Verif.Props.CollectionDict
import Verif.Props.CollectionIds
import Verif.Props.CollectionMove
import Verif.Props.CollectionThrow
import Verif.Props.Compose
import Verif.Props.Config
import Verif.Props.ConstEval
import Verif.Props.DerefIterator
import Verif.Props.EndianOverride
import Verif.Props.Exchange
import Verif.Props.FileNames
import Verif.Props.FileShared
import Verif.Props.FloatMaths
import Verif.Props.FractionInverse
import Verif.Props.FragmentCalls
import Verif.Props.FragmentEmpty
import Verif.Props.FragmentFind
import Verif.Props.FragmentIters
import Verif.Props.FragmentLive
import Verif.Props.FragmentSearch
import Verif.Props.FragmentString
import Verif.Props.FragmentTwo
import Verif.Props.Hex
import Verif.Props.HexWide
import Verif.Props.Index
import Verif.Props.Initial
import Verif.Props.Io
import Verif.Props.IoAccess
import Verif.Props.IoAlias
import Verif.Props.IoAlloc
import Verif.Props.IoBoth
import Verif.Props.IoBuffered
import Verif.Props.IoCalls
import Verif.Props.IoFile
import Verif.Props.IoLayout
import Verif.Props.IoNested
import Verif.Props.IoPodRange
import Verif.Props.IoRecords
import Verif.Props.IoStdio
import Verif.Props.IoStream
import Verif.Props.IoThreads
import Verif.Props.IoValues
import Verif.Props.IoView
import Verif.Props.IoViewLive
import Verif.Props.IoWide
import Verif.Props.ItemCollection
import Verif.Props.IterTyping
import Verif.Props.Keys
import Verif.Props.LongDouble
import Verif.Props.LookupCalls
import Verif.Props.LookupText
import Verif.Props.LookupThrow
import Verif.Props.Numeric
import Verif.Props.NumericCalls
import Verif.Props.NumericRef
import Verif.Props.OStream
import Verif.Props.OStreamFail
import Verif.Props.OutputLookup
import Verif.Props.Overload
import Verif.Props.Point
import Verif.Props.PointCalls
import Verif.Props.RangeCalls
import Verif.Props.RangeEq
import Verif.Props.RangeFlt
import Verif.Props.RangeKinds
import Verif.Props.RangeSize
import Verif.Props.RangeThrow
import Verif.Props.RangeThrowArith
import Verif.Props.Result
import Verif.Props.ResultCalls
import Verif.Props.ResultThrow
import Verif.Props.ReverseIter
import Verif.Props.Scope
import Verif.Props.ScopeUndo
import Verif.Props.SplitInto
import Verif.Props.SplitViews
import Verif.Props.StaticLookup
import Verif.Props.StaticVector
import Verif.Props.StaticVectorHandOver
import Verif.Props.StaticVectorObjs
import Verif.Props.StaticVectorThrow
import Verif.Props.StringCalls
import Verif.Props.StringMem
import Verif.Props.Strings
import Verif.Props.TextTable
import Verif.Props.TypedIds
import Verif.Props.Uuid
import Verif.Props.UuidDefault
import Verif.Props.UuidEngine
import Verif.Props.UuidExact
import Verif.Props.UuidFormats
import Verif.Props.UuidMore
import Verif.Props.UuidOrder
import Verif.Props.UuidThreads
import Verif.Props.ValueRange
import Verif.Props.ValueTypes
import Verif.Audit
