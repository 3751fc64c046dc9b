import Verif.Props.DatapackMbn
import Verif.Props.DatapackTlv
import Verif.Props.DatapackExact
import Verif.Props.Ring
import Verif.Props.History
import Verif.Props.HistoryExact
import Verif.Props.Strv
import Verif.Props.StrvHist
import Verif.Props.Objv
import Verif.Props.Ints
import Verif.Props.IntArray
import Verif.Props.IntArrayRef
import Verif.Props.IntArrayHist
import Verif.Props.MiscHex
import Verif.Props.MiscParse
import Verif.Props.MiscData
import Verif.Props.Log
import Verif.Props.IdleQueue
import Verif.Props.IdlePool
import Verif.Props.IdlePoolExact
import Verif.Props.IdlePoolThreadsExact
import Verif.Props.MiscCbExact
import Verif.Props.IdlePoolObj
import Verif.Props.Version
import Verif.Props.Macros
import Verif.Props.MacrosCast
import Verif.Props.WeakRef
import Verif.Props.Null
import Verif.Props.Inotify
import Verif.Props.InotifyExact
import Verif.Props.Shared
import Verif.Props.RingCb
import Verif.Props.RingMem
import Verif.Props.RingAccount
import Verif.Props.LogMacros
import Verif.Props.LogInit
import Verif.Props.WeakThreads
import Verif.Props.Counter32
import Verif.Props.IntArraySelf
import Verif.Props.TimeNotify
import Verif.Props.Debug
import Verif.Props.InotifyCb
import Verif.Props.InotifyShared
import Verif.Props.MiscCb
import Verif.Props.ObjvCb
import Verif.Props.ObjvCbExact
import Verif.Props.LogCb
import Verif.Props.LogThreads
import Verif.Props.LogThreadsPass
import Verif.Props.IdleQueueRefs
import Verif.Props.IdlePoolRefs
import Verif.Props.IdlePoolThreads
import Verif.Props.IdlePoolDefault
import Verif.Props.IdleQueueExact
import Verif.Props.IdleQueueQuiet
import Verif.Props.IdlePoolQuiet
import Verif.Props.IdlePoolOrder
import Verif.Props.IdlePoolFinal
import Verif.Props.LogThreadsExact
import Verif.Props.IdlePoolExit
import Verif.Props.LogFormat
import Verif.Props.LogDefine
import Verif.Props.IdleThreads
import Verif.Props.IdleRelease
import Verif.Props.LogPortable
import Verif.Props.RingCost
import Verif.Props.DatapackShort
import Verif.Props.HistoryMean
import Verif.Props.DatapackStream
import Verif.Props.Print
import Verif.Props.HexRead
import Verif.Props.HistoryQuiet
import Verif.Props.LogLaws
import Verif.Props.SortLaws
import Verif.Props.ParseLaws
import Verif.Props.RingMirror
import Verif.Props.DatapackLocal
import Verif.Props.DataLaws
import Verif.Props.LogOptions
import Verif.Props.IntArrayUndo
import Verif.Props.IntsParts
import Verif.Props.StrvUndo
import Verif.Props.IdleTrace
import Verif.Props.DatapackOrder
import Verif.Props.RingRoom
import Verif.Props.HexLaws
import Verif.Props.ObjvUndo
import Verif.Props.MbnOrder
import Verif.Props.IntsOrder
import Verif.Props.RangeSkip
import Verif.Props.InotifyReads
import Verif.Props.HistoryLarger
import Verif.Props.RemoveEach
import Verif.Props.RingLimit
import Verif.Props.IdleQueueEach
import Verif.Props.StrvSame
import Verif.Props.DataOrder
import Verif.Props.StrvEach
import Verif.Props.InotifyOthers
import Verif.Props.ObjvEach
import Verif.Props.IntArrayEach
import Verif.Props.HistorySame
import Verif.Props.RingEach
import Verif.Props.RingSame
import Verif.Props.IdleQueueSwap
import Verif.Props.RemoveSwap
import Verif.Props.TimeNotifyMore
import Verif.Props.IntArrayExact
import Verif.Props.IntsExact
import Verif.Props.IntsEmpty
import Verif.Props.StrvExact
import Verif.Props.MiscExact
import Verif.Props.MiscDataExact
import Verif.Props.LogExact
import Verif.Props.RingExact
import Verif.Props.SortExact
import Verif.Check.Datapack
import Verif.Check.History
import Verif.Check.IdlePool
import Verif.Check.IdleQueue
import Verif.Check.Inotify
import Verif.Check.Ints
import Verif.Check.Log
import Verif.Check.Misc
import Verif.Check.Objv
import Verif.Check.Ring
import Verif.Check.Strv
import Verif.Check.WeakRef
import Verif.Props.TimeNotifyExact
import Verif.Props.RingCbExact
