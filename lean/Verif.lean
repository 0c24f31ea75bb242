import Verif.Props.Math
import Verif.Props.Strings
import Verif.Props.Case
import Verif.Props.Base64
import Verif.Props.Formatter
import Verif.Props.PtrSet
import Verif.Props.File
import Verif.Props.NumFormat
import Verif.Props.Mangling
import Verif.Props.Fuzzy
import Verif.Props.LogConfig
import Verif.Props.Tree
import Verif.Props.Builder
import Verif.Props.Qos
import Verif.Props.ReturnCode
import Verif.Props.Singleton
import Verif.Props.Random
import Verif.Props.Timer
import Verif.Props.History
import Verif.Props.CommandReader
import Verif.Props.Editor
import Verif.Props.WaitHandler
import Verif.Props.IntWaitHandler
import Verif.Props.Counter
import Verif.Props.CounterDestroy
import Verif.Props.DBQueue
import Verif.Props.EventHandler
import Verif.Props.SignalManager
import Verif.Props.SlotThreadPool
import Verif.Props.SlotThreadPoolControl
import Verif.Props.SlotThreadPoolLive
import Verif.Props.SlotThreadPoolTasks
import Verif.Props.SlotThreadPoolShared
import Verif.Props.TimedWaits
import Verif.Props.TimedReal
import Verif.Props.SafeDatabase
import Verif.Props.SafeDatabaseLive
import Verif.Props.Pool
import Verif.Props.OwnerPtr
import Verif.Props.PyWaitHandler
import Verif.Props.LogSevere
import Verif.Props.LogDestroy
import Verif.Props.MultipleEvent
import Verif.Props.Heritable
import Verif.Props.Periodic
import Verif.Props.PeriodicReentrant
import Verif.Props.TimeFormat
import Verif.Props.FromBytes
import Verif.Props.TimeCase
import Verif.Props.EnumGen
import Verif.Props.Containers
import Verif.Props.SignalEvent
import Verif.Props.FileWatch
import Verif.Props.FileWatcher
import Verif.Props.FileWatcherEnd
import Verif.Props.FileWatcherState
import Verif.Props.FileWatcherChange
import Verif.Props.PyLog
import Verif.Props.PyDebug
import Verif.Props.PyTimer
import Verif.Props.Pattern
import Verif.Props.TaskId
import Verif.Props.LocalTime
import Verif.Props.OptParse
import Verif.Props.OptStore
import Verif.Props.CMakeVersion
import Verif.Props.CMakeOptions
import Verif.Props.CMakeSettings
import Verif.Props.CMakeFind
import Verif.Props.CMakeLabels
import Verif.Props.CMakeFilter
import Verif.Props.CMakeSources
import Verif.Props.CMakeCpp
import Verif.Props.Usage
import Verif.Props.Timed
import Verif.Props.Screen
import Verif.Props.TSafeRandom
import Verif.Props.FileAccess
import Verif.Props.LogMacros
import Verif.Props.HeritableOwn
import Verif.Props.Stdin
import Verif.Props.StdinLive
import Verif.Props.StdinCommands
import Verif.Props.Terminal
import Verif.Props.StdinSource
import Verif.Props.EventHandlerDestroy
import Verif.Props.Reentrant
import Verif.Props.MultipleShared
import Verif.Props.CMakeGMock
import Verif.Props.CMakeInstall
import Verif.Props.TimeShared
import Verif.Props.BytesTiny
import Verif.Props.Exactly
import Verif.Props.Exactly2
import Verif.Props.UsageWriter
import Verif.Props.EventNested
import Verif.Props.EventNestedLive
import Verif.Props.EventNestedSet
import Verif.Props.EventNestedCalls
import Verif.Props.StopAndContinue
import Verif.Model.FileSave
import Verif.Props.FileSave
import Verif.Model.FileBurst
import Verif.Props.FileBurst
import Verif.Model.InitSingleton
import Verif.Props.InitSingleton
import Verif.Model.PoolThrow
import Verif.Props.PoolThrow
import Verif.Model.ConsumerThrow
import Verif.Props.ConsumerThrow
import Verif.Model.OwnerThrow
import Verif.Props.OwnerThrow
import Verif.Model.DllHeader
import Verif.Model.CMakeConfig
import Verif.Props.DllHeader
import Verif.Props.CMakeConfig
import Verif.Model.CMakePackage
import Verif.Props.CMakeAccept
import Verif.Props.CMakePackage
import Verif.Model.Loader
import Verif.Props.Loader
import Verif.Model.FileWatchWin
import Verif.Props.FileWatchWin
import Verif.Lemmas.Progress
import Verif.Model.FileStopWin
import Verif.Props.FileStopWin
import Verif.Model.Exception
import Verif.Props.Exception
import Verif.Model.CMakeBuild
import Verif.Props.CMakeBuild
import Verif.Model.Race
import Verif.Lemmas.Race
import Verif.Lemmas.RaceMoves
import Verif.Props.Race
import Verif.Model.LockOrder
import Verif.Lemmas.LockOrder
import Verif.Props.LockOrder
import Verif.Model.CMakeSource
import Verif.Props.CMakeSource
