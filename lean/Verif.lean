import Verif.Props.Levels
import Verif.Props.Time
import Verif.Props.TimeFormat
import Verif.Props.LogMessage
import Verif.Props.Capture
import Verif.Props.CrashText
import Verif.Props.FileName
import Verif.Props.FileSink
import Verif.Props.Signals
import Verif.Props.Front
import Verif.Props.MoveOnCopy
import Verif.Props.Queue
import Verif.Props.Active
import Verif.Props.Worker
import Verif.Props.WorkerLive
import Verif.Props.WorkerCall
import Verif.Props.Future
import Verif.Props.EndToEnd
import Verif.Model.Windows
import Verif.Spec.Windows
import Verif.Props.Windows
import Verif.Props.ActiveLocks
import Verif.Props.Interrupt
import Verif.Model.Program
import Verif.Spec.Program
import Verif.Props.FatalEnd
import Verif.Props.Program
import Verif.Model.Delivery
import Verif.Props.Delivery
import Verif.Model.CaptureWindows
import Verif.Props.CaptureWindows
import Verif.Model.WorkerSignal
import Verif.Props.WorkerSignal
import Verif.Model.FatalThreads
import Verif.Spec.FatalThreads
import Verif.Props.FatalThreads
import Verif.Model.InitRace
import Verif.Props.InitRace
import Verif.Model.LevelThreads
import Verif.Spec.LevelThreads
import Verif.Props.LevelThreads
import Verif.Model.FileSinks
import Verif.Spec.FileSinks
import Verif.Props.FileSinks
import Verif.Model.FatalExit
import Verif.Spec.FatalExit
import Verif.Props.FatalExit
import Verif.Model.FileErrors
import Verif.Spec.FileErrors
import Verif.Props.FileErrors
import Verif.Model.FileRelease
import Verif.Props.FileRelease
import Verif.Spec.StuckSink
import Verif.Props.StuckSink
import Verif.Model.ProgramThreads
import Verif.Spec.ProgramThreads
import Verif.Props.ProgramThreads
import Verif.Model.ExitPath
import Verif.Spec.ExitPath
import Verif.Props.ExitPath
import Verif.Model.Statement
import Verif.Spec.Statement
import Verif.Props.Statement
import Verif.Model.Visibility
import Verif.Spec.Visibility
import Verif.Props.Visibility
import Verif.Model.Globals
import Verif.Spec.Globals
import Verif.Proofs.Globals
import Verif.Props.Globals
import Verif.Model.SinkThrow
import Verif.Spec.SinkThrow
import Verif.Proofs.SinkThrow
import Verif.Props.SinkThrow
import Verif.Model.ProgramFatal
import Verif.Spec.ProgramFatal
import Verif.Proofs.ProgramFatal
import Verif.Props.ProgramFatal
import Verif.Props.VisibilityNest
import Verif.Props.GlobalsMeaning
import Verif.Props.GlobalsCalls
import Verif.Model.WorkerLocks
import Verif.Proofs.WorkerLocks
import Verif.Proofs.WorkerLocksInv
import Verif.Proofs.WorkerLocksSim
import Verif.Proofs.WorkerLocksMem
import Verif.Props.WorkerLocks
import Verif.Props.WorkerLocksLive
import Verif.Props.WorkerLocksOrder
import Verif.Props.WorkerLocksEnd
import Verif.Props.WorkerLocksExamples
import Verif.Spec.WorkerLocks
import Verif.Props.Pinned
import Verif.Model.SinkUse
import Verif.Spec.SinkUse
import Verif.Proofs.SinkUseStep
import Verif.Proofs.SinkUseInv
import Verif.Props.SinkUse
import Verif.Props.SinkUseEnd
import Verif.Props.SinkUseSelf
import Verif.Props.LevelFrame
import Verif.Conformance.Message
import Verif.Conformance.FileChange
import Verif.Conformance.Io
import Verif.Conformance.Sink
import Verif.Model.FileDiag
import Verif.Spec.FileDiag
import Verif.Props.FileDiag
import Verif.Model.SignalDiag
import Verif.Spec.SignalDiag
import Verif.Props.SignalDiag
import Verif.Conformance.Signal
import Verif.Props.SinkUseOwn
import Verif.Model.WinWorker
import Verif.Spec.WinWorker
import Verif.Proofs.WorkerTrStep
import Verif.Proofs.WinWorkerSim
import Verif.Proofs.WinWorkerRun
import Verif.Proofs.WinWorkerInv
import Verif.Props.WinWorker
import Verif.Props.WinWorkerExamples
import Verif.Props.FileDiagFail
import Verif.Spec.Rotate
import Verif.Props.Rotate
import Verif.Props.RotateThreads
import Verif.Model.TimeWindows
import Verif.Spec.TimeWindows
import Verif.Props.TimeWindows
import Verif.Model.MacroText
import Verif.Spec.MacroText
import Verif.Props.MacroText
import Verif.Props.MacroLevel
import Verif.Model.StaticOrder
import Verif.Spec.StaticOrder
import Verif.Props.StaticOrder
import Verif.Spec.Fork
import Verif.Proofs.Fork
import Verif.Props.Fork
import Verif.Model.Resources
import Verif.Spec.Resources
import Verif.Props.Resources
import Verif.Model.IllegalInit
import Verif.Spec.IllegalInit
import Verif.Proofs.IllegalInit
import Verif.Props.IllegalInit
import Verif.Model.InitRetry
import Verif.Spec.InitRetry
import Verif.Proofs.InitRetry
import Verif.Props.InitRetry
import Verif.Model.ProgramLocks
import Verif.Props.ProgramLocks
import Verif.Props.CallArgs
import Verif.Model.StderrText
import Verif.Props.StderrText
import Verif.Props.WorkerLocksClose
import Verif.Model.Locale
import Verif.Spec.Locale
import Verif.Props.Locale
import Verif.Model.FatalResources
import Verif.Spec.FatalResources
import Verif.Props.FatalResources
import Verif.Model.SinkDtor
import Verif.Spec.SinkDtor
import Verif.Props.SinkDtor
import Verif.Model.SinkDtorFatal
import Verif.Spec.SinkDtorFatal
import Verif.Props.SinkDtorFatal
import Verif.Model.HookUse
import Verif.Spec.HookUse
import Verif.Props.HookUse
import Verif.Spec.TimeEscape
import Verif.Props.TimeEscape
import Verif.Model.Stamps
import Verif.Spec.Stamps
import Verif.Proofs.Stamps
import Verif.Props.Stamps
import Verif.Model.SignalSteps
import Verif.Spec.SignalSteps
import Verif.Proofs.SignalSteps
import Verif.Props.SignalSteps
import Verif.Model.WinBuild
import Verif.Spec.WinBuild
import Verif.Props.WinBuild
import Verif.Spec.Race
import Verif.Props.Race
import Verif.Spec.WinHandlers
import Verif.Props.WindowsExact
import Verif.Spec.Calendar
import Verif.Proofs.Calendar
import Verif.Props.Calendar
import Verif.Spec.ReadLog
import Verif.Props.ReadLog
import Verif.Spec.Backlog
import Verif.Props.Backlog
import Verif.Spec.WorkerExact
import Verif.Props.WorkerExact
import Verif.Spec.SignalHistory
import Verif.Props.SignalHistory
import Verif.Spec.FrontExact
import Verif.Props.FrontExact
import Verif.Props.WorkerEnd
import Verif.Spec.FatalSchedule
import Verif.Props.FatalSchedule
import Verif.Spec.FileReuse
import Verif.Props.FileReuse
import Verif.Props.SmallExact
import Verif.Spec.Restart
import Verif.Props.Restart
import Verif.Model.BuildOptions
import Verif.Spec.BuildOptions
import Verif.Props.BuildOptions
import Verif.Model.HookCrash
import Verif.Spec.HookCrash
import Verif.Props.HookCrash
import Verif.Model.SignalLocks
import Verif.Spec.SignalLocks
import Verif.Props.SignalLocks
import Verif.Model.ExternalFiles
import Verif.Spec.ExternalFiles
import Verif.Props.ExternalFiles
import Verif.Model.SignalMask
import Verif.Spec.SignalMask
import Verif.Props.SignalMask
import Verif.Model.StackRoom
import Verif.Spec.StackRoom
import Verif.Props.StackRoom
import Verif.Model.Unload
import Verif.Spec.Unload
import Verif.Props.Unload
import Verif.Props.SinkThrowLive
import Verif.Model.Nested
import Verif.Spec.Nested
import Verif.Props.Nested
import Verif.Props.SignalMaskRefine
import Verif.Model.HandlerLog
import Verif.Spec.HandlerLog
import Verif.Props.HandlerLog
import Verif.Spec.Headers
import Verif.Props.Headers
import Verif.Model.ZoneChange
import Verif.Spec.ZoneChange
import Verif.Props.ZoneChange
import Verif.Model.ClockSet
import Verif.Spec.ClockSet
import Verif.Props.ClockSet
import Verif.Model.Inherit
import Verif.Spec.Inherit
import Verif.Props.Inherit
import Verif.Model.Errno
import Verif.Spec.Errno
import Verif.Props.Errno
import Verif.Model.WriteSignal
import Verif.Spec.WriteSignal
import Verif.Props.WriteSignal
import Verif.Model.ThreadIds
import Verif.Spec.ThreadIds
import Verif.Props.ThreadIds
import Verif.Model.WriteCounter
import Verif.Props.WriteCounter
import Verif.Model.FormatChange
import Verif.Spec.FormatChange
import Verif.Props.FormatChange
import Verif.Model.OtherWorker
import Verif.Spec.OtherWorker
import Verif.Props.OtherWorker
