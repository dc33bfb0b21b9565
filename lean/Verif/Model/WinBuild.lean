import Verif.Model.Windows
/-
The build options of /repo/src/crashhandler_windows.cpp (DISABLE_FATAL_SIGNALHANDLING, DISABLE_VECTORED_EXCEPTIONHANDLING,
DEBUG_BREAK_AT_FATAL_SIGNAL; Options.cmake:116-172) and the way of an exception through the handlers of the process.

Environment (trusted): an exception is first given to the vectored handlers that are registered, in the order of registration (g3log registers
its own last, :243-244; one that is removed meanwhile is not called any more), then to the handlers around the statement (`__except`, `catch`), and if none takes it to the top level filter.
Handlers of the program among the vectored ones are left out. A debugger that is attached takes breakpoints first.

Simplification: the report and what the worker does about it (flush, `exitWithDefaultSignalHandler`; Model/WinWorker) are one step. When logging has been shut
down the thread itself calls `exitWithDefaultSignalHandler` (g3log.cpp:216-225): `w` is then the thread itself.
-/
namespace G3

/-- The build: options that are in force. -/
structure WinBuild where
  signals : Bool      -- not DISABLE_FATAL_SIGNALHANDLING
  vectored : Bool     -- not DISABLE_VECTORED_EXCEPTIONHANDLING
  breaks : Bool       -- DEBUG_BREAK_AT_FATAL_SIGNAL, and not NDEBUG

/-- `installSignalHandlerForThread`, crashhandler_windows.cpp:218-234. -/
def winInstallThreadB (b : WinBuild) (s : WinState) (t : Nat) : WinState := if b.signals then winInstallThread s t else s

/-- `installCrashHandler`, crashhandler_windows.cpp:236-247. The filter is set in every build. -/
def winInstallCrashB (b : WinBuild) (s : WinState) (t : Nat) : WinState :=
  let s1 := winInstallThreadB b s t
  let s2 := { s1 with prevFilter := s1.filter, filter := .g3log }
  if b.vectored then { s2 with vectored := s2.vectored ++ [s2.nextHandle], vhandle := some s2.nextHandle, nextHandle := s2.nextHandle + 1 } else s2

/-- `restoreFatalHandlingToDefault`, crashhandler_windows.cpp:183-206: in a build without signal handling it does nothing at all. -/
def winRestoreB (b : WinBuild) (s : WinState) (t : Nat) : WinState :=
  if b.signals then
    if b.vectored then winRestore s t else { winRestore s t with vectored := s.vectored }
  else s

/-- `exitWithDefaultSignalHandler`, crashhandler_windows.cpp:158-173. -/
def winExitB (b : WinBuild) (s : WinState) (w : Nat) (level : Level) (id : Nat) : WinState :=
  let s1 := winRestoreB b s w
  if FATAL_EXCEPTION.value = level.value then { s1 with block := false }
  else { s1 with raised := some id }

/-- An exception is reported from a handler on thread t, crashhandler_windows.cpp:63-81, 84-87 and 99-101: put everything back, push the message, and
the worker w does its part. -/
def winReportB (b : WinBuild) (s : WinState) (t w : Nat) (handler : Str) (code pid : Nat) : WinState :=
  winExitB b (winException (winRestoreB b s t) handler code pid) w FATAL_EXCEPTION code

/-- The vectored handler h has its turn, crashhandler_windows.cpp:92-103. -/
def winTurn (b : WinBuild) (t w code pid : Nat) (s : WinState) (h : Nat) : WinState :=
  if h ∈ s.vectored then
    if isKnownException code then winReportB b s t w "Vectored Exception Handler".toList code pid else s
  else s

/-- An exception on thread t; `caught`: the program has a handler for it around the statement. -/
def winDispatch (b : WinBuild) (s : WinState) (t w code pid : Nat) (caught : Bool) : WinState :=
  let s1 := s.vectored.foldl (winTurn b t w code pid) s
  if caught then s1
  else if s1.filter = .g3log then winReportB b s1 t w "Unexpected Exception Handler".toList code pid
  else s1

/-- A fatal signal on thread t, crashhandler_windows.cpp:39-60. The message is pushed at the end of the function, when `trigger` goes out of scope: the
breakpoint comes before that, and an exception that nobody takes ends the process there. -/
def winSignalB (b : WinBuild) (s : WinState) (t w n pid : Nat) (debugger : Bool) : WinState :=
  if b.breaks && !debugger then winDispatch b s t w 0x80000003 pid false
  else winExitB b (winSignal s n pid) w FATAL_SIGNAL n

end G3
