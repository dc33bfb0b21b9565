import Verif.Model.Signals
import Verif.Model.Windows
import Verif.Model.FileDiag
/-
Signal handlers that the system refuses to install or to restore, and what is written to stderr then:
/repo/src/crashhandler_unix.cpp:89-110, 222-243, 251-320 and /repo/src/crashhandler_windows.cpp:177-234. Model/Signals has the same
functions with a system that always answers the same for one signal; Props/SignalDiag proves that they agree in this case.

Environment: the outcome of every single call of `sigaction` and `signal`, the texts of `strerror` and `strsignal`, and how much of a text a
`write` to stderr takes.
-/
namespace G3

/-- The system. Calls of `sigaction` are counted from 0. -/
structure SigSys where
  off : Bool                      -- DISABLE_FATAL_SIGNALHANDLING
  accepts : Nat → Int → Bool      -- the outcome of call number k for signal n
  errText : Nat → Str             -- strerror(errno) after call number k
  sigName : Int → Option Str      -- strsignal, none: NULL
  takes : Str → Option Nat        -- result of write: number of characters taken, none: -1

/-- What is remembered of a call of `sigaction`, or of the text before the end of the process. -/
inductive SigEvent
  | install (n : Int) (name : Str) (ok : Bool) (why : Str)
  | restore (n : Int) (old : Disp) (ok : Bool)
  | exit (level : Level) (n : Int)
deriving DecidableEq

/-- The kernel's table, the globals `gSavedSigActions` and `gSignals` (crashhandler_unix.cpp:50-51, here with the names), the number of calls of
`sigaction` so far, the text on stderr and, as a ghost, what has happened. -/
structure SigD where
  disp : Int → Disp
  saved : Int → Option Disp
  gSignals : List (Int × Str)
  calls : Nat
  err : Str
  tr : List SigEvent

/-- `perror(text)`. -/
def perrorText (text errText : Str) : Str := text ++ ": ".toList ++ errText ++ "\n".toList

/-- `size_t(-1)`, 64 bits. -/
def sizeMax : Nat := 2 ^ 64 - 1

/-- `writeErrorMessage`, crashhandler_unix.cpp:251-267: the result and the text that gets to stderr. `none` is a null pointer. -/
def writeErrorMessage (y : SigSys) : Option Str → Nat × Str
  | none => (0, [])
  | some message =>
    let text := cStr message
    match y.takes text with
    | none => (sizeMax, [])
    | some k => (k, text.take k)

/-- `signalToStr`, crashhandler_unix.cpp:278-290. -/
def signalToStr (y : SigSys) (n : Int) : Str :=
  match y.sigName n with
  | none => "Unknown signal ".toList ++ decInt n
  | some t => t

/-- One iteration of the loop in `installSignalHandler`, crashhandler_unix.cpp:98-108. -/
def installOneD (y : SigSys) (s : SigD) (p : Int × Str) : SigD :=
  if y.accepts s.calls p.1 then
    { s with disp := setAt s.disp p.1 .g3log, saved := setAt s.saved p.1 (some (s.disp p.1)), calls := s.calls + 1,
             tr := s.tr ++ [.install p.1 p.2 true []] }
  else { s with calls := s.calls + 1, err := s.err ++ perrorText (cStr ("sigaction - ".toList ++ p.2)) (y.errText s.calls),
                tr := s.tr ++ [.install p.1 p.2 false (y.errText s.calls)] }

/-- `installSignalHandler`, crashhandler_unix.cpp:89-110. -/
def installD (y : SigSys) (s : SigD) : SigD :=
  if y.off then s else s.gSignals.foldl (installOneD y) s

/-- `restoreSignalHandler`, crashhandler_unix.cpp:292-307: the saved action is erased in any case. -/
def restoreD (y : SigSys) (s : SigD) (n : Int) : SigD :=
  if y.off then s
  else match s.saved n with
    | none => s
    | some old =>
      if y.accepts s.calls n then { s with disp := setAt s.disp n old, saved := setAt s.saved n none, calls := s.calls + 1,
                                             tr := s.tr ++ [.restore n old true] }
      else { s with saved := setAt s.saved n none, calls := s.calls + 1, tr := s.tr ++ [.restore n old false],
                    err := s.err ++ (writeErrorMessage y (some ("sigaction - ".toList ++ signalToStr y n))).2 }

/-- The loops at crashhandler_unix.cpp:227-229 and :314-316. -/
def restoreAllD (y : SigSys) (s : SigD) : SigD := s.gSignals.foldl (fun t p => restoreD y t p.1) s

/-- `overrideSetupSignals`, crashhandler_unix.cpp:311-320. -/
def overrideD (y : SigSys) (s : SigD) (signals : List (Int × Str)) : SigD :=
  installD y { restoreAllD y s with gSignals := signals }

/-- The beginning of `exitWithDefaultSignalHandler`, crashhandler_unix.cpp:222-233, up to `raise`. -/
def exitTextD (y : SigSys) (s : SigD) (level : Level) (n : Int) : SigD :=
  let s1 := restoreAllD y s
  { s1 with err := s1.err ++ ("\n\n".toList ++ "exitWithDefaultSignalHandler".toList ++ ":".toList ++ "232".toList ++ ". Exiting due to ".toList ++ level.text ++
      ", ".toList ++ decInt n ++ "   \n\n".toList), tr := s1.tr ++ [.exit level n] }

/-- Calls of the program. -/
inductive SigCall
  | install                                -- installCrashHandler, crashhandler_unix.cpp:325-327
  | override (signals : List (Int × Str))
  | restore (n : Int)
  | exit (level : Level) (n : Int)
deriving DecidableEq

/-- One call. -/
def sigStep (y : SigSys) (s : SigD) : SigCall → SigD
  | .install => installD y s
  | .override ps => overrideD y s ps
  | .restore n => restoreD y s n
  | .exit l n => exitTextD y s l n

/-- Any calls one after the other. -/
def sigRun (y : SigSys) (s : SigD) (ops : List SigCall) : SigD := ops.foldl (sigStep y) s

/-- Names in `kSignals`, crashhandler_unix.cpp:42-48. -/
def kSignalNames : List (Int × Str) :=
  [(SIGILL, "SIGILL".toList), (SIGABRT, "SIGABRT".toList), (SIGFPE, "SIGFPE".toList), (SIGSEGV, "SIGSEGV".toList), (SIGTERM, "SIGTERM".toList)]

/-- At the start of the program with the table `d0`. -/
def SigD.start (d0 : Int → Disp) : SigD := { disp := d0, saved := fun _ => none, gSignals := kSignalNames, calls := 0, err := [], tr := [] }

/-! ### Windows -/

/-- The answers of `signal` on Windows, by signal, and the text of `strerror(errno)`. -/
structure WinSys where
  accepts : Nat → Bool
  errText : Str

/-- `writeErrorMessage`, crashhandler_windows.cpp:177-180 (for a null pointer undefined). -/
def winWriteError (w : WinSys) (t : Str) : Str := perrorText t w.errText

/-- The installation of one signal, one of the statements crashhandler_windows.cpp:222-231. -/
def winInstallOneD (w : WinSys) (t : Nat) (x : (Nat → Nat → Disp) × Str) (p : Nat × Str) : (Nat → Nat → Disp) × Str :=
  if w.accepts p.1 then (setSig x.1 t p.1 .g3log, x.2) else (x.1, x.2 ++ winWriteError w ("signal - ".toList ++ p.2))

/-- `installSignalHandlerForThread`, crashhandler_windows.cpp:218-234. The flag is set before anything is tried (line 221). -/
def winInstallThreadD (w : WinSys) (s : WinState) (t : Nat) : WinState × Str :=
  if s.installed t then (s, [])
  else
    let x := [(15, "SIGTERM".toList), (WIN_SIGABRT, "SIGABRT".toList), (8, "SIGFPE".toList), (11, "SIGSEGV".toList), (4, "SIGILL".toList)].foldl
      (winInstallOneD w t) (s.sig, [])
    ({ s with installed := fun t' => decide (t' = t) || s.installed t', sig := x.1 }, x.2)

/-- The restoration of one signal, one of the statements crashhandler_windows.cpp:191-204; the text is the same in all five. -/
def winRestoreOneD (w : WinSys) (t : Nat) (x : (Nat → Nat → Disp) × Str) (n : Nat) : (Nat → Nat → Disp) × Str :=
  if w.accepts n then (setSig x.1 t n .dfl, x.2) else (x.1, x.2 ++ winWriteError w "signal - SIGABRT".toList)

/-- `restoreFatalHandlingToDefault`, crashhandler_windows.cpp:183-206. -/
def winRestoreD (w : WinSys) (s : WinState) (t : Nat) : WinState × Str :=
  let x := [WIN_SIGABRT, 8, 11, 4, 15].foldl (winRestoreOneD w t) (s.sig, [])
  ({ s with filter := s.prevFilter
            vectored := match s.vhandle with
              | none => s.vectored
              | some h => s.vectored.filter (fun k => decide (k ≠ h))
            sig := x.1 }, x.2)

end G3
