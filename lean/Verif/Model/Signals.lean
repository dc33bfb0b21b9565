import Verif.Model.CrashText
/-
Model of the signal set-up and of the exit path in /repo/src/crashhandler_unix.cpp.

Environment: the kernel's table of signal dispositions; `sigaction` either accepts or refuses a given
signal number, always in the same way; what a default action or a user's handler does is a parameter.
Builds with DISABLE_FATAL_SIGNALHANDLING are covered by the parameter `off`.
-/
namespace G3

/-- Disposition of one signal. `g3log` stands for `signalHandler`, installed with SA_SIGINFO only: while it
runs for a signal, that signal is blocked in the running thread. -/
inductive Disp
  | dfl
  | ign
  | g3log
  | user (h : Nat)
deriving DecidableEq, Repr

/-- The kernel's table and the globals `gSavedSigActions`, `gSignals`, crashhandler_unix.cpp:50-51. Of the map
`gSignals` only the keys are kept (the names only occur in diagnostics, Model/SignalDiag). -/
structure SigState where
  disp : Int → Disp
  saved : Int → Option Disp
  gSignals : List Int

/-- Keys of `kSignals`, crashhandler_unix.cpp:42-48, ascending. -/
def kSignals : List Int := [SIGILL, SIGABRT, SIGFPE, SIGSEGV, SIGTERM]

/-- Parameters of the environment: compiled without signal handling; numbers accepted by `sigaction`. -/
structure SigEnv where
  off : Bool
  accepts : Int → Bool

/-- Update of a function at one point. -/
def setAt {β : Type} (f : Int → β) (n : Int) (v : β) : Int → β := fun k => if k = n then v else f k

/-- One iteration of the loop in `installSignalHandler`, crashhandler_unix.cpp:98-108. -/
def installOne (e : SigEnv) (s : SigState) (n : Int) : SigState :=
  if e.accepts n then { s with disp := setAt s.disp n .g3log, saved := setAt s.saved n (some (s.disp n)) } else s

/-- `installSignalHandler`, crashhandler_unix.cpp:89-110, and `installCrashHandler`, :325-327. -/
def installSignalHandler (e : SigEnv) (s : SigState) : SigState :=
  if e.off then s else s.gSignals.foldl (installOne e) s

/-- `restoreSignalHandler`, crashhandler_unix.cpp:292-307. -/
def restoreSignalHandler (e : SigEnv) (s : SigState) (n : Int) : SigState :=
  if e.off then s
  else match s.saved n with
    | none => s
    | some old =>
      let disp := if e.accepts n then setAt s.disp n old else s.disp
      { s with disp := disp, saved := setAt s.saved n none }

/-- The loops over `gSignals` at crashhandler_unix.cpp:227-229 and :314-316. -/
def restoreAll (e : SigEnv) (s : SigState) : SigState := s.gSignals.foldl (restoreSignalHandler e) s

/-- `overrideSetupSignals`, crashhandler_unix.cpp:311-320; the argument is the key list of the map. -/
def overrideSetupSignals (e : SigEnv) (s : SigState) (signals : List Int) : SigState :=
  installSignalHandler e { restoreAll e s with gSignals := signals }

/-- `restoreFatalHandlingToDefault`, crashhandler_unix.cpp:270-274. -/
def restoreFatalHandlingToDefault (e : SigEnv) (s : SigState) : SigState :=
  if e.off then s else overrideSetupSignals e s kSignals

/-- State at program start: `d0` is the table inherited or set up by the program. -/
def SigState.start (d0 : Int → Disp) : SigState := { disp := d0, saved := fun _ => none, gSignals := kSignals }

/-- How a process (or the thread ending it) finishes. -/
inductive End
  | killed (n : Int)          -- default action of signal n
  | exited (n : Int)          -- exit(n)
  | inHandler (h : Nat) (n : Int)   -- the user's handler h, called for n, does not return
  | hang                      -- sleeps for ever in signalHandler
deriving DecidableEq, Repr

/-- What raising signals does: does the default action end the process (not for PID 1); does handler `h`
return. -/
structure RaiseEnv where
  dflEnds : Int → Bool
  returns : Nat → Bool

/-- The process as seen by the exit path: signals, `firstExit` (crashhandler_unix.cpp:54), `gBlockForFatal` (:40). -/
structure Proc where
  sig : SigState
  firstExit : Nat
  block : Bool

/-- `exitWithDefaultSignalHandler`, crashhandler_unix.cpp:222-243, when called inside `signalHandler` for the same
signal: that signal is blocked, so `raise` only leaves it pending and returns. -/
def exitInsideHandler (e : SigEnv) (p : Proc) (n : Int) : End × Proc :=
  (.exited n, { p with sig := restoreAll e p.sig, block := false })

/-- `signalHandler`, crashhandler_unix.cpp:62-84, as run by the thread that is already ending the process: by
then logging is shut down, so the report goes through `pushFatalMessageToLogger` (g3log.cpp:216-225)
to stderr and straight to `exitWithDefaultSignalHandler`. (Default exit handler assumed.) Waiting while
`gBlockForFatal` is for ever: only this thread would clear it. -/
def signalHandlerAtExit (e : SigEnv) (p : Proc) (n : Int) : End × Proc :=
  let count := p.firstExit
  let p := { p with firstExit := p.firstExit + 1 }
  if count ≠ 0 ∧ p.block = true then (.hang, p) else exitInsideHandler e p n

/-- `exitWithDefaultSignalHandler`, crashhandler_unix.cpp:222-243, on the worker thread. -/
def exitWithDefaultSignalHandler (e : SigEnv) (r : RaiseEnv) (p0 : Proc) (n : Int) : End × Proc :=
  let p := { p0 with sig := restoreAll e p0.sig }
  let released := { p with block := false }
  match p.sig.disp n with
  | .dfl => if r.dflEnds n then (.killed n, p) else (.exited n, released)
  | .ign => (.exited n, released)
  | .user h => if r.returns h then (.exited n, released) else (.inHandler h n, p)
  | .g3log => signalHandlerAtExit e p n

/-! ### Concurrent signals -/

/-- Where an invocation of `signalHandler` is. -/
inductive HPc
  | notYet
  | waiting      -- in the loop of lines 68-70
  | reporting    -- past it
  | reported     -- the LogCapture has been destroyed, line 82
deriving DecidableEq, Repr

/-- Shared state of all invocations. -/
structure HState where
  firstExit : Nat
  block : Bool
  pc : Nat → HPc

/-- Atomic steps of invocation `t`, and the clearing of `gBlockForFatal` by the exit path. -/
inductive HLabel
  | enter (t : Nat)     -- shouldDoExit(), lines 53-57 and 67
  | leaveLoop (t : Nat) -- lines 68-70 with gBlockForFatal false
  | report (t : Nat)    -- lines 73-82
  | release             -- line 240
deriving DecidableEq, Repr

/-- Update of one invocation's place. -/
def HState.setPc (s : HState) (t : Nat) (p : HPc) : HState := { s with pc := fun k => if k = t then p else s.pc k }

/-- One step; `none` if it is not possible. -/
def hStep (s : HState) : HLabel → Option HState
  | .enter t =>
    if s.pc t = .notYet then
      let first := s.firstExit = 0
      some ({ s with firstExit := s.firstExit + 1 }.setPc t (if first then .reporting else .waiting))
    else none
  | .leaveLoop t => if s.pc t = .waiting ∧ s.block = false then some (s.setPc t .reporting) else none
  | .report t => if s.pc t = .reporting then some (s.setPc t .reported) else none
  | .release => some { s with block := false }

/-- A schedule. -/
def hRun (s : HState) : List HLabel → Option HState
  | [] => some s
  | l :: ls => (hStep s l).bind (hRun · ls)

/-- Before any signal. -/
def hStart : HState := { firstExit := 0, block := true, pc := fun _ => .notYet }

end G3
