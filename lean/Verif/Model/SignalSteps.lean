import Verif.Model.Signals
/-
`overrideSetupSignals` and `restoreSignalHandler`, one system call at a time: /repo/src/crashhandler_unix.cpp:89-110, 292-320. A signal may arrive
at every moment of it, on the thread that is inside or on another one.

Simplifications: the calls come one after the other (`overrideSetupSignals` holds a mutex, :312-313; calls that do not are Model/Globals). The
maps are changed in single steps. A thread that runs `signalHandler` does not come back (Model/FatalExit), so a call interrupted by a fatal signal on its own thread stays where it is.
-/
namespace G3

/-- What is left to do. -/
inductive SgTask
  | restore (n : Int)             -- crashhandler_unix.cpp:294-302: look n up and give it back
  | forget (n : Int)              -- :305, the entry is erased
  | choose (signals : List Int)   -- :318
  | install (n : Int)             -- :99-104: sigaction
  | record (n : Int) (old : Disp) -- :107: its old action is saved
deriving DecidableEq, Repr

/-- The state, and the calls of `sigaction` so far with what they ask for. -/
structure SgState where
  sig : SigState
  todo : List SgTask
  calls : List (Int × Disp)

/-- The tasks of `overrideSetupSignals`, crashhandler_unix.cpp:314-319. -/
def sgOverride (e : SigEnv) (s : SigState) (signals : List Int) : List SgTask :=
  s.gSignals.map .restore ++ .choose signals :: if e.off then [] else signals.map .install

/-- The next step of the call. -/
def sgStep (e : SigEnv) (s : SgState) : Option SgState :=
  match s.todo with
  | [] => none
  | .restore n :: r =>
    if e.off then some { s with todo := r }
    else match s.sig.saved n with
      | none => some { s with todo := r }
      | some old =>
        some { sig := { s.sig with disp := if e.accepts n then setAt s.sig.disp n old else s.sig.disp }, todo := .forget n :: r, calls := s.calls ++ [(n, old)] }
  | .forget n :: r => some { s with sig := { s.sig with saved := setAt s.sig.saved n none }, todo := r }
  | .choose l :: r => some { s with sig := { s.sig with gSignals := l }, todo := r }
  | .install n :: r =>
    if e.accepts n then
      some { sig := { s.sig with disp := setAt s.sig.disp n .g3log }, todo := .record n (s.sig.disp n) :: r, calls := s.calls ++ [(n, .g3log)] }
    else some { s with todo := r, calls := s.calls ++ [(n, .g3log)] }
  | .record n old :: r => some { s with sig := { s.sig with saved := setAt s.sig.saved n (some old) }, todo := r }

/-- So many steps. -/
def sgSteps (e : SigEnv) (s : SgState) : Nat → Option SgState
  | 0 => some s
  | k + 1 => (sgSteps e s k).bind (sgStep e)

/-- The thread calls `overrideSetupSignals`. -/
def sgCall (e : SigEnv) (s : SigState) (signals : List Int) : SgState := { sig := s, todo := sgOverride e s signals, calls := [] }

/-- A signal that g3log handles arrives on the thread inside the call: the handler reports it and sleeps, the worker flushes and ends the process,
crashhandler_unix.cpp:62-84 and 222-243. -/
def sgHit (e : SigEnv) (r : RaiseEnv) (s : SgState) (n : Int) : Option End :=
  if s.sig.disp n = .g3log then some (exitWithDefaultSignalHandler e r ⟨s.sig, 1, true⟩ n).1 else none

end G3
