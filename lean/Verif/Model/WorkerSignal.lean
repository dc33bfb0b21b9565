import Verif.Model.Worker
/-
A fatal event on the worker's own thread: a fatal signal delivered to it while it executes any of its tasks or waits for the next one, or a
fatal event raised by the destructor of a user's sink, which the worker runs (/repo/src/logworker.cpp:63, /repo/src/g3log/logworker.hpp:108-128).

The thread then runs `signalHandler` or `LogCapture::~LogCapture`, which hands the fatal message to its own queue and sleeps in
`pushFatalMessageToLogger` (/repo/src/g3log.cpp:226-229) until `gBlockForFatal` is cleared. On Unix only `exitWithDefaultSignalHandler` clears it
(/repo/src/crashhandler_unix.cpp:240), which here only this thread itself would call (logworker.cpp:64), so it sleeps for ever.
The other threads go on as in Verif.Model.Worker. The event comes before `~LogWorker` begins: after that
`g_logger_instance` is null and the handler ends the process by itself (g3log.cpp:217-225). That the thread may own the mutex
of the queue when the signal comes is the subject of Verif.Props.Interrupt.
-/
namespace G3

variable {M : Type}

/-- The worker, and whether its thread sleeps in `pushFatalMessageToLogger`. -/
structure WTState (M : Type) where
  base : WState M
  stuck : Bool

/-- Steps. -/
inductive WTLabel (M : Type)
  | other (l : WLabel M)   -- a step of Verif.Model.Worker
  | hit (m : M)            -- a fatal event on the worker's thread

/-- A step of the worker's thread. -/
def WLabel.isWork : WLabel M → Bool
  | .work => true
  | _ => false

/-- The step as the worker's queue sees it: the fatal message of a hit enters it like any other. -/
def WTLabel.flat : WTLabel M → WLabel M
  | .other l => l
  | .hit m => .fatal m

/-- After `createLogWorker`. -/
def WTState.start : WTState M := ⟨.start, false⟩

/-- One step. -/
def wtStep (s : WTState M) : WTLabel M → Option (WTState M)
  | .other l => if s.stuck = true ∧ l.isWork = true then none else (wStep s.base l).map fun b => { s with base := b }
  | .hit m =>
    if s.stuck = true ∨ s.base.wpc.isEnded = true ∨ s.base.phase ≠ .notStarted then none
    else (wStep s.base (.fatal m)).map fun b => ⟨b, true⟩

/-- A schedule. -/
def wtRun (s : WTState M) : List (WTLabel M) → Option (WTState M)
  | [] => some s
  | l :: ls => (wtStep s l).bind (wtRun · ls)

end G3
