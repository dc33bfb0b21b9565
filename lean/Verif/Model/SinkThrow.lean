import Verif.Model.Worker
/-
Callbacks of sinks that throw. The callback runs on the thread of the sink (/repo/src/g3log/sink.hpp:64-68) in a loop without a handler
(/repo/src/g3log/active.hpp:37-43), so that an exception that leaves it calls std::terminate, which calls abort, which raises SIGABRT on that thread. Exceptions of calls
through a handle are kept in their future instead (sink.hpp:71-73, /repo/src/g3log/future.hpp:43-59; Verif.Model.Future).

If the library does not handle SIGABRT the process ends there. Otherwise the thread runs signalHandler (/repo/src/crashhandler_unix.cpp:62-84).

Simplifications: initializeLogging has been called with this worker, std::set_terminate has not been called, the pre-fatal hook does nothing, and fatal signals other than this SIGABRT
do not occur (fatal messages of other threads do). `exit` on the thread of the sink (crashhandler_unix.cpp:242) is the end of the process; what it does is in Verif.Model.ExitPath.
-/
namespace G3

variable {M : Type}

/-- What the callbacks do, and the configuration. -/
structure TEnv (M : Type) where
  throws : Nat → List (SItem M) → SItem M → Bool   -- the callback of this sink, after what it has executed, throws
  report : Nat → SItem M → M                       -- the fatal message that signalHandler makes, crashhandler_unix.cpp:74-82
  handled : Bool                                   -- SIGABRT is in gSignals, crashhandler_unix.cpp:50 and :311-320

/-- The worker with its sinks, and the state of the crash handler. -/
structure TState (M : Type) where
  base : WState M
  asleep : Nat → Bool          -- the thread of this sink sleeps in signalHandler, crashhandler_unix.cpp:67-71
  signalled : Bool             -- firstExit has been counted up, crashhandler_unix.cpp:53-57
  ended : Bool                 -- the process has ended on the thread of a sink
  log : List (WLabel M)        -- ghost: what happened as far as worker and sinks are concerned

/-- After `createLogWorker` and `initializeLogging`. -/
def TState.start : TState M := { base := .start, asleep := fun _ => false, signalled := false, ended := false, log := [] }

/-- The callback for messages runs, sink.hpp:64-68. -/
def SItem.isMessage : SItem M → Bool
  | .msg _ => true
  | .fatal _ => true
  | _ => false

/-- The worker thread is in bgFatal, logworker.cpp:38-64. -/
def WPc.inFatal : WPc M → Bool
  | .sending (.fatal _) _ => true
  | .clearing true => true
  | .clrWait _ true => true
  | _ => false

/-- `g_logger_instance` is set: neither `~LogWorker` (logworker.cpp:71) nor bgFatal (logworker.cpp:41) has cleared it. -/
def loggerSet (s : WState M) : Bool := decide (s.phase = .notStarted) && !s.wpc.inFatal

/-- The callback that runs on the thread of sink `i` throws instead of returning. -/
def eThrows (env : TEnv M) (s : TState M) (i : Nat) : Option (SItem M) :=
  match (s.base.sk i).running with
  | some x => if x.isMessage = true ∧ env.throws i (s.base.sk i).done x = true ∧ i < s.base.n ∧ (s.base.sk i).blocked = false then some x else none
  | none => none

/-- The thread of a sink gets SIGABRT: `signalHandler`, crashhandler_unix.cpp:62-84. -/
def eAbort (env : TEnv M) (s : TState M) (i : Nat) (x : SItem M) : Option (TState M) :=
  if env.handled = false then some { s with ended := true }
  else if s.signalled then some { s with asleep := fun j => if j = i then true else s.asleep j }            -- :67-71
  else if loggerSet s.base then                                                                             -- g3log.cpp:226-229
    (wStep s.base (.sinkFatal i (env.report i x))).map fun b =>
      { s with base := b, signalled := true, log := s.log ++ [.sinkFatal i (env.report i x)] }
  else some { s with signalled := true, ended := true }                                                     -- g3log.cpp:217-225

/-- A step of worker and sinks that has nothing to do with exceptions. -/
def ePlain (s : TState M) (l : WLabel M) : Option (TState M) := (wStep s.base l).map fun b => { s with base := b, log := s.log ++ [l] }

/-- One step. -/
def tStep (env : TEnv M) (s : TState M) (l : WLabel M) : Option (TState M) :=
  if s.ended || s.base.ub || s.base.wpc.isDead then none else
  match l with
  | .sinkFin i =>
    if s.asleep i then none else
    match eThrows env s i with
    | some x => eAbort env s i x
    | none => ePlain s (.sinkFin i)
  | .sinkFatal i m => if s.asleep i then none else ePlain s (.sinkFatal i m)
  | l => ePlain s l

/-- A schedule. -/
def tRun (env : TEnv M) (s : TState M) : List (WLabel M) → Option (TState M)
  | [] => some s
  | l :: ls => (tStep env s l).bind (tRun env · ls)

end G3
