import Verif.Model.SinkDtor
/-
Fatal events in the destructors of real sinks: a fatal LOG or a failed CHECK there (`sig = false`), or an exception or signal (`sig = true`). An exception cannot leave such a destructor: the real sink is deleted by the destructor of a `unique_ptr`
(/repo/src/g3log/sink.hpp:36-39, 60-62), which is noexcept, so std::terminate is called, which raises SIGABRT on this thread; the library handles it (/repo/src/crashhandler_unix.cpp:50).

A fatal statement goes to `pushFatalMessageToLogger` (/repo/src/g3log.cpp:216-230) through `~LogCapture`; a signal goes there through `signalHandler` (crashhandler_unix.cpp:62-84), unless an earlier signal has been there: then the thread sleeps (:67-71).
Without an initialised logger the process ends at once (g3log.cpp:217-225). Otherwise the worker gets the message and the thread sleeps until the process ends (g3log.cpp:226-229).

Simplifications: as in Verif.Model.SinkDtor; std::set_terminate has not been called, SIGABRT is among the handled signals, the pre-fatal hook does nothing; signals on other threads are left out (Verif.Model.WorkerSignal, Verif.Model.SinkThrow).
-/
namespace G3

variable {M : Type}

/-- The worker, its sinks and their destructors, and which threads sleep for ever. -/
structure DxState (M : Type) where
  d : DtState M
  stuck : Bool             -- the worker thread sleeps, inside a destructor
  asleep : Nat → Bool      -- another thread sleeps, inside the destructor of this sink
  signalled : Bool         -- firstExit has been counted up, crashhandler_unix.cpp:53-57
  ended : Bool             -- the process has ended inside a destructor

/-- After `initializeLogging`. -/
def DxState.start : DxState M := ⟨.start, false, fun _ => false, false, false⟩

/-- Steps. -/
inductive DxLabel (M : Type)
  | plain (l : DtLabel M)                     -- as in Verif.Model.SinkDtor
  | fatal (i : Nat) (sig : Bool) (m : M)      -- a fatal event in the destructor of sink i, with its report
deriving DecidableEq, Repr

/-- The thread that is in the destructor of sink i sleeps. -/
def sleepsIn (s : DxState M) (i : Nat) : Bool := if onWorker s.d.w i then s.stuck else s.asleep i

/-- It goes to sleep. -/
def goSleep (s : DxState M) (i : Nat) : DxState M :=
  if onWorker s.d.w i then { s with stuck := true } else { s with asleep := fun j => if j = i then true else s.asleep j }

/-- The thread that destroys the worker sleeps in the destructor of a sink. -/
def dtorSleeps (s : DxState M) : Bool :=
  match s.d.w.phase with
  | .waitSink i => s.asleep i
  | _ => false

/-- The step is one of a thread that does not sleep. -/
def dxAwake (s : DxState M) : DtLabel M → Bool
  | .base .work => !s.stuck
  | .base (.reap i) => !s.asleep i
  | .base .dtor => !dtorSleeps s
  | .log (some i) _ => !sleepsIn s i
  | .sync _ _ => !s.stuck
  | .back => !s.stuck
  | _ => true

/-- A fatal event in the destructor of sink i. -/
def dxFatal (s : DxState M) (i : Nat) (sig : Bool) (m : M) : Option (DxState M) :=
  if sig && s.signalled then some (goSleep s i)                                       -- crashhandler_unix.cpp:67-71
  else if s.d.active then                                                             -- g3log.cpp:226-229
    (dtStep s.d (.base (.fatal m))).map fun d => { goSleep s i with d := d, signalled := s.signalled || sig }
  else some { s with ended := true, signalled := s.signalled || sig }                 -- g3log.cpp:217-225

/-- One step. -/
def dxStep (s : DxState M) (l : DxLabel M) : Option (DxState M) :=
  if s.ended || s.d.w.ub || s.d.w.wpc.isDead then none
  else match l with
  | .plain l => if dxAwake s l then (dtStep s.d l).map fun d => { s with d := d } else none
  | .fatal i sig m => if inSinkDtor s.d i && !sleepsIn s i then dxFatal s i sig m else none

/-- A schedule. -/
def dxRun (s : DxState M) : List (DxLabel M) → Option (DxState M)
  | [] => some s
  | l :: ls => (dxStep s l).bind (dxRun · ls)

end G3
