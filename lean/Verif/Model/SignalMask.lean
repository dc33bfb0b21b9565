import Verif.Model.Str
import Mathlib.Logic.Function.Basic
/-
Blocked signals. Each thread has a signal mask, which a new thread takes over from the one that starts it; this holds for the threads of the library as well: that of the worker
(/repo/src/logworker.cpp:21, /repo/src/g3log/active.hpp:60-64) is started by the caller of `createLogWorker`, that of a sink (/repo/src/g3log/sink.hpp:46,53) by the caller of
`addSink`. The library never touches a mask. The handler is installed with an empty `sa_mask` and without SA_NODEFER (/repo/src/crashhandler_unix.cpp:92-95).

Of the kernel this is modelled (POSIX, signal(7)): a signal for the process is taken by any one thread that does not block it, and waits as long as all do; one for a thread waits until that
thread unblocks it; a fault in a thread that blocks its signal kills the process at once; a signal is blocked in the thread while its handler runs.

Simplifications: one worker; `createLogWorker` and `initializeLogging` are one step; only signals that end a process by default and had not been handled before `initializeLogging`; the steps of the worker are those of
Model/FatalExit, the release of sleeping threads (crashhandler_unix.cpp:240) and `exit` are one; ordinary messages and the hook are left out; preparing and handing over the fatal message is one step.
-/
namespace G3

/-- The threads. -/
inductive MThr
  | prog (i : Nat)
  | worker
  | sink (k : Nat)
deriving DecidableEq, Repr

/-- Where the worker is. -/
inductive MWork
  | serving
  | fatal (n : Int)      -- /repo/src/logworker.cpp:41-63: waits for the sinks
  | flushed (n : Int)    -- before crashhandler_unix.cpp:227
  | restored (n : Int)   -- before :235
  | raised (n : Int)     -- raise has returned
deriving DecidableEq, Repr

/-- How the process ended. -/
inductive MEnd
  | killed (n : Int)
  | exited (n : Int)
deriving DecidableEq, Repr

/-- State. -/
structure MaskState where
  live : MThr → Bool
  mask : MThr → List Int
  asleep : MThr → Bool     -- in the loop at g3log.cpp:227-229 or crashhandler_unix.cpp:68-70
  pending : List Int       -- signals for the process that wait
  own : MThr → List Int    -- signals for a thread that wait
  handled : List Int       -- signals with the handler of the library
  count : Nat              -- firstExit, crashhandler_unix.cpp:54
  logger : Bool            -- g_logger_instance
  sinks : List Nat
  queue : List Int         -- fatal messages handed to the worker
  wpc : MWork
  report : List Int        -- fatal messages written to the sinks
  ended : Option MEnd

/-- Steps. -/
inductive MLabel
  | spawn (t : MThr) (i : Nat)        -- a thread starts another
  | init (t : MThr)                   -- createLogWorker and initializeLogging
  | addSink (t : MThr) (k : Nat)
  | setMask (t : MThr) (m : List Int) -- pthread_sigmask
  | raise (t : MThr) (n : Int)        -- raise, pthread_kill; abort unblocks SIGABRT before
  | fault (t : MThr) (n : Int)        -- an instruction fails
  | kill (n : Int)                    -- from outside: kill
  | deliver (t : MThr) (n : Int)      -- a waiting signal is taken by a thread
  | fatal (t : MThr)                  -- LOG(FATAL), CHECK(false)
  | take | flush | restore | wRaise | exit   -- the worker
deriving DecidableEq, Repr

/-- Before anything: one thread with the mask `m`. -/
def mStart (m : List Int) : MaskState :=
  { live := fun t => t = .prog 0, mask := fun t => if t = .prog 0 then m else [], asleep := fun _ => false, pending := [], own := fun _ => [], handled := [],
    count := 0, logger := false, sinks := [], queue := [], wpc := .serving, report := [], ended := none }

/-- A new thread. -/
def MaskState.start (s : MaskState) (t u : MThr) : MaskState :=
  { s with live := Function.update s.live u true, mask := Function.update s.mask u (s.mask t), own := Function.update s.own u [] }

/-- Thread `t`, which does not block signal `n`, takes it: `signalHandler` (crashhandler_unix.cpp:62-84), if the library handles `n`. If logging is shut down already, the handler raises the signal again, which is
blocked in it, and calls `exit` (g3log.cpp:217-225, crashhandler_unix.cpp:222-243). -/
def MaskState.hit (s : MaskState) (t : MThr) (n : Int) : MaskState :=
  if n ∉ s.handled then { s with ended := some (.killed n) }
  else
    let s1 := { s with mask := Function.update s.mask t (n :: s.mask t), count := s.count + 1 }
    if s.count ≠ 0 then { s1 with asleep := Function.update s.asleep t true }
    else if s.logger then { s1 with asleep := Function.update s.asleep t true, queue := s.queue ++ [n] }
    else { s1 with handled := [], ended := some (.exited n) }

/-- One step; `none` if it is not possible. `sigs` are the signals that the library handles (`gSignals`). -/
def mStep (sigs : List Int) (s : MaskState) (l : MLabel) : Option MaskState :=
  if s.ended.isSome then none else
  match l with
  | .spawn t i => if s.live t ∧ ¬ s.asleep t ∧ ¬ s.live (.prog i) then some (s.start t (.prog i)) else none
  | .init t => if s.live t ∧ ¬ s.asleep t ∧ ¬ s.live .worker then some { s.start t .worker with logger := true, handled := sigs } else none
  | .addSink t k => if s.live t ∧ ¬ s.asleep t ∧ s.logger ∧ ¬ s.live (.sink k) then some { s.start t (.sink k) with sinks := s.sinks ++ [k] } else none
  | .setMask t m => if s.live t ∧ ¬ s.asleep t then some { s with mask := Function.update s.mask t m } else none
  | .raise t n =>
    if s.live t ∧ ¬ s.asleep t then
      some (if n ∈ s.mask t then { s with own := Function.update s.own t (n :: s.own t) } else s.hit t n)
    else none
  | .fault t n =>
    if s.live t ∧ ¬ s.asleep t then some (if n ∈ s.mask t then { s with ended := some (.killed n) } else s.hit t n) else none
  | .kill n => some { s with pending := n :: s.pending }
  | .deliver t n =>
    if s.live t ∧ n ∉ s.mask t then
      if n ∈ s.own t then some ({ s with own := Function.update s.own t ((s.own t).erase n) }.hit t n)
      else if n ∈ s.pending then some ({ s with pending := s.pending.erase n }.hit t n)
      else none
    else none
  | .fatal t =>
    if s.live t ∧ ¬ s.asleep t then
      some (if s.logger then { s with asleep := Function.update s.asleep t true, queue := s.queue ++ [6] }
        else { s with handled := [], ended := some (if (6 : Int) ∈ s.mask t then .exited 6 else .killed 6) })
    else none
  | .take =>
    if s.asleep .worker then none else
    match s.wpc, s.queue with
    | .serving, n :: q => some { s with queue := q, wpc := .fatal n, logger := false, report := s.report ++ [n] }
    | _, _ => none
  | .flush =>
    if s.asleep .worker then none else
    match s.wpc with
    | .fatal n => if s.sinks.all (fun k => !s.asleep (.sink k)) then some { s with wpc := .flushed n } else none
    | _ => none
  | .restore =>
    if s.asleep .worker then none else
    match s.wpc with | .flushed n => some { s with wpc := .restored n, handled := [] } | _ => none
  | .wRaise =>
    if s.asleep .worker then none else
    match s.wpc with
    | .restored n => some (if n ∈ s.mask .worker then { s with wpc := .raised n, own := Function.update s.own .worker (n :: s.own .worker) }
        else { s with ended := some (.killed n) })
    | _ => none
  | .exit =>
    if s.asleep .worker then none else
    match s.wpc with | .raised n => some { s with ended := some (.exited n) } | _ => none

/-- A history. -/
def mRun (sigs : List Int) (s : MaskState) : List MLabel → Option MaskState
  | [] => some s
  | l :: r => (mStep sigs s l).bind fun s' => mRun sigs s' r

end G3
