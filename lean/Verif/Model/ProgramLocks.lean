import Verif.Model.ProgramThreads
import Verif.Model.WorkerLocks
/-
Programs with logging macros on any number of threads, down to the lock, unlock, wait and notify operations of the hand-over: Model/ProgramThreads with
Model/WorkerLocks in the place of Model/Worker. /repo/src/g3log/g3log.hpp:140-226, /repo/src/logcapture.cpp:43-73, /repo/src/g3log.cpp:143-155, 193-209,
/repo/src/logworker.cpp:101-103, /repo/src/g3log/active.hpp:55-57, /repo/src/g3log/shared_queue.hpp:38-44.

The destructor of the capture begins `push` on the queue of the worker; the thread goes on with its program when it is out of it again. Meanwhile any other thread
may be inside `push` as well. Simplifications as in the two models; threads of the program have numbers from 2 on as in Model/WorkerLocks.
-/
namespace G3

/-- The state. `trace` and `acc` as in `PState`; a message counts as handed over when it enters the queue. -/
structure LState where
  reg : Registry
  th : Nat → PThread
  k : KState LogMessage
  trace : List (Nat × PStep)
  acc : List (Nat × LogStmt)

/-- Who makes the next step. -/
inductive LLabel
  | thread (t : Nat)                   -- a thread of the program, outside the queues
  | locks (l : KLabel LogMessage)      -- anything else in Model/WorkerLocks

/-- The message of the statement `st` of thread `t` has entered the queue. -/
def LState.entered (s : LState) (t : Nat) (st : LogStmt) : LState :=
  { s with th := setThread s.th t ⟨(s.th t).todo, none⟩, acc := s.acc ++ [(t, st)] }

/-- The destructor of the capture, /repo/src/logcapture.cpp:43-47, /repo/src/g3log.cpp:143-155, 193-209, /repo/src/logworker.cpp:101-103: `push` begins. Without
active object there is no queue (undefined behaviour, in Model/WorkerLocks). -/
def beginLog (full : Bool) (size : Int) (s : LState) (t : Nat) (st : LogStmt) : Option LState :=
  match st.op full size with
  | none => some { s with th := setThread s.th t ⟨(s.th t).todo, none⟩ }
  | some (.log m) =>
    (kStep s.k (.thr t (.save m))).map fun k =>
      if s.k.ctl.phase.bgNull then LState.entered { s with k := k } t st else { s with k := k }
  | some _ => none

/-- The next use of the level registry, g3log.hpp:147 and loglevels.cpp. -/
def nextUseL (s : LState) (t : Nat) : Option LState :=
  match (s.th t).todo with
  | [] => none
  | .levels o :: p => some { s with reg := (levelStep s.reg o).2, th := setThread s.th t ⟨p, none⟩, trace := s.trace ++ [(t, .levels o)] }
  | .log st :: p =>
    let r := logLevel st.level s.reg
    some { s with reg := r.2, th := setThread s.th t ⟨p, if r.1 then some st else none⟩, trace := s.trace ++ [(t, .log st)] }

/-- Logging calls come from the threads only. -/
def beginsLog : KLabel LogMessage → Bool
  | .thr _ w => isLogLabel w
  | _ => false

/-- The thread whose message enters the queue of the worker in this step, /repo/src/g3log/shared_queue.hpp:41. -/
def entersLog (k : KState LogMessage) : KLabel LogMessage → Option Nat
  | .mem (.act t) =>
    match k.wq.pcs[t]? with
    | some (.crit (.push (.save _))) => some t
    | _ => none
  | _ => none

/-- A step inside the queues, of the worker thread, of sinks, or of a client that does not log. -/
def locksStep (s : LState) (l : KLabel LogMessage) : Option LState :=
  if beginsLog l then none
  else (kStep s.k l).map fun k =>
    match entersLog s.k l with
    | none => { s with k := k }
    | some t =>
      match (s.th t).held with
      | none => { s with k := k }
      | some st => LState.entered { s with k := k } t st

/-- One step. -/
def lStep (full : Bool) (size : Int) (s : LState) : LLabel → Option LState
  | .thread t =>
    if s.k.free t = false then none
    else match (s.th t).held with
    | some st => beginLog full size s t st
    | none => nextUseL s t
  | .locks l => locksStep s l

/-- A schedule. -/
def lRun (full : Bool) (size : Int) (s : LState) : List LLabel → Option LState
  | [] => some s
  | l :: ls => (lStep full size s l).bind (lRun full size · ls)

/-- The threads begin; worker and queues are in the state `k`. -/
def LState.start (k : KState LogMessage) (progs : Nat → List PStep) : LState :=
  { reg := defaultLevels, th := fun t => ⟨progs t, none⟩, k := k, trace := [], acc := [] }

end G3
