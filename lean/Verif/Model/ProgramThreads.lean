import Verif.Model.Program
import Verif.Model.Worker
/-
Programs with logging macros on any number of threads, with the worker: /repo/src/g3log/g3log.hpp:140-226, /repo/src/logcapture.cpp:43-73,
/repo/src/g3log.cpp:143-155, 193-209 and Model/Worker.

A LOG statement takes two steps: the test of its level (g3log.hpp:147), and the hand-over of the message by the destructor of the
capture. Between the two the thread works on its own data only. A call on the level registry is one step; LevelThreads
has its parts.

Simplifications: logging is initialised with the worker of the state all the time (Model/Front, Model/InitRace and Model/Race have the rest); statements
at fatal levels have no step here (Model/FatalExit).
-/
namespace G3

/-- A thread: what it has before it, and the statement it is in, if any, once the level test has succeeded. -/
structure PThread where
  todo : List PStep
  held : Option LogStmt

/-- The state. `trace` lists the uses of the level registry and `acc` the statements whose messages were handed over, with their threads; they
are not part of the program. -/
structure PState where
  reg : Registry
  th : Nat → PThread
  worker : WState LogMessage
  trace : List (Nat × PStep)
  acc : List (Nat × LogStmt)

/-- Who makes the next step. -/
inductive PLabel
  | thread (t : Nat)                    -- a thread of the program
  | worker (l : WLabel LogMessage)      -- anything else in Model/Worker

/-- Thread `t` is replaced. -/
def setThread (th : Nat → PThread) (t : Nat) (x : PThread) : Nat → PThread := fun k => if k = t then x else th k

/-- The hand-over of the message of a statement, /repo/src/logcapture.cpp:43-47, /repo/src/g3log.cpp:143-155, 193-209. `capturef` fails only for a size that is not positive, see `LogStmt.op`. -/
def handOver (full : Bool) (size : Int) (s : PState) (t : Nat) (st : LogStmt) : Option PState :=
  match st.op full size with
  | none => some { s with th := setThread s.th t ⟨(s.th t).todo, none⟩ }
  | some (.log m) =>
    (wStep s.worker (.save m)).map fun w =>
      { s with worker := w, th := setThread s.th t ⟨(s.th t).todo, none⟩, acc := s.acc ++ [(t, st)] }
  | some _ => none

/-- The next use of the level registry, g3log.hpp:147 and loglevels.cpp. -/
def nextUse (s : PState) (t : Nat) : Option PState :=
  match (s.th t).todo with
  | [] => none
  | .levels o :: p => some { s with reg := (levelStep s.reg o).2, th := setThread s.th t ⟨p, none⟩, trace := s.trace ++ [(t, .levels o)] }
  | .log st :: p =>
    let r := logLevel st.level s.reg
    some { s with reg := r.2, th := setThread s.th t ⟨p, if r.1 then some st else none⟩, trace := s.trace ++ [(t, .log st)] }

/-- Logging calls come from the threads only; a sink may have a fatal event (`sinkFatal`). -/
def isLogLabel : WLabel LogMessage → Bool
  | .save _ => true
  | .fatal _ => true
  | _ => false

/-- One step. -/
def ptStep (full : Bool) (size : Int) (s : PState) : PLabel → Option PState
  | .thread t =>
    match (s.th t).held with
    | some st => handOver full size s t st
    | none => nextUse s t
  | .worker l => if isLogLabel l then none else (wStep s.worker l).map fun w => { s with worker := w }

/-- A schedule. -/
def ptRun (full : Bool) (size : Int) (s : PState) : List PLabel → Option PState
  | [] => some s
  | l :: ls => (ptStep full size s l).bind (ptRun full size · ls)

/-- The threads begin; the worker is in the state `w`. -/
def PState.start (w : WState LogMessage) (progs : Nat → List PStep) : PState :=
  { reg := defaultLevels, th := fun t => ⟨progs t, none⟩, worker := w, trace := [], acc := [] }

end G3
