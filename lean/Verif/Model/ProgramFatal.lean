import Verif.Model.ProgramThreads
import Verif.Model.SinkThrow
/-
Programs with logging macros on any number of threads, some of whose statements are fatal, up to the end of the process: /repo/src/g3log/g3log.hpp:140-226,
/repo/src/logcapture.cpp:43-73, /repo/src/g3log.cpp:143-230, /repo/src/logworker.cpp:38-67 and Model/Worker.

The steps of a statement: the test of its level (g3log.hpp:147); the look at `g_logger_instance` (g3log.cpp:195); the use of it (g3log.cpp:208). A fatal
statement: the test of its level; `saveFatalMessage` as far as the counter and the first stack trace (g3log.cpp:158-166); the rest of it and the look at
`g_logger_instance` (g3log.cpp:167-183, 217); the use of it (g3log.cpp:226). `bgFatal` clears `g_logger_instance` when it begins (logworker.cpp:41).

Simplifications: initializeLogging has been called with the worker of the state, and no hook, exit handler or message size has been set since; the copy of the hook, the counter and
the first stack trace are one step (Model/FatalThreads has the parts); a statement that does not find the logger is dropped without the message on stderr; a fatal statement
that does not find the logger ends the process at once with its signal (Model/FatalExit has the steps of that).
-/
namespace G3

/-- Where a thread is in its statement. -/
inductive QfPc
  | idle
  | held (st : LogStmt)                                   -- the level is on, g3log.hpp:147
  | checked (st : LogStmt)                                -- g3log.cpp:195: there was a logger
  | crashing (st : LogStmt)                               -- g3log.cpp:166: counted, first stack trace known
  | crashed (st : LogStmt) (m : FatalMessage)             -- g3log.cpp:217: there was a logger
  | asleep (st : LogStmt)                                 -- g3log.cpp:227-229

/-- A thread: what it has before it, and the statement it is in. -/
structure QThread where
  todo : List PStep
  pc : QfPc

/-- How the process ends when the worker does not end it. -/
inductive QEnd
  | signal (n : Int)      -- exitWithDefaultSignalHandler in a thread of the program, g3log.cpp:224
  | nullPointer           -- g_logger_instance was cleared between the look at it and its use, g3log.cpp:208 and :226
deriving DecidableEq, Repr

/-- The state. Ghosts: `trace` lists the uses of the level registry, `acc` the ordinary statements whose messages were handed over and `fat` the fatal ones, with their threads. -/
structure QfState where
  reg : Registry
  th : Nat → QThread
  worker : WState (LogMessage × Int)
  counter : Nat                        -- g_fatal_hook_recursive_counter
  first : Option Str                   -- first_stack_trace, g3log.cpp:166
  ended : Option QEnd
  trace : List (Nat × PStep)
  acc : List (Nat × LogStmt)
  fat : List (Nat × LogStmt)

/-- Who makes the next step. -/
inductive QfLabel
  | thread (t : Nat)                             -- a thread of the program
  | worker (l : WLabel (LogMessage × Int))       -- anything else in Model/Worker

/-- Thread `t` is replaced. -/
def QfState.setTh (s : QfState) (t : Nat) (x : QThread) : QfState := { s with th := fun k => if k = t then x else s.th k }

/-- Thread `t` goes on in its statement. -/
def QfState.goTo (s : QfState) (t : Nat) (p : QfPc) : QfState := s.setTh t ⟨(s.th t).todo, p⟩

/-- The next use of the level registry, g3log.hpp:147 and loglevels.cpp. -/
def qUse (s : QfState) (t : Nat) : Option QfState :=
  match (s.th t).todo with
  | [] => none
  | .levels o :: p => some { s.setTh t ⟨p, .idle⟩ with reg := (levelStep s.reg o).2, trace := s.trace ++ [(t, .levels o)] }
  | .log st :: p =>
    let r := logLevel st.level s.reg
    some { s.setTh t ⟨p, if r.1 then .held st else .idle⟩ with reg := r.2, trace := s.trace ++ [(t, .log st)] }

/-- The destructor of the capture, /repo/src/logcapture.cpp:43-47 and /repo/src/g3log.cpp:143-155: pushMessageToLogger looks at the logger (:195), saveFatalMessage counts the event and stores
the stack trace (:158-166). -/
def qCapture (full : Bool) (size : Int) (s : QfState) (t : Nat) (st : LogStmt) : QfState :=
  match st.op full size with
  | some (.log _) => if loggerSet s.worker then s.goTo t (.checked st) else s.goTo t .idle
  | some (.fatal _ trace _) => { s.goTo t (.crashing st) with counter := s.counter + 1, first := some (s.first.getD trace) }
  | _ => s.goTo t .idle

/-- /repo/src/g3log.cpp:208 and logworker.cpp:101-103. -/
def qSave (full : Bool) (size : Int) (s : QfState) (t : Nat) (st : LogStmt) : Option QfState :=
  match st.op full size with
  | some (.log m) =>
    if loggerSet s.worker then
      (wStep s.worker (.save (m, 0))).map fun w => { s.goTo t .idle with worker := w, acc := s.acc ++ [(t, st)] }
    else some { s with ended := some .nullPointer }
  | _ => none

/-- /repo/src/g3log.cpp:167-183, fatalCall (:237-239) and pushFatalMessageToLogger as far as the look at the logger (:217-225). -/
def qReport (full : Bool) (size : Int) (s : QfState) (t : Nat) (st : LogStmt) : Option QfState :=
  match st.op full size with
  | some (.fatal m trace n) =>
    let m1 := { m with message := m.message ++ trace }
    let m2 := if s.counter > 1 then { m1 with message := m1.message ++ recursiveText (s.first.getD trace) } else m1
    if loggerSet s.worker then some (s.goTo t (.crashed st (FatalMessage.new m2 n)))
    else some { s with ended := some (.signal n) }
  | _ => none

/-- /repo/src/g3log.cpp:226 and logworker.cpp:105-107. -/
def qFatal (s : QfState) (t : Nat) (st : LogStmt) (m : FatalMessage) : Option QfState :=
  if loggerSet s.worker then
    (wStep s.worker (.fatal (m.base, m.signal))).map fun w => { s.goTo t (.asleep st) with worker := w, fat := s.fat ++ [(t, st)] }
  else some { s with ended := some .nullPointer }

/-- One step; `none` if it is not possible, in particular after the end of the process. -/
def qfStep (full : Bool) (size : Int) (s : QfState) (l : QfLabel) : Option QfState :=
  if s.ended.isSome || s.worker.wpc.isDead then none else
  match l with
  | .thread t =>
    match (s.th t).pc with
    | .idle => qUse s t
    | .held st => some (qCapture full size s t st)
    | .checked st => qSave full size s t st
    | .crashing st => qReport full size s t st
    | .crashed st m => qFatal s t st m
    | .asleep _ => none
  | .worker (.save _) => none
  | .worker (.fatal _) => none
  | .worker l => (wStep s.worker l).map fun w => { s with worker := w }

/-- A schedule. -/
def qfRun (full : Bool) (size : Int) (s : QfState) : List QfLabel → Option QfState
  | [] => some s
  | l :: ls => (qfStep full size s l).bind (qfRun full size · ls)

/-- The threads begin; the worker is in the state `w`. -/
def QfState.start (w : WState (LogMessage × Int)) (progs : Nat → List PStep) : QfState :=
  { reg := defaultLevels, th := fun t => ⟨progs t, .idle⟩, worker := w, counter := 0, first := none, ended := none, trace := [], acc := [], fat := [] }

end G3
