import Verif.Model.Str
/-
When messages get their time stamps and when they are handed to the worker: /repo/src/logcapture.cpp:43-47 (end of a statement),
/repo/src/g3log.cpp:55-83 (initializeLogging), 91-95 (hook), 118-121 (shutDownLogging), 143-209 (saveMessage, saveFatalMessage,
pushMessageToLogger), 216-230 (pushFatalMessageToLogger), /repo/src/logmessage.cpp:121-137 (the time is read when the message is made).

Any number of threads run logging statements; the operands of a statement may run statements themselves, and so may the hook
of a fatal event. The clock is `high_resolution_clock`.

Simplifications: texts and levels are left out (a statement is one whose level is on); testing for a logger and handing the message over is one step (Model/Race,
Model/InitRace), and so is taking over the hook (Model/FatalThreads); the exit handler is the library's (Model/Front); a fatal statement before the first
initializeLogging has no step (C48). A statement left by an exception of an operand goes on like one that is not, Model/Statement.
-/
namespace G3

/-- A message. `began` and `made` are the numbers of the steps in which its statement began and the message was made; they are not part of the program. -/
structure StEntry where
  thread : Nat
  stamp : Int
  fatal : Bool
  began : Nat
  made : Nat
deriving DecidableEq, Repr

/-- What a thread is in. -/
inductive StFrame
  | args (began : Nat)                        -- a statement whose operands are being evaluated
  | ready (e : StEntry)                       -- its message has been made, g3log.cpp:146
  | fatal (e : StEntry) (hookRuns : Bool)     -- a fatal one, in saveFatalMessage; `hookRuns`: in the hook of the program, g3log.cpp:167
  | asleep                                    -- after the hand-over of a fatal message, g3log.cpp:227-229
deriving DecidableEq, Repr

/-- The state. -/
structure StState where
  clock : Int
  n : Nat                           -- number of steps made, not part of the program
  stack : Nat → List StFrame        -- per thread, innermost first
  hook : Bool                       -- a hook of the program is set
  active : Bool                     -- g_logger_instance ≠ nullptr
  saved : Bool                      -- g_save_first_uninitialized_flag is used up
  first : Bool                      -- g_set_first_uninitialized_flag is used up
  kept : Option StEntry             -- g_first_uninitialized_msg
  out : List (StEntry × Nat)        -- handed over, with the number of the step
  over : Bool                       -- the process has ended

/-- The steps. -/
inductive StLabel
  | pass (d : Nat)          -- time passes
  | adjust (c : Int)        -- the clock is set (possible where high_resolution_clock is the system clock)
  | setHook                 -- setFatalPreLoggingHook
  | init                    -- initializeLogging
  | shut                    -- shutDownLogging
  | begin (t : Nat)         -- a statement begins
  | make (t : Nat) (fatal : Bool)     -- it ends: the destructor of the capture makes the message
  | push (t : Nat)          -- pushMessageToLogger
  | pushFatal (t : Nat)     -- the hook is over: fatalCall
deriving DecidableEq, Repr

/-- Where a thread can begin a statement: outside of statements, in operands, in the hook. -/
def canBegin : List StFrame → Bool
  | [] => true
  | .args _ :: _ => true
  | .fatal _ h :: _ => h
  | .ready _ :: _ => false
  | .asleep :: _ => false

/-- The stack of thread t is replaced. -/
def setStack (f : Nat → List StFrame) (t : Nat) (x : List StFrame) : Nat → List StFrame := fun k => if k = t then x else f k

/-- `pushMessageToLogger`, g3log.cpp:193-209. -/
def stPush (s : StState) (t : Nat) (e : StEntry) (r : List StFrame) : StState :=
  if s.active then { s with stack := setStack s.stack t r, out := s.out ++ [(e, s.n)] }
  else if s.first then { s with stack := setStack s.stack t r }
  else { s with stack := setStack s.stack t r, first := true, kept := some e }

/-- `initializeLogging` with a worker when there is none, g3log.cpp:70-82. -/
def stInit (s : StState) : StState :=
  if s.saved then { s with active := true, hook := false }
  else { s with active := true, hook := false, saved := true, kept := none, out := s.out ++ (s.kept.map fun e => (e, s.n)).toList }

/-- `saveMessage`, g3log.cpp:143-155, and the begin of `saveFatalMessage`, g3log.cpp:157-167. -/
def stMake (s : StState) (t : Nat) (fatal : Bool) (b : Nat) (r : List StFrame) : Option StState :=
  let e : StEntry := { thread := t, stamp := s.clock, fatal := fatal, began := b, made := s.n }
  if fatal then
    if s.saved then some { s with stack := setStack s.stack t (.fatal e s.hook :: r), hook := false } else none
  else some { s with stack := setStack s.stack t (.ready e :: r) }

/-- The step without its count. -/
def stAct (s : StState) : StLabel → Option StState
  | .pass d => some { s with clock := s.clock + d }
  | .adjust c => some { s with clock := c }
  | .setHook => some { s with hook := true }
  | .init => if s.active then none else some (stInit s)
  | .shut => some { s with active := false }
  | .begin t => if canBegin (s.stack t) then some { s with stack := setStack s.stack t (.args s.n :: s.stack t) } else none
  | .make t f =>
    match s.stack t with
    | .args b :: r => stMake s t f b r
    | _ => none
  | .push t =>
    match s.stack t with
    | .ready e :: r => some (stPush s t e r)
    | _ => none
  | .pushFatal t =>
    match s.stack t with
    | .fatal e _ :: _ =>
      if s.active then some { s with stack := setStack s.stack t [.asleep], out := s.out ++ [(e, s.n)] }
      else some { s with over := true }
    | _ => none

/-- One step. -/
def stStep (s : StState) (l : StLabel) : Option StState :=
  if s.over then none else (stAct s l).map fun u => { u with n := s.n + 1 }

/-- A schedule. -/
def stRun (s : StState) : List StLabel → Option StState
  | [] => some s
  | l :: ls => (stStep s l).bind (stRun · ls)

/-- The program begins when the clock shows c. -/
def StState.start (c : Int) : StState :=
  { clock := c, n := 0, stack := fun _ => [], hook := false, active := false, saved := false, first := false, kept := none, out := [], over := false }

end G3
