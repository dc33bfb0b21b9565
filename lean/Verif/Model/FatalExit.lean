import Verif.Model.Str
/-
The end of a program with fatal events on several threads: `pushFatalMessageToLogger` (/repo/src/g3log.cpp:216-230), `bgFatal`
(/repo/src/logworker.cpp:38-68), `signalHandler` (/repo/src/crashhandler_unix.cpp:62-84) and `exitWithDefaultSignalHandler` (:222-243)
running at the same time on different threads.

Simplifications: the messages are numbers; all sinks together are one queue (each has its own in Model/Worker); the pre-fatal hook and the
preparation of the message (Model/FatalThreads) take no shared step here; a non-fatal LOG is one step (Model/Race has its parts); the
handlers are installed (Model/Signals) for all signals considered; a signal arrives on a thread that is in the program, not in a handler; the default exit handler is in force. What raising a signal does once the
original handlers are back is the parameter `ends`: true if it ends the process.
-/
namespace G3

/-- What is handed to the worker. -/
inductive XItem
  | msg (m : Nat)
  | fatal (t : Nat) (n : Int)
deriving DecidableEq, Repr

/-- Where a thread of the program is. -/
inductive XPc
  | run          -- in the program
  | wait         -- crashhandler_unix.cpp:68-70
  | prep         -- building the fatal message, up to the test at g3log.cpp:217
  | push         -- the test found a logger; before g3log.cpp:226
  | blocked      -- g3log.cpp:227-229
  | back         -- has left that loop: the fatal statement or the handler has returned
  | ending       -- the test found no logger: before crashhandler_unix.cpp:227
  | restored     -- before :235
  | raised       -- raise has returned, before :240
  | exiting      -- in exit(), :242
deriving DecidableEq, Repr

/-- Where the worker thread is. -/
inductive XWork
  | serving
  | fatal (n : Int)      -- logworker.cpp:41-63: logging is shut down, waits for the sinks
  | flushed (n : Int)    -- before crashhandler_unix.cpp:227
  | restored (n : Int)
  | raised (n : Int)
  | exiting (n : Int)
deriving DecidableEq, Repr

/-- How the process ended. -/
inductive XEnd
  | killed (n : Int)
  | exited (n : Int)
  | ub                   -- `g_logger_instance->fatal` on a null pointer
deriving DecidableEq, Repr

/-- Shared state. `hist` lists everything that was ever handed over; it is not part of the program. -/
structure XState where
  logger : Bool          -- g_logger_instance, g3log.cpp:37
  first : Nat            -- firstExit, crashhandler_unix.cpp:54
  block : Bool           -- gBlockForFatal, :40
  restored : Bool        -- the original handlers are back
  queue : List XItem     -- the worker's queue
  sinkq : List XItem     -- the sinks' queues
  done : List XItem      -- processed by the sinks
  hist : List XItem
  wpc : XWork
  pc : Nat → XPc
  sig : Nat → Int        -- the signal of the thread's fatal event
  via : Nat → Bool       -- raised as a signal: the thread is in signalHandler
  dead : Option XEnd

/-- Atomic steps. -/
inductive XLabel
  | log (t m : Nat)             -- LOG at a non-fatal level
  | fatal (t : Nat)             -- LOG(FATAL), CHECK(false): SIGABRT
  | signal (t : Nat) (n : Int)  -- fatal signal n on thread t
  | leave (t : Nat)             -- crashhandler_unix.cpp:68-70 with gBlockForFatal false
  | check (t : Nat)             -- g3log.cpp:217
  | push (t : Nat)              -- g3log.cpp:226
  | unblock (t : Nat)           -- g3log.cpp:227 with gBlockForFatal false
  | restore (t : Nat)           -- crashhandler_unix.cpp:227-229, called from g3log.cpp:224
  | raise (t : Nat)             -- :235
  | release (t : Nat)           -- :240
  | exit (t : Nat)              -- :242
  | take                        -- the worker takes an item; logworker.cpp:23-36, 38-59
  | sink                        -- a sink processes an item
  | flush                       -- logworker.cpp:63 returns
  | wRestore | wRaise | wRelease | wExit   -- crashhandler_unix.cpp:227-242 on the worker thread
deriving DecidableEq, Repr

/-- The thread goes to `p`. -/
def XState.goto (s : XState) (t : Nat) (p : XPc) : XState := { s with pc := fun k => if k = t then p else s.pc k }

/-- A fatal event of kind `via` begins on thread `t`. -/
def XState.begin (s : XState) (t : Nat) (n : Int) (v : Bool) (p : XPc) : XState :=
  { s.goto t p with sig := fun k => if k = t then n else s.sig k, via := fun k => if k = t then v else s.via k }

/-- An item is handed to the worker. -/
def XState.hand (s : XState) (x : XItem) : XState := { s with queue := s.queue ++ [x], hist := s.hist ++ [x] }

/-- One step; `none` if it is not possible. A raised signal that is blocked in its own handler does not end the process
(crashhandler_unix.cpp:95 installs the handler without SA_NODEFER). -/
def xStep (ends : Int → Bool) (s : XState) (l : XLabel) : Option XState :=
  if s.dead.isSome then none else
  match l with
  | .log t m =>
    if s.pc t = .run ∨ s.pc t = .back then some (if s.logger then s.hand (.msg m) else s) else none
  | .fatal t => if s.pc t = .run then some (s.begin t 6 false .prep) else none
  | .signal t n =>
    if s.pc t = .run then
      if s.restored then some (if ends n then { s with dead := some (.killed n) } else s)
      else some { s.begin t n true (if s.first = 0 then .prep else .wait) with first := s.first + 1 }
    else none
  | .leave t => if s.pc t = .wait ∧ s.block = false then some (s.goto t .prep) else none
  | .check t => if s.pc t = .prep then some (s.goto t (if s.logger then .push else .ending)) else none
  | .push t =>
    if s.pc t = .push then
      if s.logger then some ((s.hand (.fatal t (s.sig t))).goto t .blocked) else some { s with dead := some .ub }
    else none
  | .unblock t => if s.pc t = .blocked ∧ s.block = false then some (s.goto t .back) else none
  | .restore t => if s.pc t = .ending then some { s.goto t .restored with restored := true } else none
  | .raise t =>
    if s.pc t = .restored then
      if s.via t = false ∧ ends (s.sig t) = true then some { s with dead := some (.killed (s.sig t)) } else some (s.goto t .raised)
    else none
  | .release t => if s.pc t = .raised then some { s.goto t .exiting with block := false } else none
  | .exit t => if s.pc t = .exiting then some { s with dead := some (.exited (s.sig t)) } else none
  | .take =>
    if s.wpc = .serving then
      match s.queue with
      | [] => none
      | .msg m :: q => some { s with queue := q, sinkq := s.sinkq ++ [.msg m] }
      | .fatal t n :: q => some { s with queue := q, sinkq := s.sinkq ++ [.fatal t n], wpc := .fatal n, logger := false }
    else none
  | .sink =>
    match s.sinkq with
    | [] => none
    | x :: q => some { s with sinkq := q, done := s.done ++ [x] }
  | .flush => match s.wpc with | .fatal n => if s.sinkq = [] then some { s with wpc := .flushed n } else none | _ => none
  | .wRestore => match s.wpc with | .flushed n => some { s with wpc := .restored n, restored := true } | _ => none
  | .wRaise =>
    match s.wpc with
    | .restored n => some (if ends n then { s with dead := some (.killed n) } else { s with wpc := .raised n })
    | _ => none
  | .wRelease => match s.wpc with | .raised n => some { s with wpc := .exiting n, block := false } | _ => none
  | .wExit => match s.wpc with | .exiting n => some { s with dead := some (.exited n) } | _ => none

/-- A schedule. -/
def xRun (ends : Int → Bool) (s : XState) : List XLabel → Option XState
  | [] => some s
  | l :: ls => (xStep ends s l).bind (xRun ends · ls)

/-- Logging is initialised, nothing has happened. -/
def xStart : XState :=
  { logger := true, first := 0, block := true, restored := false, queue := [], sinkq := [], done := [], hist := [],
    wpc := .serving, pc := fun _ => .run, sig := fun _ => 0, via := fun _ => false, dead := none }

end G3
