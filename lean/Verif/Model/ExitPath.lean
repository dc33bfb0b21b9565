import Verif.Model.Str
/-
The end of a program through `exit()`: `main` returns or a thread calls `exit`, or the process survives the signal raised by
`exitWithDefaultSignalHandler` (/repo/src/crashhandler_unix.cpp:222-243; as PID 1, see the comment at :237-239) and the function calls `exit`
itself. `exit` destroys the objects with static storage duration, among them the `LogWorker` if the program keeps it there
(/repo/src/logworker.cpp:70-99), on the thread that called it.

Simplifications: messages are numbers; all sinks together are one queue (Model/Worker has each of them); LOG and LOG(FATAL) hand over in
one step (Model/Race, Model/FatalThreads and Model/FatalExit have the parts); a signal does not wait at the handler's counter
(crashhandler_unix.cpp:67-71, Model/FatalExit); whether the
`LogWorker` is static is the parameter `static`; if it is, it is the one passed to `initializeLogging`; if it is not, `exit` does not
destroy it, as C++ demands. What raising a signal does once the original handlers are back is the parameter `ends`. Calling `exit` while
another thread is in `exit` is undefined behaviour in C++ and a separate outcome. Other static objects do not log.
-/
namespace G3

/-- What is handed to the worker thread. -/
inductive ExItem
  | msg (m : Nat)
  | fatal (n : Int)
  | clear            -- the task of removeAllSinks, /repo/src/g3log/logworker.hpp:125-131
  | stop             -- the last task of ~Active, /repo/src/g3log/active.hpp:51
deriving DecidableEq, Repr

/-- Where the worker thread is. -/
inductive ExWork
  | serving
  | fatal (n : Int)      -- logworker.cpp:41-63, waits for the sinks
  | flushed (n : Int)    -- before crashhandler_unix.cpp:235
  | clearing             -- removing the sinks for removeAllSinks
  | inExit               -- crashhandler_unix.cpp:242
  | gone                 -- active.hpp:38: the thread function has returned
deriving DecidableEq, Repr

/-- Who called `exit`. -/
inductive ExWho
  | thread (t : Nat)
  | worker
deriving DecidableEq, Repr

/-- How far `exit` is. -/
inductive ExPhase
  | begun
  | shut          -- logworker.cpp:71 done
  | waiting       -- logworker.cpp:83: the task is in the queue, its future is awaited
  | joining       -- logworker.cpp:98: the last task is in the queue, the thread is awaited
  | destroyed     -- nothing left to destroy
deriving DecidableEq, Repr

/-- A call of `exit`. -/
structure ExCall where
  who : ExWho
  code : Int
  phase : ExPhase
deriving DecidableEq, Repr

/-- How the process ended. -/
inductive ExEnd
  | killed (w : ExWho) (n : Int)
  | exited (w : ExWho) (n : Int)
  | ub
deriving DecidableEq, Repr

/-- Shared state. -/
structure ExState where
  logger : Bool            -- g_logger_instance, /repo/src/g3log.cpp:37
  block : Bool             -- gBlockForFatal, crashhandler_unix.cpp:40
  queue : List ExItem       -- the worker's queue
  sinkq : List ExItem       -- the sinks' queues
  done : List ExItem        -- processed by the sinks
  attached : Bool          -- the worker has its sinks
  token : Bool             -- the future of removeAllSinks is ready
  wpc : ExWork
  blocked : Nat → Bool     -- thread in g3log.cpp:227-229
  call : Option ExCall      -- the call of exit in progress
  dead : Option ExEnd

/-- Atomic steps. -/
inductive ExLabel
  | log (t m : Nat)             -- LOG at a non-fatal level
  | fatal (t : Nat) (n : Int) (via : Bool)   -- a fatal event; `via`: it is a signal, and its handler is running
  | exit (t : Nat) (c : Int)    -- main returns c, or a thread calls exit(c)
  | unblock (t : Nat)           -- g3log.cpp:227 with gBlockForFatal false
  | xShut                       -- logworker.cpp:71; without a static LogWorker exit has nothing to destroy
  | xPush                       -- logworker.cpp:83, the task of removeAllSinks is sent
  | xReady                      -- logworker.cpp:83 returns; :98, the last task is sent
  | xJoin                       -- logworker.cpp:98, the thread has ended
  | xEnd                        -- the process ends
  | take                        -- the worker takes an item
  | sink                        -- a sink processes an item
  | cleared                     -- removeAllSinks is done: all sinks have processed what they were sent
  | flush                       -- logworker.cpp:63 returns
  | wRaise                      -- crashhandler_unix.cpp:235-242
deriving DecidableEq, Repr

/-- Thread `t` runs the program's code: it does not wait in a fatal event, and has not called exit. -/
def ExState.free (s : ExState) (t : Nat) : Bool :=
  !s.blocked t && (match s.call with | some c => !(c.who == .thread t) | none => true)

/-- `exit(c)` by `w`. -/
def ExState.callExit (s : ExState) (w : ExWho) (c : Int) : ExState :=
  match s.call with
  | none => { s with call := some { who := w, code := c, phase := .begun } }
  | some _ => { s with dead := some .ub }

/-- `exit` reaches phase `p`. -/
def ExState.to (s : ExState) (c : ExCall) (p : ExPhase) : ExState := { s with call := some { c with phase := p } }

/-- One step; `none` if it is not possible. A signal raised in its own handler is blocked and does not end the process
(crashhandler_unix.cpp:95 installs the handler without SA_NODEFER). -/
def exStep (static : Bool) (ends : Int → Bool) (s : ExState) (l : ExLabel) : Option ExState :=
  if s.dead.isSome then none else
  match l with
  | .log t m =>
    if s.free t then some (if s.logger then { s with queue := s.queue ++ [.msg m] } else s) else none
  | .fatal t n via =>
    if s.free t then
      if s.logger then  -- g3log.cpp:226-229
        some { s with queue := s.queue ++ [.fatal n], blocked := fun k => if k = t then true else s.blocked k }
      else if ends n && !via then some { s with dead := some (.killed (.thread t) n) }  -- g3log.cpp:217-224, crashhandler_unix.cpp:235
      else some (ExState.callExit { s with block := false } (.thread t) n)              -- crashhandler_unix.cpp:240-242
    else none
  | .exit t c => if s.free t then some (s.callExit (.thread t) c) else none
  | .unblock t =>
    if s.blocked t = true ∧ s.block = false then some { s with blocked := fun k => if k = t then false else s.blocked k } else none
  | .xShut =>
    match s.call with
    | some c =>
      if c.phase = .begun then
        some (if static then ExState.to { s with logger := false } c .shut else s.to c .destroyed)
      else none
    | none => none
  | .xPush =>
    match s.call with
    | some c => if c.phase = .shut then some (ExState.to { s with queue := s.queue ++ [.clear] } c .waiting) else none
    | none => none
  | .xReady =>
    match s.call with
    | some c =>
      if c.phase = .waiting ∧ s.token = true then some (ExState.to { s with queue := s.queue ++ [.stop] } c .joining) else none
    | none => none
  | .xJoin =>
    match s.call with
    | some c => if c.phase = .joining ∧ s.wpc = .gone then some (s.to c .destroyed) else none
    | none => none
  | .xEnd =>
    match s.call with
    | some c => if c.phase = .destroyed then some { s with dead := some (.exited c.who c.code) } else none
    | none => none
  | .take =>
    if s.wpc = .serving then
      match s.queue with
      | [] => none
      | .msg m :: q => some { s with queue := q, sinkq := if s.attached then s.sinkq ++ [.msg m] else s.sinkq }
      | .fatal n :: q =>
        some { s with queue := q, sinkq := if s.attached then s.sinkq ++ [.fatal n] else s.sinkq, wpc := .fatal n, logger := false }
      | .clear :: q => some { s with queue := q, wpc := .clearing }
      | .stop :: q => some { s with queue := q, wpc := .gone }
    else none
  | .sink =>
    match s.sinkq with
    | [] => none
    | x :: q => some { s with sinkq := q, done := s.done ++ [x] }
  | .cleared =>
    if s.wpc = .clearing ∧ s.sinkq = [] then some { s with wpc := .serving, attached := false, token := true } else none
  | .flush =>
    match s.wpc with
    | .fatal n => if s.sinkq = [] then some { s with wpc := .flushed n, attached := false } else none
    | _ => none
  | .wRaise =>
    match s.wpc with
    | .flushed n =>
      if ends n then some { s with dead := some (.killed .worker n) }
      else some (ExState.callExit { s with block := false, wpc := .inExit } .worker n)
    | _ => none

/-- A schedule. -/
def exRun (static : Bool) (ends : Int → Bool) (s : ExState) : List ExLabel → Option ExState
  | [] => some s
  | l :: ls => (exStep static ends s l).bind (exRun static ends · ls)

/-- Logging is initialised, there are sinks, nothing has happened. -/
def exStart : ExState :=
  { logger := true, block := true, queue := [], sinkq := [], done := [], attached := true, token := false, wpc := .serving,
    blocked := fun _ => false, call := none, dead := none }

end G3
