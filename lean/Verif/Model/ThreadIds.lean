import Verif.Model.LogMessage
import Mathlib.Logic.Function.Basic
/-
The thread identification in messages: /repo/src/logmessage.cpp:121-138 (constructor: `_call_thread_id(std::this_thread::get_id())`), 145-168 (copy, move),
171-175 (threadID), 59-64 (FullLogDetailsToString), /repo/src/g3log.cpp:143-155 (saveMessage, on the thread of the statement),
/repo/src/logworker.cpp:23-36 (bgSave, on the worker's thread).

The message is made on the thread of the statement and carries that thread's identification through the queue; the worker hands it to the sinks.

External: the system gives a new thread any identification that no running thread has; it may give that of a thread that has ended (C++ standard,
[thread.thread.id]). Simplifications: one worker that is there all the time; its own identification is one of those that are given; fatal messages are copies of
messages (C29) and are not told apart; processes made by fork are left out.
-/
namespace G3

/-- What a statement gives to its message. -/
structure TidSrc where
  fullName : Bool
  now : Int
  file : Str
  line : Int
  function : Str
  level : Level

/-- The message of a statement on a thread with identification i. -/
def TidSrc.message (x : TidSrc) (i : Nat) : LogMessage := LogMessage.new x.fullName x.now i x.file x.line x.function x.level

/-- The process. Each message is kept with the thread that logged it, which the code does not know. -/
structure TidState where
  used : List Nat                     -- threads that have been started
  id : Nat → Option Nat               -- identification of the threads that run
  queue : List (Nat × LogMessage)
  out : List (Nat × LogMessage)       -- what sinks have got

/-- The steps. -/
inductive TidLabel
  | start (t i : Nat)            -- thread t starts and gets identification i
  | log (t : Nat) (x : TidSrc)
  | done (t : Nat)               -- thread t ends
  | work                         -- the worker hands the first message to the sinks

/-- No running thread has the identification. -/
def TidState.free (s : TidState) (i : Nat) : Bool := s.used.all fun u => s.id u != some i

/-- One step. -/
def tidStep (s : TidState) : TidLabel → Option TidState
  | .start t i =>
    if s.used.contains t || !s.free i then none
    else some { s with used := s.used ++ [t], id := Function.update s.id t (some i) }
  | .log t x =>
    match s.id t with
    | some i => some { s with queue := s.queue ++ [(t, x.message i)] }
    | none => none
  | .done t =>
    match s.id t with
    | some _ => some { s with id := Function.update s.id t none }
    | none => none
  | .work =>
    match s.queue with
    | m :: q => some { s with queue := q, out := s.out ++ [m] }
    | [] => none

/-- A schedule. -/
def tidRun (s : TidState) : List TidLabel → Option TidState
  | [] => some s
  | l :: ls => (tidStep s l).bind (tidRun · ls)

/-- Before any thread. -/
def TidState.start : TidState := { used := [], id := fun _ => none, queue := [], out := [] }

end G3
