import Verif.Model.Worker
/-
The worker on Windows, where a fatal event that is an exception does not end the process: /repo/src/logworker.cpp:38-68,
/repo/src/crashhandler_windows.cpp:27, 63-81, 158-173, /repo/src/g3log.cpp:216-230.

`bgFatal` writes the message to stderr, sends it to the sinks and removes all sinks, as elsewhere, but `exitWithDefaultSignalHandler`
returns if the level is FATAL_EXCEPTION, after it has cleared `gBlockForFatal` (crashhandler_windows.cpp:165-168). The worker thread then
goes on with its tasks. The thread that raised the exception leaves the loop g3log.cpp:227-229, and the search for a handler continues
(crashhandler_windows.cpp:80): the program may have one and go on.

The model is that of `Verif.Model.Worker` with that one step of the worker thread changed, and with the threads that wait for the end of
the process. For every other level `raise` ends the process, as in `Verif.Model.Worker`.

Simplifications, besides those of `Verif.Model.Worker`: the level of a message is the answer of `exc` to the message; the text of `perror`
at logworker.cpp:67 is not modelled; the handlers of the process are the subject of `Verif.Model.Windows`.
-/
namespace G3

variable {M : Type}

/-- The state: that of the worker and its sinks, `gBlockForFatal`, the client threads that are in the loop g3log.cpp:227-229, and what the
worker thread has as `uniqueMsg` in `bgFatal`. -/
structure YState (M : Type) where
  w : WState M
  block : Bool
  waiting : Nat → Bool
  msg : Option M

/-- Steps. -/
inductive YLabel (M : Type)
  | base (l : WLabel M)             -- as in Verif.Model.Worker, except that clients raise fatal events with `raise`
  | raise (t : Nat) (m : M)         -- client thread t raises a fatal event: g3log.cpp:226, logworker.cpp:105-107
  | resume (t : Nat)                -- client thread t leaves the loop g3log.cpp:227-229
  | sinkResume (i : Nat)            -- the thread of sink i does
deriving DecidableEq, Repr

/-- After `createLogWorker`; crashhandler_windows.cpp:27. -/
def YState.start : YState M := { w := .start, block := true, waiting := fun _ => false, msg := none }

/-- `uniqueMsg` after a step to `w`: the worker thread has it from the beginning of `bgFatal` on, logworker.cpp:38-45. -/
def heldMsg (w : WState M) (old : Option M) : Option M :=
  match w.wpc with
  | .sending (.fatal m) _ => some m
  | _ => old

/-- The worker thread is at logworker.cpp:64: all sinks are removed. -/
def atExit (w : WState M) : Bool :=
  match w.wpc, w.att with
  | .clearing true, [] => true
  | _, _ => false

/-- A step of Verif.Model.Worker. -/
def plain (s : YState M) (l : WLabel M) : Option (YState M) := (wStep s.w l).map fun w => { s with w := w, msg := heldMsg w s.msg }

/-- Nothing happens after the end of the process or after undefined behaviour. -/
def YState.over (s : YState M) : Bool := s.w.ub || s.w.wpc.isDead

/-- One step. `exc` says which messages have the level FATAL_EXCEPTION. -/
def yStep (exc : M → Bool) (s : YState M) : YLabel M → Option (YState M)
  | .base (.fatal _) => none
  | .base .work =>
    if !s.over && atExit s.w && s.msg.any exc then
      some { s with w := { s.w with wpc := .idle, completed := s.w.completed + 1 }, block := false }     -- crashhandler_windows.cpp:165-168
    else plain s .work
  | .base l => plain s l
  | .raise t m => if s.waiting t then none else (plain s (.fatal m)).map fun s' => { s' with waiting := fun u => decide (u = t) || s.waiting u }
  | .resume t =>
    if !s.over && s.waiting t && !s.block then some { s with waiting := fun u => decide (u ≠ t) && s.waiting u } else none
  | .sinkResume i =>
    if !s.over && decide (i < s.w.n) && (s.w.sk i).blocked && !s.block then
      some { s with w := { s.w with sk := updSink s.w.sk i fun k => { k with blocked := false } } }
    else none

/-- A schedule. -/
def yRun (exc : M → Bool) (s : YState M) : List (YLabel M) → Option (YState M)
  | [] => some s
  | l :: ls => (yStep exc s l).bind (yRun exc · ls)

end G3
