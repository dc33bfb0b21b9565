import Verif.Model.Str
/-
Changing the format of the entries through the handle of a file sink while messages are logged: /repo/src/filesink.cpp:57-70 (fileWrite), 106-108
(overrideLogDetails), /repo/src/g3log/sink.hpp:64-73 (send and async: both put a task into the queue of the sink), /repo/src/g3log/sinkhandle.hpp:38-49 (call),
/repo/src/logworker.cpp:23-36 (bgSave), /repo/src/g3log.cpp:193-210 (pushMessageToLogger: the queue of the worker).

A message goes through the queue of the worker and then through that of the sink; a call through the handle goes into the queue of the sink at once.

External: nothing. Simplifications: one sink; a format is an opaque value; what the call returns is C18; sinks that are removed are C04.
-/
namespace G3

/-- The two queues, the format of the sink (`_log_details_func`), and the entries it has written, each with its format. -/
structure FmtState (M F : Type) where
  wq : List M
  sq : List (M ⊕ F)
  fmt : F
  out : List (M × F)

/-- The steps. -/
inductive FmtLabel (M F : Type)
  | log (m : M)       -- a statement: into the queue of the worker
  | call (f : F)      -- call(&FileSink::overrideLogDetails, f)
  | forward           -- the worker hands its first message to the sink
  | handle            -- the sink does its first task

variable {M F : Type}

/-- One step. -/
def fmtStep (s : FmtState M F) : FmtLabel M F → Option (FmtState M F)
  | .log m => some { s with wq := s.wq ++ [m] }
  | .call f => some { s with sq := s.sq ++ [.inr f] }
  | .forward =>
    match s.wq with
    | m :: q => some { s with wq := q, sq := s.sq ++ [.inl m] }
    | [] => none
  | .handle =>
    match s.sq with
    | .inl m :: q => some { s with sq := q, out := s.out ++ [(m, s.fmt)] }
    | .inr f :: q => some { s with sq := q, fmt := f }
    | [] => none

/-- A schedule. -/
def fmtRun (s : FmtState M F) : List (FmtLabel M F) → Option (FmtState M F)
  | [] => some s
  | l :: ls => (fmtStep s l).bind (fmtRun · ls)

/-- A new sink with format f. -/
def FmtState.start (f : F) : FmtState M F := { wq := [], sq := [], fmt := f, out := [] }

end G3
