import Verif.Model.Worker
/-
Sinks whose destructors use the library. The real sink of the user is destroyed after the thread of `Sink<T>` has ended: /repo/src/g3log/sink.hpp:36-39 and 60-62 (`_real_sink` is destroyed after the body of `~Sink`), on the thread that gave up the
last `shared_ptr`: the worker thread in `removeSink`, `removeAllSinks` (/repo/src/g3log/logworker.hpp:108-113, 126-128) and in `bgFatal` (/repo/src/logworker.cpp:63), the thread that destroys the worker (logworker.cpp:70-99), or a client.
In `Verif.Model.Worker` the destructor of the real sink runs between the end of the thread of the sink and the step that makes it `destroyed`.

LOG goes to the worker while `g_logger_instance` is set (/repo/src/g3log.cpp:194-210). `~LogWorker` sets it to null first (logworker.cpp:71, g3log.cpp:127-138), and so does `bgFatal` (logworker.cpp:41, g3log.cpp:116-119). The worker is the one
that logging was initialised with, and logging is not initialised again. Whole accesses to the pointer interleave (the race is Model/Race).

A synchronous call in such a destructor (`addSink`, `removeSink`, `removeAllSinks`) waits for the worker thread. On other threads this is the call of a client; on the worker thread it is `sync`. Fatal events in destructors
are Model/SinkDtorFatal. The sink that an `addSink` without worker (future.hpp:47-52) leaves behind is destroyed as by a client.
-/
namespace G3

variable {M : Type}

/-- The worker with its sinks, and what LOG and the destructors of sinks need. -/
structure DtState (M : Type) where
  w : WState M
  active : Bool            -- `g_logger_instance` is this worker
  unlogged : List M        -- what was given to LOG when it was null: g3log.cpp:196-206
  waits : Option Nat       -- the worker thread waits in this synchronous call, inside a destructor

/-- Which of these the library prints on stderr: std::call_once, only the first of the process, g3log.cpp:196-203. -/
def DtState.printed (s : DtState M) : Option M := s.unlogged.head?

/-- After `initializeLogging`, g3log.cpp:55-83, with nothing logged before. -/
def DtState.start : DtState M := ⟨.start, true, [], none⟩

/-- Synchronous calls. -/
inductive DtSync
  | add
  | remove (j : Nat)
  | clear
deriving DecidableEq, Repr

/-- The call as a step of Model/Worker. -/
def DtSync.label : DtSync → WLabel M
  | .add => .add
  | .remove j => .remove j
  | .clear => .clear

/-- Steps. -/
inductive DtLabel (M : Type)
  | base (l : WLabel M)                 -- anything but LOG
  | log (who : Option Nat) (m : M)      -- LOG by a client, or in the destructor of a sink
  | sync (i : Nat) (c : DtSync)         -- the destructor of sink i, on the worker thread, makes a synchronous call
  | back                                -- the call returns
deriving DecidableEq, Repr

/-- The worker thread is in the destructor of the real sink i. -/
def onWorker (w : WState M) (i : Nat) : Bool :=
  (match w.wpc with
    | .rmWait j => decide (j = i)
    | .clrWait j _ => decide (j = i)
    | _ => false) && (w.sk i).exited

/-- Another thread is: a client, or the one that destroys the worker. -/
def onOther (w : WState M) (i : Nat) : Bool := ((w.sk i).reaping || decide (w.phase = .waitSink i)) && (w.sk i).exited

/-- The destructor of the real sink i can take a step. -/
def inSinkDtor (s : DtState M) (i : Nat) : Bool := (onWorker s.w i && s.waits.isNone) || onOther s.w i

/-- The worker thread takes a fatal message: logworker.cpp:38-41. -/
def takesFatal (w : WState M) : Bool :=
  match w.wpc, w.wq with
  | .idle, .fatal _ :: _ => true
  | _, _ => false

/-- Is the step possible? The worker thread does nothing else while it waits; fatal events need an initialised logger (else the process ends at once, g3log.cpp:217-225). -/
def dtOk (s : DtState M) : WLabel M → Bool
  | .save _ => false
  | .fatal _ => s.active
  | .sinkFatal _ _ => s.active
  | .work => s.waits.isNone
  | .ret k => decide (s.waits ≠ some k)
  | _ => true

/-- `g_logger_instance` afterwards. -/
def activeAfter (s : DtState M) : WLabel M → Bool
  | .dtor => false
  | .work => s.active && !takesFatal s.w
  | _ => s.active

/-- LOG: `pushMessageToLogger`, g3log.cpp:194-210. -/
def logD (s : DtState M) (m : M) : Option (DtState M) :=
  if s.active then (wStep s.w (.save m)).map fun w => { s with w := w }
  else some { s with unlogged := s.unlogged ++ [m] }

/-- One step. Nothing happens after the end of the process or after undefined behaviour. -/
def dtStep (s : DtState M) (l : DtLabel M) : Option (DtState M) :=
  if s.w.ub || s.w.wpc.isDead then none
  else match l with
  | .base l => if dtOk s l then (wStep s.w l).map fun w => { s with w := w, active := activeAfter s l } else none
  | .log none m => logD s m
  | .log (some i) m => if inSinkDtor s i then logD s m else none
  | .sync i c => if onWorker s.w i && s.waits.isNone then (wStep s.w c.label).map fun w => { s with w := w, waits := some s.w.calls.length } else none
  | .back =>
    match s.waits with
    | none => none
    | some k => (wStep s.w (.ret k)).map fun w => { s with w := w, waits := none }

/-- A schedule. -/
def dtRun (s : DtState M) : List (DtLabel M) → Option (DtState M)
  | [] => some s
  | l :: ls => (dtStep s l).bind (dtRun · ls)

end G3
