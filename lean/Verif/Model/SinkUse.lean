import Verif.Model.Worker
/-
Sinks that use the library: the callbacks of a sink log, call sinks through handles, wait for the results, add and remove sinks, all
of it on the thread of the sink. /repo/src/g3log/sink.hpp, sinkhandle.hpp, active.hpp, future.hpp, logworker.hpp, /repo/src/logworker.cpp.

The model is that of `Verif.Model.Worker` with one more component per sink thread: where its callback is inside the library, and the
`shared_ptr`s it holds. In `Verif.Model.Worker` all references are in the hands of clients, who are never waited for.

Simplifications:
* a callback gives up every `shared_ptr` to a sink before it returns (`SinkHandle::call` always does, sinkhandle.hpp:40-43);
* a callback does not destroy the `LogWorker`;
* waiting for a future is waiting for a call that was made through some handle (sinkhandle.hpp:39-42): the future of a call that was
  refused is ready at once (sinkhandle.hpp:43-48) and waiting for it is no step.
-/
namespace G3

variable {M : Type}

/-- Where the code on the thread of a sink is. -/
inductive UPc
  | user                    -- in the code of the user, or waiting for a task
  | ending (j : Nat)        -- in ~Sink of sink j (sink.hpp:60-62), waiting for its thread (active.hpp:52)
  | getting (j p : Nat)     -- waiting for the result of the call that is the p-th task of sink j (future::get, future::wait)
  | sync (k : Nat)          -- waiting in addSink, removeSink or removeAllSinks (logworker.cpp:114, logworker.hpp:115, 130)
deriving DecidableEq, Repr

/-- The state: that of the worker and its sinks, and what the sink threads do in the library. -/
structure UState (M : Type) where
  w : WState M
  pc : Nat → UPc
  held : Nat → List Nat          -- the sinks to which the callback running on thread i holds a shared_ptr
  mine : Nat → Nat               -- how many shared_ptrs to sink j the client threads hold
  reaper : Nat → Option Nat      -- the sink thread that executes ~Sink of sink j, if it is one
  caller : Nat → Option Nat      -- the sink thread that waits in the k-th synchronous call, if it is one
  terminated : Bool              -- std::terminate has been called

/-- After `createLogWorker`, logworker.cpp:117-119. -/
def UState.start : UState M :=
  { w := .start, pc := fun _ => .user, held := fun _ => [], mine := fun _ => 0, reaper := fun _ => none, caller := fun _ => none,
    terminated := false }

/-- Change of a function at one place. -/
def putAt {α : Type} (f : Nat → α) (i : Nat) (a : α) : Nat → α := fun j => if j = i then a else f j

/-- Steps. -/
inductive ULabel (M : Type)
  | base (l : WLabel M)           -- a client thread, the worker thread, or a sink thread taking or finishing a task
  | log (i : Nat) (m : M)         -- the callback of sink i logs: logworker.cpp:101-103
  | hold (i j : Nat)              -- ... locks a weak_ptr to sink j: sinkhandle.hpp:41, or 55 (also logworker.hpp:106)
  | holdFail (i j c : Nat)        -- ... finds sink j gone: sinkhandle.hpp:43-48
  | call (i j c : Nat)            -- ... calls sink j: sinkhandle.hpp:42
  | release (i j : Nat)           -- ... gives up a shared_ptr to sink j: sinkhandle.hpp:43, logworker.hpp:106
  | reap (i j : Nat)              -- ~Sink of sink j, run by thread i, finishes: active.hpp:52-53
  | get (i j p : Nat)             -- the callback of sink i begins to wait for the result of the call that is task p of sink j
  | got (i : Nat)                 -- ... has waited for it
  | add (i : Nat)                 -- the callback of sink i calls addSink: logworker.hpp:89-93
  | remove (i j : Nat)            -- ... removeSink for sink j: logworker.hpp:101-115
  | clear (i : Nat)               -- ... removeAllSinks: logworker.hpp:125-130
  | ret (i k : Nat)               -- the synchronous call k, made by the callback of sink i, returns
deriving DecidableEq, Repr

/-- The thread of sink i executes code of the user: it has a task other than the last one (active.hpp:41), it is not asleep in a fatal
event, and not waiting in the library. -/
def inCallback (u : UState M) (i : Nat) : Bool :=
  decide (i < u.w.n) && (u.w.sk i).running.any (fun x => !x.isStop) && !(u.w.sk i).blocked && decide (u.pc i = .user)

/-- The tasks of a sink so far: finished, running, waiting. -/
def taskList (k : SinkSt M) : List (SItem M) := k.done ++ k.running.toList ++ k.q

/-- A task is a call through a handle. -/
def SItem.isCall : SItem M → Bool
  | .call _ => true
  | _ => false

/-- What a step of another thread needs: clients use only their own references, wait only in their own calls and destructors, and a
task of a sink is finished when its callback is back in the code of the user and has given up its references. -/
def baseOk (u : UState M) : WLabel M → Bool
  | .ret k => decide (u.caller k = none)
  | .call j _ => decide (0 < u.mine j)
  | .release j => decide (0 < u.mine j)
  | .reap j => decide (u.reaper j = none)
  | .sinkFin i => decide (u.pc i = .user) && decide (u.held i = [])
  | .sinkFatal i _ => decide (u.pc i = .user)
  | _ => true

/-- The references of the clients. -/
def mineAfter (u : UState M) : WLabel M → Nat → Nat
  | .hold j => putAt u.mine j (u.mine j + 1)
  | .release j => putAt u.mine j (u.mine j - 1)
  | _ => u.mine

/-- A synchronous call by the callback of sink i: `spawn_task` and then the wait. -/
def syncCall (u : UState M) (i : Nat) (l : WLabel M) : Option (UState M) :=
  (wStep u.w l).map fun w =>
    if w.ub then { u with w := w }
    else { u with w := w, pc := putAt u.pc i (.sync u.w.calls.length), caller := putAt u.caller u.w.calls.length (some i) }

/-- Thread i has given up a `shared_ptr` to sink j, which has led to the state `w`. If that was the last one, it is in `~Sink` of sink
j (sink.hpp:60-62, active.hpp:50-53): for its own sink `thd_.join()` throws a `std::system_error` (resource_deadlock_would_occur) out of
a destructor, which ends in `std::terminate`; for another sink it waits. -/
def afterDrop (u : UState M) (w : WState M) (i j : Nat) : UState M :=
  if (w.sk j).reaping then
    if j = i then { u with w := w, terminated := true, reaper := putAt u.reaper j (some i) }
    else { u with w := w, pc := putAt u.pc i (.ending j), reaper := putAt u.reaper j (some i) }
  else { u with w := w, pc := putAt u.pc i .user }

/-- The sink for which a call `addSink` was made. -/
def addedBy (w : WState M) (k : Nat) : Option Nat :=
  match w.calls[k]? with
  | some ⟨.add j, _, _⟩ => some j
  | _ => none

/-- One step. Nothing happens after `std::terminate`, after the end of the process or after undefined behaviour. -/
def uStep (u : UState M) (l : ULabel M) : Option (UState M) :=
  if u.terminated || u.w.ub || u.w.wpc.isDead then none
  else match l with
  | .base l => if baseOk u l then (wStep u.w l).map fun w => { u with w := w, mine := mineAfter u l } else none
  | .log i m => if inCallback u i then (wStep u.w (.save m)).map fun w => { u with w := w } else none
  | .hold i j =>
    if inCallback u i then (wStep u.w (.hold j)).map fun w => { u with w := w, held := putAt u.held i (u.held i ++ [j]) } else none
  | .holdFail i j c => if inCallback u i then (wStep u.w (.holdFail j c)).map fun w => { u with w := w } else none
  | .call i j c => if inCallback u i && decide (j ∈ u.held i) then (wStep u.w (.call j c)).map fun w => { u with w := w } else none
  | .release i j =>
    if inCallback u i && decide (j ∈ u.held i) then
      (wStep u.w (.release j)).map fun w => afterDrop { u with held := putAt u.held i ((u.held i).erase j) } w i j
    else none
  | .reap i j =>
    if u.pc i = .ending j then (wStep u.w (.reap j)).map fun w => { u with w := w, pc := putAt u.pc i .user, reaper := putAt u.reaper j none }
    else none
  | .get i j p =>
    if inCallback u i && decide (j < u.w.n) && ((taskList (u.w.sk j))[p]?).any SItem.isCall then some { u with pc := putAt u.pc i (.getting j p) }
    else none
  | .got i =>
    match u.pc i with
    | .getting j p => if p < (u.w.sk j).done.length then some { u with pc := putAt u.pc i .user } else none
    | _ => none
  | .add i => if inCallback u i then syncCall u i .add else none
  | .remove i j => if inCallback u i then syncCall u i (.remove j) else none
  | .clear i => if inCallback u i then syncCall u i .clear else none
  | .ret i k =>
    if u.pc i = .sync k then
      (wStep u.w (.ret k)).map fun w =>
        match addedBy u.w k with
        | some j => afterDrop { u with caller := putAt u.caller k none } w i j
        | none => { u with w := w, pc := putAt u.pc i .user, caller := putAt u.caller k none }
    else none

/-- A schedule. -/
def uRun (u : UState M) : List (ULabel M) → Option (UState M)
  | [] => some u
  | l :: ls => (uStep u l).bind (uRun · ls)

end G3
