/-
Model of a `LogWorker` with its sinks, handles and clients: /repo/src/logworker.cpp, /repo/src/g3log/logworker.hpp,
/repo/src/g3log/sink.hpp, /repo/src/g3log/sinkhandle.hpp and /repo/src/g3log/future.hpp.

Threads: the worker's background thread, one background thread per sink, any number of client threads, one of which may destroy
the worker. A schedule is a list of labels, each label is one step of one thread. Queues are FIFO with atomic operations
(`Verif.Props.Queue`) served by one thread each (`Verif.Props.Active`).

Simplifications:
* sinks are numbered in the order of creation; a message is a value of an arbitrary type `M`; a call through a handle is a number;
* the read of the pointer `_bg` and the use of it are one step (the race between the two is the subject of `Verif.Props.Race`);
* the callbacks of sinks return, except when they raise a fatal event (`sinkFatal`); they do not throw (Verif.Model.SinkThrow);
* the reference that a queued `addSink` task holds is not counted separately: the caller of `addSink` waits for that task and holds
  its own reference until it returns (logworker.hpp:92-95, logworker.cpp:109-115).
-/
namespace G3

variable {M : Type}

/-- Tasks of the worker thread. -/
inductive WTask (M : Type)
  | save (m : M)       -- logworker.cpp:102
  | fatal (m : M)      -- logworker.cpp:106
  | add (i : Nat)      -- logworker.cpp:110-112
  | remove (i : Nat)   -- logworker.hpp:108-113
  | clear              -- logworker.hpp:126-128
  | done               -- active.hpp:51
deriving DecidableEq, Repr

/-- Tasks of a sink thread. -/
inductive SItem (M : Type)
  | msg (m : M)        -- sink.hpp:64-68
  | fatal (m : M)      -- the same, sent by bgFatal with the text added by logworker.cpp:48-53
  | call (c : Nat)     -- sink.hpp:71-73
  | stop               -- active.hpp:51 from sink.hpp:61
deriving DecidableEq, Repr

/-- A sink (`Sink<T>`, sink.hpp:36-74) and what is known about its owners. -/
structure SinkSt (M : Type) where
  q : List (SItem M)            -- queue of its active object
  running : Option (SItem M)    -- what its thread executes
  done : List (SItem M)         -- ghost: what its thread has executed
  refs : Nat                    -- shared_ptrs in the hands of clients
  stopSent : Bool               -- ~Sink has begun: the last owner is gone
  exited : Bool                 -- its thread has ended
  destroyed : Bool              -- ~Sink has finished, the real sink is destroyed
  reaping : Bool                -- a client thread executes ~Sink
  blocked : Bool                -- its thread sleeps in pushFatalMessageToLogger (g3log.cpp:227-229)
deriving DecidableEq, Repr

/-- A new sink, sink.hpp:43-58. -/
def SinkSt.fresh : SinkSt M :=
  { q := [], running := none, done := [], refs := 0, stopSent := false, exited := false, destroyed := false, reaping := false, blocked := false }

/-- `Active::send`. -/
def SinkSt.push (k : SinkSt M) (x : SItem M) : SinkSt M := { k with q := k.q ++ [x] }

/-- `~Sink` begins, sink.hpp:60-62 with active.hpp:51. -/
def SinkSt.stop (k : SinkSt M) : SinkSt M := { k with q := k.q ++ [.stop], stopSent := true }

/-- Where the worker thread is. -/
inductive WPc (M : Type)
  | idle                                        -- waiting in active.hpp:40
  | sending (x : SItem M) (rest : List Nat)     -- the loops logworker.cpp:26-29 and 56-59, with the sinks still to serve
  | rmHeld (i : Nat)                            -- logworker.hpp:109-111 done, shared_sink still held
  | rmWait (i : Nat)                            -- in ~Sink at the end of the lambda, line 113
  | clearing (fatal : Bool)                     -- in _sinks.clear(): logworker.hpp:127, or logworker.cpp:63
  | clrWait (i : Nat) (fatal : Bool)            -- the same, in ~Sink of sink i
  | ended                                       -- the thread has returned from Active::run
  | dead                                        -- exitWithDefaultSignalHandler, logworker.cpp:64: the process has ended
deriving DecidableEq, Repr

/-- The worker thread holds a temporary reference to sink i (`shared_sink`, logworker.hpp:109). -/
def WPc.holds (i : Nat) : WPc M → Bool
  | .rmHeld j => decide (j = i)
  | _ => false

/-- The worker thread has ended. -/
def WPc.isEnded : WPc M → Bool
  | .ended => true
  | _ => false

/-- The process has ended. -/
def WPc.isDead : WPc M → Bool
  | .dead => true
  | _ => false

/-- The final task of a sink. -/
def SItem.isStop : SItem M → Bool
  | .stop => true
  | _ => false

/-- Synchronous calls. -/
inductive WKind
  | add (i : Nat)
  | remove (i : Nat)
  | clear
deriving DecidableEq, Repr

/-- A synchronous call in progress or returned. `pos` is the position of its task among all the tasks ever handed to the worker,
or nothing if `spawn_task` found no worker (future.hpp:47-52). -/
structure WCall where
  kind : WKind
  pos : Option Nat
  returned : Bool
deriving DecidableEq, Repr

/-- The destructor of the worker, logworker.cpp:70-99. -/
inductive DPhase
  | notStarted
  | clearing (p : Nat)      -- waiting in removeAllSinks, line 83
  | stopping                -- line 98: _bg is null, ~Active waits for the thread
  | dropping                -- the thread has ended, its queue is gone; ~LogWorkerImpl destroys _sinks
  | waitSink (i : Nat)      -- the same, in ~Sink of sink i
  | returned
deriving DecidableEq, Repr

/-- Lines written to stderr. -/
inductive ErrLine (M : Type)
  | noSinks (m : M)         -- logworker.cpp:31-35
  | fatal (m : M)           -- logworker.cpp:55
deriving DecidableEq, Repr

/-- The whole state. -/
structure WState (M : Type) where
  wq : List (WTask M)           -- queue of the worker's active object
  sub : List (WTask M)          -- ghost: all tasks ever handed to the worker
  completed : Nat               -- ghost: how many of them are finished
  wpc : WPc M
  att : List Nat                -- _sinks
  n : Nat                       -- number of sinks created
  sk : Nat → SinkSt M
  err : List (ErrLine M)
  calls : List WCall
  failed : List Nat             -- calls through a handle that ended with bad_weak_ptr
  phase : DPhase
  ub : Bool                     -- undefined behaviour has happened

/-- After `createLogWorker`, logworker.cpp:117-119. -/
def WState.start : WState M :=
  { wq := [], sub := [], completed := 0, wpc := .idle, att := [], n := 0, sk := fun _ => .fresh, err := [], calls := [], failed := [],
    phase := .notStarted, ub := false }

/-- `_impl._bg` is null: logworker.cpp:98 (`unique_ptr::reset` stores null before it deletes). -/
def DPhase.bgNull : DPhase → Bool
  | .notStarted => false
  | .clearing _ => false
  | _ => true

/-- The queue of the worker has been destroyed with what was left in it. -/
def DPhase.queueGone : DPhase → Bool
  | .dropping => true
  | .waitSink _ => true
  | .returned => true
  | _ => false

/-- The caller of `addSink` still holds its reference to sink i (logworker.hpp:92-95). -/
def adding (calls : List WCall) (i : Nat) : Bool := calls.any fun c => decide (c.kind = .add i) && !c.returned

/-- Some `shared_ptr` to sink i exists. -/
def owned (s : WState M) (i : Nat) : Bool :=
  decide (0 < (s.sk i).refs) || decide (i ∈ s.att) || adding s.calls i || s.wpc.holds i

/-- Change of one sink. -/
def updSink (sk : Nat → SinkSt M) (i : Nat) (f : SinkSt M → SinkSt M) : Nat → SinkSt M := fun j => if j = i then f (sk j) else sk j

/-- `Active::send` of the worker. -/
def pushTask (s : WState M) (t : WTask M) : WState M := { s with wq := s.wq ++ [t], sub := s.sub ++ [t] }

/-- A client gives up a reference (already removed in `s`): if it was the last one the client runs `~Sink`. -/
def clientDrop (s : WState M) (i : Nat) : WState M :=
  if owned s i then s else { s with sk := updSink s.sk i fun k => { k.stop with reaping := true } }

/-- The future of a synchronous call is ready: the task has run, or was destroyed unexecuted, or there was no worker. -/
def ready (s : WState M) (c : WCall) : Bool :=
  match c.pos with
  | none => true
  | some p => decide (p < s.completed) || s.phase.queueGone

/-- Steps. -/
inductive WLabel (M : Type)
  | save (m : M)                  -- logworker.cpp:101-103
  | fatal (m : M)                 -- logworker.cpp:105-107
  | add                           -- logworker.hpp:89-95 up to the wait
  | remove (i : Nat)              -- logworker.hpp:101-115
  | clear                         -- logworker.hpp:125-130
  | ret (k : Nat)                 -- the k-th synchronous call returns
  | hold (i : Nat)                -- weak_ptr::lock succeeds: sinkhandle.hpp:41, 55, or the client on the result of sink()
  | holdFail (i c : Nat)          -- sinkhandle.hpp:43-48
  | call (i c : Nat)              -- sinkhandle.hpp:42
  | release (i : Nat)             -- a client's shared_ptr goes
  | reap (i : Nat)                -- ~Sink on a client thread finishes
  | dtor                          -- next step of ~LogWorker
  | work                          -- next step of the worker thread
  | sinkPop (i : Nat)             -- active.hpp:39-40 of sink i
  | sinkFin (i : Nat)             -- active.hpp:41 of sink i
  | sinkFatal (i : Nat) (m : M)   -- the code running on the thread of sink i raises a fatal event (g3log.cpp:216-230)
deriving DecidableEq, Repr

/-- The worker thread takes the next task, active.hpp:38-41. -/
def takeTask (s : WState M) : Option (WState M) :=
  match s.wq with
  | [] => none
  | .save m :: r =>
    if s.att = [] then some { s with wq := r, err := s.err ++ [.noSinks m], completed := s.completed + 1 }
    else some { s with wq := r, wpc := .sending (.msg m) s.att }
  | .fatal m :: r => some { s with wq := r, err := s.err ++ [.fatal m], wpc := .sending (.fatal m) s.att }
  | .add i :: r => some { s with wq := r, att := s.att ++ [i], completed := s.completed + 1 }
  | .remove i :: r =>
    if owned s i then some { s with wq := r, att := s.att.filter (fun j => decide (j ≠ i)), wpc := .rmHeld i }
    else some { s with wq := r, completed := s.completed + 1 }
  | .clear :: r => some { s with wq := r, wpc := .clearing false }
  | .done :: r => some { s with wq := r, wpc := .ended, completed := s.completed + 1 }

/-- One step of the worker thread. -/
def workStep (s : WState M) : Option (WState M) :=
  match s.wpc with
  | .idle => takeTask s
  | .sending x (i :: rest) => some { s with sk := updSink s.sk i (·.push x), wpc := .sending x rest }
  | .sending (.fatal _) [] => some { s with wpc := .clearing true }
  | .sending _ [] => some { s with wpc := .idle, completed := s.completed + 1 }
  | .rmHeld i =>
    if owned { s with wpc := .rmWait i } i then some { s with wpc := .idle, completed := s.completed + 1 }
    else some { s with sk := updSink s.sk i (·.stop), wpc := .rmWait i }
  | .rmWait i =>
    if (s.sk i).exited then some { s with sk := updSink s.sk i (fun k => { k with destroyed := true }), wpc := .idle, completed := s.completed + 1 }
    else none
  | .clearing f =>
    match s.att with
    | [] => if f then some { s with wpc := .dead } else some { s with wpc := .idle, completed := s.completed + 1 }
    | i :: r =>
      if owned { s with att := r } i then some { s with att := r }
      else some { s with att := r, sk := updSink s.sk i (·.stop), wpc := .clrWait i f }
  | .clrWait i f =>
    if (s.sk i).exited then some { s with sk := updSink s.sk i (fun k => { k with destroyed := true }), wpc := .clearing f }
    else none
  | .ended => none
  | .dead => none

/-- One step of the destructor of the worker. -/
def dtorStep (s : WState M) : Option (WState M) :=
  match s.phase with
  | .notStarted => some { pushTask s .clear with phase := .clearing s.sub.length }
  | .clearing p => if p < s.completed then some { pushTask s .done with phase := .stopping } else none
  | .stopping => if s.wpc.isEnded then some { s with wq := [], phase := .dropping } else none
  | .dropping =>
    match s.att with
    | [] => some { s with phase := .returned }
    | i :: r =>
      if owned { s with att := r } i then some { s with att := r }
      else some { s with att := r, sk := updSink s.sk i (·.stop), phase := .waitSink i }
  | .waitSink i =>
    if (s.sk i).exited then some { s with sk := updSink s.sk i (fun k => { k with destroyed := true }), phase := .dropping }
    else none
  | .returned => none

/-- A synchronous call begins (`spawn_task`, future.hpp:43-59): with a worker its task is queued, without one the future holds an
exception. On a destroyed `LogWorker` it is undefined behaviour. -/
def beginCall (s : WState M) (k : WKind) (t : WTask M) : WState M :=
  if s.phase = .returned then { s with ub := true }
  else if s.phase.bgNull then { s with calls := s.calls ++ [⟨k, none, false⟩] }
  else { pushTask s t with calls := s.calls ++ [⟨k, some s.sub.length, false⟩] }

/-- `addSink`, logworker.hpp:89-93: a new sink, then `addWrappedSink`. -/
def addStep (s : WState M) : WState M :=
  if s.phase = .returned then { s with ub := true }
  else beginCall { s with n := s.n + 1, sk := updSink s.sk s.n (fun _ => .fresh) } (.add s.n) (.add s.n)

/-- A synchronous call returns; `addSink` gives up its reference. -/
def retStep (s : WState M) (k : Nat) : Option (WState M) :=
  match s.calls[k]? with
  | none => none
  | some c =>
    if c.returned = false ∧ ready s c = true then
      let s1 := { s with calls := s.calls.set k { c with returned := true } }
      match c.kind with
      | .add i => some (clientDrop s1 i)
      | _ => some s1
    else none

/-- The thread of a sink takes its next task. -/
def sinkPop (s : WState M) (i : Nat) : Option (WState M) :=
  if i < s.n ∧ (s.sk i).running = none ∧ (s.sk i).exited = false then
    match (s.sk i).q with
    | [] => none
    | x :: r => some { s with sk := updSink s.sk i fun k => { k with q := r, running := some x } }
  else none

/-- The thread of a sink finishes its task. -/
def sinkFin (s : WState M) (i : Nat) : Option (WState M) :=
  if i < s.n ∧ (s.sk i).blocked = false then
    match (s.sk i).running with
    | none => none
    | some .stop => some { s with sk := updSink s.sk i fun k => { k with running := none, exited := true } }
    | some x => some { s with sk := updSink s.sk i fun k => { k with running := none, done := k.done ++ [x] } }
  else none

/-- One step. Nothing happens after the end of the process or after undefined behaviour. -/
def wStep (s : WState M) (l : WLabel M) : Option (WState M) :=
  if s.ub = true ∨ s.wpc.isDead = true then none
  else match l with
  | .save m => if s.phase.bgNull then some { s with ub := true } else some (pushTask s (.save m))
  | .fatal m => if s.phase.bgNull then some { s with ub := true } else some (pushTask s (.fatal m))
  | .add => some (addStep s)
  | .remove i => if i < s.n then some (beginCall s (.remove i) (.remove i)) else none
  | .clear => some (beginCall s .clear .clear)
  | .ret k => retStep s k
  | .hold i =>
    if i < s.n ∧ owned s i = true then some { s with sk := updSink s.sk i fun k => { k with refs := k.refs + 1 } } else none
  | .holdFail i c => if i < s.n ∧ owned s i = false then some { s with failed := s.failed ++ [c] } else none
  | .call i c => if i < s.n ∧ 0 < (s.sk i).refs then some { s with sk := updSink s.sk i (·.push (.call c)) } else none
  | .release i =>
    if i < s.n ∧ 0 < (s.sk i).refs then some (clientDrop { s with sk := updSink s.sk i fun k => { k with refs := k.refs - 1 } } i) else none
  | .reap i =>
    if i < s.n ∧ (s.sk i).reaping = true ∧ (s.sk i).exited = true then
      some { s with sk := updSink s.sk i fun k => { k with destroyed := true, reaping := false } }
    else none
  | .dtor => dtorStep s
  | .work => workStep s
  | .sinkPop i => sinkPop s i
  | .sinkFin i => sinkFin s i
  | .sinkFatal i m =>
    if i < s.n ∧ (s.sk i).blocked = false ∧ (s.sk i).running.any (fun x => !x.isStop) = true then
      if s.phase.bgNull then some { s with ub := true }
      else some { pushTask s (.fatal m) with sk := updSink s.sk i fun k => { k with blocked := true } }
    else none

/-- A schedule. -/
def wRun (s : WState M) : List (WLabel M) → Option (WState M)
  | [] => some s
  | l :: ls => (wStep s l).bind (wRun · ls)

end G3
