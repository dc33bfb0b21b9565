import Verif.Model.Worker
import Verif.Model.Queue
/-
The `LogWorker` with its sinks, handles and clients of Verif.Model.Worker, down to single lock, unlock, wait and notify operations on the queues:
/repo/src/logworker.cpp, /repo/src/g3log/logworker.hpp, /repo/src/g3log/sink.hpp, /repo/src/g3log/sinkhandle.hpp, /repo/src/g3log/future.hpp,
/repo/src/g3log/active.hpp:30-65, with the queue of Verif.Model.Queue (/repo/src/g3log/shared_queue.hpp:26-78). In Verif.Model.Worker to hand over a task and whatever
belongs to it is one step; here any number of threads are anywhere inside `push` and `wait_and_pop` of any queue.

In every queue, number 0 is the thread that serves it; number 1 is the worker thread where it pushes into queues of sinks; the other threads of the program have numbers from 2
on. The thread of a sink that raises a fatal event takes a free number for the time it is inside `push` of the worker's queue.

`ctl` holds everything that is not a queue, in the structure of Verif.Model.Worker; the queues in it are not used. What the threads do outside the queues is as
there, with its simplifications. A sink gets its number when the task of its `addSink` enters the queue; until then nobody but the caller knows it.
-/
namespace G3

variable {M : Type}

/-- Tasks of the worker thread, with who sends them; the number of a new sink is filled in when its task enters the queue. -/
inductive KTask (M : Type)
  | save (m : M)                    -- logworker.cpp:102
  | fatal (m : M)                   -- logworker.cpp:106
  | add (i : Nat)                   -- logworker.cpp:110-113
  | remove (i : Nat)                -- logworker.hpp:108-114
  | clear                           -- logworker.hpp:126-129
  | sinkFatal (i : Nat) (m : M)     -- a fatal event on the thread of sink i: g3log.cpp:216-230
  | dtorClear                       -- logworker.cpp:83
  | done                            -- logworker.cpp:98 with active.hpp:51
deriving DecidableEq, Repr

/-- The task itself. -/
def KTask.task : KTask M → WTask M
  | .save m => .save m
  | .fatal m => .fatal m
  | .add i => .add i
  | .remove i => .remove i
  | .clear => .clear
  | .sinkFatal _ m => .fatal m
  | .dtorClear => .clear
  | .done => .done

/-- Is it a synchronous call? -/
def KTask.sync : KTask M → Bool
  | .add _ => true
  | .remove _ => true
  | .clear => true
  | _ => false

/-- The state. -/
structure KState (M : Type) where
  ctl : WState M                  -- everything but the queues
  wq : QState (KTask M)           -- the queue of the worker's active object
  sq : Nat → QState (SItem M)     -- those of the sinks
  hand : Option (KTask M)         -- `func` of the worker thread, active.hpp:39-41, before it is called
  own : List Nat                  -- the threads that made the synchronous calls
  dthr : Option Nat               -- the thread that destroys the worker
  race : Bool                     -- a thread uses the worker's queue although `_bg` has been reset meanwhile
  uaf : Bool                      -- a thread uses the queue of a destroyed sink

/-- After `createLogWorker`, logworker.cpp:117-119, with `n` numbers for threads. -/
def KState.start (n : Nat) : KState M :=
  { ctl := .start, wq := .start n, sq := fun _ => .start n, hand := none, own := [], dthr := none, race := false, uaf := false }

/-- Steps. -/
inductive KLabel (M : Type)
  | thr (t : Nat) (l : WLabel M)              -- thread t begins this, or does it; for work, sinkPop and sinkFin the thread is clear
  | pop                                       -- the worker thread calls wait_and_pop, active.hpp:38-40
  | mem (l : QLabel (KTask M))                -- a step inside the worker's queue
  | smem (i : Nat) (l : QLabel (SItem M))     -- a step inside the queue of sink i

/-- Outside the queue. -/
def QPc.isIdle {T : Type} : QPc T → Bool
  | .idle => true
  | _ => false

/-- Thread `t` is inside no `push`. -/
def KState.out (k : KState M) (t : Nat) : Bool :=
  (k.wq.pcs[t]?.any QPc.isIdle) && (List.range k.ctl.n).all fun i => (k.sq i).pcs[t]?.any QPc.isIdle

/-- Replace a queue of a sink. -/
def updQ (sq : Nat → QState (SItem M)) (i : Nat) (q : QState (SItem M)) : Nat → QState (SItem M) := fun j => if j = i then q else sq j

/-- Thread `t` begins `push` on the worker's queue. -/
def KState.enter (k : KState M) (t : Nat) (x : KTask M) : Option (KState M) := (qStep k.wq (.call t (.push x))).map fun q => { k with wq := q }

/-- Thread `t` begins `push` on the queue of sink `i`. -/
def KState.enterSink (k : KState M) (t i : Nat) (x : SItem M) : Option (KState M) :=
  (qStep (k.sq i) (.call t (.push x))).map fun q => { k with sq := updQ k.sq i q }

/-- A thread, other than the worker thread, is inside `push` of the queue of sink `i`. -/
def KState.calling (k : KState M) (i : Nat) : Bool := ((k.sq i).pcs.drop 2).any fun p => !p.isIdle

/-- About to push a fatal event of the thread of sink `i`. -/
def raisingPc (i : Nat) : QPc (KTask M) → Bool
  | .want (.push (.sinkFatal j _)) => decide (j = i)
  | .crit (.push (.sinkFatal j _)) => decide (j = i)
  | _ => false

/-- The thread of sink `i` is inside `push`. -/
def KState.raising (k : KState M) (i : Nat) : Bool := k.wq.pcs.any (raisingPc i)

/-- Thread `t` can begin something: it is inside no `push` and waits in no synchronous call, and does not destroy the worker. -/
def KState.free (k : KState M) (t : Nat) : Bool :=
  decide (2 ≤ t) && k.out t && !((k.ctl.calls.zip k.own).any fun p => decide (p.2 = t) && !p.1.returned) && decide (k.dthr ≠ some t)

/-- `~Sink` of sink `i` begins, sink.hpp:60-62: the last owner is gone; thread `t` pushes the final task, active.hpp:51. -/
def KState.stopSink (k : KState M) (t i : Nat) (reap : Bool) : Option (KState M) :=
  { k with ctl := { k.ctl with sk := updSink k.ctl.sk i fun x => { x with stopSent := true, reaping := reap || x.reaping } } }.enterSink t i .stop

/-- A client, thread `t`, has given up a reference to sink `i`. -/
def KState.drop (k : KState M) (t i : Nat) : Option (KState M) := if owned k.ctl i then some k else k.stopSink t i true

/-- A synchronous call begins (`spawn_task`, future.hpp:43-59); without worker there is no task. -/
def KState.beginCall (k : KState M) (t : Nat) (kd : WKind) (x : KTask M) : Option (KState M) :=
  if k.ctl.phase = .returned then some { k with ctl := { k.ctl with ub := true } }
  else if k.ctl.phase.bgNull then some { k with ctl := { k.ctl with calls := k.ctl.calls ++ [⟨kd, none, false⟩] }, own := k.own ++ [t] }
  else k.enter t x

/-- `addSink`, logworker.hpp:89-93. -/
def KState.beginAdd (k : KState M) (t : Nat) : Option (KState M) :=
  if k.ctl.phase = .returned then some { k with ctl := { k.ctl with ub := true } }
  else if k.ctl.phase.bgNull then
    some { k with ctl := { k.ctl with n := k.ctl.n + 1, sk := updSink k.ctl.sk k.ctl.n (fun _ => .fresh), calls := k.ctl.calls ++ [⟨.add k.ctl.n, none, false⟩] },
                  own := k.own ++ [t] }
  else k.enter t (.add 0)

/-- The destructor of the worker, logworker.cpp:70-99, on thread `t`. -/
def KState.dtor (k : KState M) (t : Nat) : Option (KState M) :=
  if k.dthr = none then
    if k.ctl.phase = .notStarted ∧ k.free t = true then { k with dthr := some t }.enter t .dtorClear else none
  else if k.dthr = some t ∧ k.out t = true then
    match k.ctl.phase with
    | .notStarted => none
    | .clearing p =>
      if p < k.ctl.completed then { k with ctl := { k.ctl with sub := k.ctl.sub ++ [WTask.done], phase := .stopping } }.enter t .done else none
    | .stopping => if k.ctl.wpc.isEnded then some { k with ctl := { k.ctl with phase := .dropping }, wq := { k.wq with q := [] } } else none
    | .dropping =>
      match k.ctl.att with
      | [] => some { k with ctl := { k.ctl with phase := .returned } }
      | i :: r =>
        if owned { k.ctl with att := r } i then some { k with ctl := { k.ctl with att := r } }
        else { k with ctl := { k.ctl with att := r, phase := .waitSink i } }.stopSink t i false
    | .waitSink i =>
      if (k.ctl.sk i).exited then some { k with ctl := { k.ctl with sk := updSink k.ctl.sk i (fun x => { x with destroyed := true }), phase := .dropping } }
      else none
    | .returned => none
  else none

/-- The worker thread, outside `wait_and_pop` and `push`. -/
def KState.work (k : KState M) : Option (KState M) :=
  if k.out 1 = false then none else
  match k.hand with
  | some x => (takeTask { k.ctl with wq := [x.task] }).map fun c => { k with ctl := c, hand := none }        -- active.hpp:41
  | none =>
    match k.ctl.wpc with
    | .idle => none
    | .sending x (i :: _) => k.enterSink 1 i x
    | .sending (.fatal _) [] => some { k with ctl := { k.ctl with wpc := .clearing true } }
    | .sending _ [] => some { k with ctl := { k.ctl with wpc := .idle, completed := k.ctl.completed + 1 } }
    | .rmHeld i =>
      if owned { k.ctl with wpc := .rmWait i } i then some { k with ctl := { k.ctl with wpc := .idle, completed := k.ctl.completed + 1 } }
      else { k with ctl := { k.ctl with wpc := .rmWait i } }.stopSink 1 i false
    | .rmWait i =>
      if (k.ctl.sk i).exited then
        some { k with ctl := { k.ctl with sk := updSink k.ctl.sk i (fun x => { x with destroyed := true }), wpc := .idle, completed := k.ctl.completed + 1 } }
      else none
    | .clearing f =>
      match k.ctl.att with
      | [] =>
        if f then some { k with ctl := { k.ctl with wpc := .dead } }
        else some { k with ctl := { k.ctl with wpc := .idle, completed := k.ctl.completed + 1 } }
      | i :: r =>
        if owned { k.ctl with att := r } i then some { k with ctl := { k.ctl with att := r } }
        else { k with ctl := { k.ctl with att := r, wpc := .clrWait i f } }.stopSink 1 i false
    | .clrWait i f =>
      if (k.ctl.sk i).exited then
        some { k with ctl := { k.ctl with sk := updSink k.ctl.sk i (fun x => { x with destroyed := true }), wpc := .clearing f } }
      else none
    | .ended => none
    | .dead => none

/-- What the entry of the task into the worker's queue means to the rest. -/
def KTask.effect (s : WState M) : KTask M → WState M
  | .save m => { s with sub := s.sub ++ [.save m] }
  | .fatal m => { s with sub := s.sub ++ [.fatal m] }
  | .add _ =>
    { s with n := s.n + 1, sk := updSink s.sk s.n (fun _ => .fresh), sub := s.sub ++ [.add s.n], calls := s.calls ++ [⟨.add s.n, some s.sub.length, false⟩] }
  | .remove i => { s with sub := s.sub ++ [.remove i], calls := s.calls ++ [⟨.remove i, some s.sub.length, false⟩] }
  | .clear => { s with sub := s.sub ++ [.clear], calls := s.calls ++ [⟨.clear, some s.sub.length, false⟩] }
  | .sinkFatal i m => { s with sub := s.sub ++ [.fatal m], sk := updSink s.sk i fun x => { x with blocked := true } }
  | .dtorClear => { s with sub := s.sub ++ [.clear], phase := .clearing s.sub.length }
  | .done => s

/-- The number of the new sink is filled in. -/
def KState.number (k : KState M) (t : Nat) : KTask M → QState (KTask M)
  | .add _ => { k.wq with pcs := k.wq.pcs.set t (.crit (.push (.add k.ctl.n))) }
  | _ => k.wq

/-- Thread `t` enters a task into the worker's queue, shared_queue.hpp:41. -/
def KState.put (k : KState M) (t : Nat) (j : KTask M) : Option (KState M) :=
  if k.ctl.phase.bgNull = true ∧ k.dthr ≠ some t then some { k with race := true }
  else (qStep (k.number t j) (.act t)).map fun q =>
    { k with wq := q, ctl := j.effect k.ctl, own := if j.sync then k.own ++ [t] else k.own }

/-- A step inside the worker's queue. -/
def KState.mem (k : KState M) (l : QLabel (KTask M)) : Option (KState M) :=
  match l with
  | .call _ _ => none
  | .act t =>
    match k.wq.pcs[t]? with
    | some (.crit (.push j)) => k.put t j
    | _ => (qStep k.wq (.act t)).map fun q => { k with wq := q }
  | .unlock t =>
    match k.wq.pcs[t]? with
    | some (.fin .waitPop (.item x)) => (qStep k.wq (.unlock t)).map fun q => { k with wq := q, hand := some x }      -- active.hpp:40
    | _ => (qStep k.wq (.unlock t)).map fun q => { k with wq := q }
  | l => (qStep k.wq l).map fun q => { k with wq := q }

/-- The worker thread has handed the message to the next sink. -/
def sentOne (s : WState M) : WState M := { s with wpc := match s.wpc with | .sending x (_ :: r) => .sending x r | p => p }

/-- A step inside the queue of sink `i`. -/
def KState.smem (k : KState M) (i : Nat) (l : QLabel (SItem M)) : Option (KState M) :=
  match l with
  | .call _ _ => none
  | .act t =>
    match (k.sq i).pcs[t]? with
    | some (.crit (.push x)) => (qStep (k.sq i) (.act t)).map fun q =>
        { k with sq := updQ k.sq i q, ctl := if t = 1 ∧ x.isStop = false then sentOne k.ctl else k.ctl }
    | _ => (qStep (k.sq i) (.act t)).map fun q => { k with sq := updQ k.sq i q }
  | .unlock t =>
    match (k.sq i).pcs[t]? with
    | some (.fin .waitPop (.item x)) => (qStep (k.sq i) (.unlock t)).map fun q =>
        { k with sq := updQ k.sq i q, ctl := { k.ctl with sk := updSink k.ctl.sk i fun y => { y with running := some x } } }
    | _ => (qStep (k.sq i) (.unlock t)).map fun q => { k with sq := updQ k.sq i q }
  | l => (qStep (k.sq i) l).map fun q => { k with sq := updQ k.sq i q }

/-- Thread `t` begins something, or does it. -/
def KState.act (k : KState M) (t : Nat) : WLabel M → Option (KState M)
  | .save m =>
    if k.free t = false then none
    else if k.ctl.phase.bgNull then some { k with ctl := { k.ctl with ub := true } } else k.enter t (.save m)
  | .fatal m =>
    if k.free t = false then none
    else if k.ctl.phase.bgNull then some { k with ctl := { k.ctl with ub := true } } else k.enter t (.fatal m)
  | .add => if k.free t = false then none else k.beginAdd t
  | .remove i => if k.free t = true ∧ i < k.ctl.n then k.beginCall t (.remove i) (.remove i) else none
  | .clear => if k.free t = false then none else k.beginCall t .clear .clear
  | .ret c =>
    match k.ctl.calls[c]? with
    | none => none
    | some w =>
      if k.own[c]? = some t ∧ k.out t = true ∧ w.returned = false ∧ ready k.ctl w = true then
        let k1 := { k with ctl := { k.ctl with calls := k.ctl.calls.set c { w with returned := true } } }
        match w.kind with
        | .add i => k1.drop t i
        | _ => some k1
      else none
  | .hold i =>
    if k.free t = true ∧ i < k.ctl.n ∧ owned k.ctl i = true then
      some { k with ctl := { k.ctl with sk := updSink k.ctl.sk i fun x => { x with refs := x.refs + 1 } } }
    else none
  | .holdFail i c =>
    if k.free t = true ∧ i < k.ctl.n ∧ owned k.ctl i = false then some { k with ctl := { k.ctl with failed := k.ctl.failed ++ [c] } } else none
  | .call i c => if k.free t = true ∧ i < k.ctl.n ∧ 0 < (k.ctl.sk i).refs then k.enterSink t i (.call c) else none
  | .release i =>
    if k.free t = true ∧ i < k.ctl.n ∧ 0 < (k.ctl.sk i).refs ∧ ((k.ctl.sk i).refs = 1 → k.calling i = false) then
      { k with ctl := { k.ctl with sk := updSink k.ctl.sk i fun x => { x with refs := x.refs - 1 } } }.drop t i
    else none
  | .reap i =>
    if i < k.ctl.n ∧ (k.ctl.sk i).reaping = true ∧ (k.ctl.sk i).exited = true ∧ k.calling i = false then
      some { k with ctl := { k.ctl with sk := updSink k.ctl.sk i fun x => { x with destroyed := true, reaping := false } } }
    else none
  | .dtor => k.dtor t
  | .work => k.work
  | .sinkPop i =>
    if i < k.ctl.n ∧ (k.ctl.sk i).running = none ∧ (k.ctl.sk i).exited = false then
      (qStep (k.sq i) (.call 0 .waitPop)).map fun q => { k with sq := updQ k.sq i q }
    else none
  | .sinkFin i => if k.raising i then none else (sinkFin k.ctl i).map fun c => { k with ctl := c }
  | .sinkFatal i m =>
    if k.free t = true ∧ i < k.ctl.n ∧ (k.ctl.sk i).blocked = false ∧ k.raising i = false ∧ (k.ctl.sk i).running.any (fun x => !x.isStop) = true then
      if k.ctl.phase.bgNull then some { k with ctl := { k.ctl with ub := true } } else k.enter t (.sinkFatal i m)
    else none

/-- One step. Nothing happens after the end of the process or after undefined behaviour. -/
def kStep (k : KState M) (l : KLabel M) : Option (KState M) :=
  if k.ctl.ub = true ∨ k.ctl.wpc.isDead = true ∨ k.race = true ∨ k.uaf = true then none
  else match l with
  | .thr t l => k.act t l
  | .pop =>
    match k.ctl.wpc, k.hand with
    | .idle, none => (qStep k.wq (.call 0 .waitPop)).map fun q => { k with wq := q }
    | _, _ => none
  | .mem l => if k.ctl.phase.queueGone then (k.mem l).map fun _ => { k with race := true } else k.mem l
  | .smem i l => if (k.ctl.sk i).destroyed then (k.smem i l).map fun _ => { k with uaf := true } else k.smem i l

/-- A schedule. -/
def kRun (k : KState M) : List (KLabel M) → Option (KState M)
  | [] => some k
  | l :: ls => (kStep k l).bind (kRun · ls)

end G3
