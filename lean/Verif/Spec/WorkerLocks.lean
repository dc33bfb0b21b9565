import Verif.Model.WorkerLocks
/-
The points at which operations on the worker take effect, for C93: which step of Verif.Model.Worker a step of Verif.Model.WorkerLocks stands for, if any.
-/
namespace G3.Spec
open G3

variable {M : Type}

/-- Entering a task into the worker's queue is this operation; the final task of the destructor counts when the destructor begins to push it. -/
def handOver : KTask M → Option (WLabel M)
  | .save m => some (.save m)
  | .fatal m => some (.fatal m)
  | .add _ => some .add
  | .remove i => some (.remove i)
  | .clear => some .clear
  | .sinkFatal i m => some (.sinkFatal i m)
  | .dtorClear => some .dtor
  | .done => none

/-- The thread that is there enters what it has into the worker's queue. -/
def entering : Option (QPc (KTask M)) → Option (WLabel M)
  | some (.crit (.push j)) => handOver j
  | _ => none

/-- Thread `t` that is there enters what it has into the queue of sink `i`: the worker thread a message, another thread a call; the final task counts when `~Sink` begins. -/
def enteringSink (i t : Nat) : Option (QPc (SItem M)) → Option (WLabel M)
  | some (.crit (.push .stop)) => none
  | some (.crit (.push (.call c))) => some (if t = 1 then .work else .call i c)
  | some (.crit (.push _)) => if t = 1 then some .work else none
  | _ => none

/-- The thread of sink `i` leaves `wait_and_pop` with a task. -/
def leavingSink (i : Nat) : Option (QPc (SItem M)) → Option (WLabel M)
  | some (.fin .waitPop (.item _)) => some (.sinkPop i)
  | _ => none

/-- The worker thread outside the queues: to begin a push is nothing yet. -/
def working (hand : Option (KTask M)) (p : WPc M) : Option (WLabel M) :=
  match hand, p with
  | none, .sending _ (_ :: _) => none
  | _, _ => some .work

/-- What a step stands for. Operations that hand over a task count when it enters the queue; without queue they count at once. -/
def lin (k : KState M) : KLabel M → Option (WLabel M)
  | .thr _ (.save m) => if k.ctl.phase.bgNull then some (.save m) else none
  | .thr _ (.fatal m) => if k.ctl.phase.bgNull then some (.fatal m) else none
  | .thr _ .add => if k.ctl.phase.bgNull then some .add else none
  | .thr _ (.remove i) => if k.ctl.phase.bgNull then some (.remove i) else none
  | .thr _ .clear => if k.ctl.phase.bgNull then some .clear else none
  | .thr _ (.sinkFatal i m) => if k.ctl.phase.bgNull then some (.sinkFatal i m) else none
  | .thr _ (.call _ _) => none
  | .thr _ (.sinkPop _) => none
  | .thr _ .dtor => if k.dthr = none then none else some .dtor
  | .thr _ .work => working k.hand k.ctl.wpc
  | .thr _ l => some l
  | .pop => none
  | .mem (.act t) => entering k.wq.pcs[t]?
  | .mem _ => none
  | .smem i (.act t) => enteringSink i t (k.sq i).pcs[t]?
  | .smem i (.unlock t) => leavingSink i (k.sq i).pcs[t]?
  | .smem _ _ => none

/-- What a schedule stands for. -/
def linRun (k : KState M) : List (KLabel M) → List (WLabel M)
  | [] => []
  | l :: ls => (lin k l).toList ++ match kStep k l with | some k' => linRun k' ls | none => []

end G3.Spec
