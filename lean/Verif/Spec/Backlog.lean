import Verif.Model.Worker
/- C118: the messages that wait. -/
namespace G3.Spec
open G3

variable {M : Type}

/-- A message in the queue of the worker. -/
def messageTask : WTask M → Bool
  | .save _ => true
  | .fatal _ => true
  | _ => false

/-- A message in the queue of a sink. -/
def messageItem : SItem M → Bool
  | .msg _ => true
  | .fatal _ => true
  | _ => false

/-- The messages that a sink has been sent and has not finished. -/
def atSink (k : SinkSt M) : Nat := (k.running.toList ++ k.q).countP messageItem

/-- The message that the worker is just handing out and has not yet sent to sink i. -/
def onItsWay (i : Nat) : WPc M → Nat
  | .sending x rest => if i ∈ rest ∧ messageItem x = true then 1 else 0
  | _ => 0

/-- The messages that are kept in memory and may still reach sink i. -/
def backlog (s : WState M) (i : Nat) : Nat := s.wq.countP messageTask + onItsWay i s.wpc + atSink (s.sk i)

/-- Steps by which a message comes in. -/
def messageStep : WLabel M → Bool
  | .save _ => true
  | .fatal _ => true
  | .sinkFatal _ _ => true
  | _ => false

/-- `r` rounds in which two messages are logged; the worker thread does all its work and the thread of sink 0 serves one message. -/
def slowSink (m : M) : Nat → List (WLabel M)
  | 0 => [.add, .work, .ret 0]
  | r + 1 => slowSink m r ++ [.save m, .save m, .work, .work, .work, .work, .work, .work, .sinkPop 0, .sinkFin 0]

/-- The same with a worker thread that serves one message a round. -/
def slowWorker (m : M) : Nat → List (WLabel M)
  | 0 => [.add, .work, .ret 0]
  | r + 1 => slowWorker m r ++ [.save m, .save m, .work, .work, .work, .sinkPop 0, .sinkFin 0]

end G3.Spec
