import Verif.Model.Worker
import Verif.Spec.Worker
/- C03, C04, C05, C07: what a sink that a client keeps alive still has to do. -/
namespace G3.Spec
open G3

variable {M : Type}

/-- The messages among tasks of a sink. -/
def messagesIn : List (SItem M) → List (Got M)
  | [] => []
  | .msg m :: l => .log m :: messagesIn l
  | .fatal m :: l => .fatal m :: messagesIn l
  | .call _ :: l => messagesIn l
  | .stop :: l => messagesIn l

/-- What a sink still has to process: what its thread is at and what is in its queue. -/
def stillAt (k : SinkSt M) : List (Got M) := messagesIn k.running.toList ++ messagesIn k.q

/-- Steps of the thread of sink i. -/
def stepOfSink (i : Nat) : WLabel M → Prop
  | .sinkPop j => j = i
  | .sinkFin j => j = i
  | _ => False

end G3.Spec
