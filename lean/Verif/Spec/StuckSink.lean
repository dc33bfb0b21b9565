import Verif.Spec.Worker
/- Requests that have to wait for a sink. -/
namespace G3.Spec

variable {M : Type}

/-- Requests that may have to wait for a sink out of `K`: removing such a sink, removing all sinks, and fatal events (which
remove all sinks). -/
def Req.mayWaitFor (K : Nat → Prop) : Req M → Prop
  | .detach i => K i
  | .detachAll => True
  | .fatal _ => True
  | _ => False

end G3.Spec
