import Verif.Spec.Worker
/-
What a `LogWorker` is meant to do where some fatal events - the exceptions - do not end the process: such an event is written to the
attached sinks, detaches all of them, and the service goes on.
-/
namespace G3.Spec

variable {M : Type}

/-- The request ends the service. -/
def Req.stops (exc : M → Bool) : Req M → Bool
  | .fatal m => !exc m
  | .close => true
  | _ => false

/-- The requests that are served: those up to and including the first that ends the service. -/
def servedX (exc : M → Bool) : List (Req M) → List (Req M)
  | [] => []
  | r :: l => if r.stops exc then [r] else r :: servedX exc l

/-- What sink i gets from a sequence of requests. -/
def getsX (exc : M → Bool) (i : Nat) (l : List (Req M)) : List (Got M) := getsFrom i [] (servedX exc l)

/-- What a sequence of requests puts on stderr. -/
def errsX (exc : M → Bool) (l : List (Req M)) : List (Err M) := errsFrom [] (servedX exc l)

/-- The message that a sink gets. -/
def Got.msg : Got M → M
  | .log m => m
  | .fatal m => m

end G3.Spec
