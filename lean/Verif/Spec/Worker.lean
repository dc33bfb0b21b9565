/-
What a `LogWorker` is meant to do, said sequentially: the requests of the clients are served one at a time in the order in which
they reached the worker. No queues, no threads, no ownership.
-/
namespace G3.Spec

variable {M : Type}

/-- Requests. -/
inductive Req (M : Type)
  | log (m : M)
  | fatal (m : M)
  | attach (i : Nat)
  | detach (i : Nat)
  | detachAll
  | close
deriving DecidableEq, Repr

/-- What a sink gets. -/
inductive Got (M : Type)
  | log (m : M)
  | fatal (m : M)
deriving DecidableEq, Repr

/-- What appears on stderr. -/
inductive Err (M : Type)
  | noSinks (m : M)
  | fatal (m : M)
deriving DecidableEq, Repr

/-- The requests that end the service. -/
def Req.final : Req M → Bool
  | .fatal _ => true
  | .close => true
  | _ => false

/-- The requests that end the attachment of sink i. -/
def Req.endsFor (i : Nat) : Req M → Bool
  | .detach j => decide (j = i)
  | .detachAll => true
  | .fatal _ => true
  | _ => false

/-- The request that attaches sink i. -/
def Req.startsFor (i : Nat) : Req M → Bool
  | .attach j => decide (j = i)
  | _ => false

/-- What an attached sink gets from a request. -/
def Req.gives : Req M → List (Got M)
  | .log m => [.log m]
  | .fatal m => [.fatal m]
  | _ => []

/-- Sink i is attached after the requests `l`: it was attached at some point and nothing has ended that since (`attached_iff`). -/
def attached (i : Nat) (l : List (Req M)) : Bool := l.foldl (fun a r => (a || r.startsFor i) && !r.endsFor i) false

/-- The requests that are served: those up to and including the first that ends the service. -/
def served : List (Req M) → List (Req M)
  | [] => []
  | r :: l => if r.final then [r] else r :: served l

/-- What sink i gets from the requests `l` served after `pre`. -/
def getsFrom (i : Nat) (pre : List (Req M)) : List (Req M) → List (Got M)
  | [] => []
  | r :: l => (if attached i pre then r.gives else []) ++ getsFrom i (pre ++ [r]) l

/-- What sink i gets from a sequence of requests. -/
def gets (i : Nat) (l : List (Req M)) : List (Got M) := getsFrom i [] (served l)

/-- The sinks named in the requests. -/
def idsOf (l : List (Req M)) : List Nat := l.filterMap fun | .attach i => some i | _ => none

/-- No sink is attached. -/
def nobody (l : List (Req M)) : Bool := (idsOf l).all fun i => !attached i l

/-- What a request puts on stderr. -/
def Req.err (pre : List (Req M)) : Req M → List (Err M)
  | .log m => if nobody pre then [.noSinks m] else []
  | .fatal m => [.fatal m]
  | _ => []

/-- What the requests `l` served after `pre` put on stderr. -/
def errsFrom (pre : List (Req M)) : List (Req M) → List (Err M)
  | [] => []
  | r :: l => r.err pre ++ errsFrom (pre ++ [r]) l

/-- What a sequence of requests puts on stderr. -/
def errs (l : List (Req M)) : List (Err M) := errsFrom [] (served l)

end G3.Spec
