import Verif.Model.SinkDtor
/- C110: what the requests of a program are when destructors of sinks take part. -/
namespace G3.Spec

variable {M : Type}

/-- What the clients log, in order, and the destructors of their sinks. -/
def loggedBy : List (DtLabel M) → List M
  | [] => []
  | .log _ m :: r => m :: loggedBy r
  | _ :: r => loggedBy r

/-- The number of synchronous calls made with a step. -/
def callsIn : WLabel M → Nat
  | .add => 1
  | .remove _ => 1
  | .clear => 1
  | _ => 0

/-- A schedule as the worker sees it, if the first `n` entries that are logged reach it. The synchronous calls of destructors on the worker thread are calls like others; `k` calls have been made so far, `b` is the one that a destructor waits for. -/
def asSeen : Nat → Nat → Nat → List (DtLabel M) → List (WLabel M)
  | _, _, _, [] => []
  | n, k, b, .base l :: r =>
    l :: asSeen n (k + callsIn l) b r
  | 0, k, b, .log _ _ :: r => asSeen 0 k b r
  | n + 1, k, b, .log _ m :: r => .save m :: asSeen n k b r
  | n, k, _, .sync _ c :: r => c.label :: asSeen n (k + 1) k r
  | n, k, b, .back :: r => .ret b :: asSeen n k b r

end G3.Spec
