import Verif.Model.WorkerLocks
/-
After `fork`: the child has a copy of the memory of its parent, and of its threads only the one that called `fork`; it can start more. Nothing in
/repo/src asks to be told about a `fork` (no `pthread_atfork`).
-/
namespace G3.Spec

variable {M T : Type}

/-- The thread that makes this step inside a queue. -/
def who : QLabel T → Nat
  | .call t _ => t
  | .lock t => t
  | .act t => t
  | .unlock t => t
  | .notify t _ => t
  | .spurious t => t

/-- The steps of a child that was forked when there were `n` sinks: its threads `P` do whatever a program can do; a sink that the child itself makes
has a thread, the worker and the sinks that were there before have none. -/
def InChild (n : Nat) (P : Nat → Prop) : KLabel M → Prop
  | .thr _ .work => False
  | .thr _ (.sinkPop i) => n ≤ i
  | .thr _ (.sinkFin i) => n ≤ i
  | .thr u (.sinkFatal i _) => P u ∧ n ≤ i
  | .thr u _ => P u
  | .pop => False
  | .mem l => P (who l)
  | .smem i l => P (who l) ∨ (n ≤ i ∧ who l = 0)

/-- What can happen in a child forked in state `k`. The thread that forks is not inside a function of the library, nor are threads started later. -/
structure Forked (k : KState M) (P : Nat → Prop) (ls : List (KLabel M)) : Prop where
  free : ∀ u, P u → k.free u = true
  steps : ∀ l ∈ ls, InChild k.ctl.n P l

end G3.Spec
