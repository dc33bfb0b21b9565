import Verif.Model.SignalLocks
/-
LOG statements in signal handlers of the program's own (SIGUSR1, SIGCHLD, a timer, ...), which run on a thread in between and then return. The library has no part in installing them; what they need of it are the locks of
a LOG statement: those of the heap (/repo/src/logcapture.cpp:43-74, /repo/src/g3log.cpp:143-155, /repo/src/g3log/shared_queue.hpp:38-44) and of the queue of the worker (/repo/src/logworker.cpp:101-103, shared_queue.hpp:38-44), neither of
which is recursive.

A thread is a pile of activities: its own program at the bottom, above it the handlers that have interrupted it and each other; only the topmost makes steps. Locks belong to the thread. Simplifications: those of Model/SignalLocks; in
particular an allocation that the C library serves without its lock cannot be interrupted.
-/
namespace G3

/-- The activities of the threads, topmost first, and who owns the locks. -/
structure HlState (L : Type) where
  acts : Nat → List (List (LkOp L))
  owner : L → Option Nat

/-- Steps: a thread goes on, a signal interrupts a thread for a handler with the locks `H`. -/
inductive HlLabel (L : Type)
  | step (v : Nat)
  | signal (v : Nat) (H : List (LkOp L))

variable {L : Type} [DecidableEq L]

/-- At the start nothing is locked and no handler runs. -/
def HlState.start (P : Nat → List (LkOp L)) : HlState L := ⟨fun v => [P v], fun _ => none⟩

/-- The thread goes on with these activities. -/
def HlState.go (s : HlState L) (v : Nat) (a : List (List (LkOp L))) : HlState L := { s with acts := Function.update s.acts v a }

/-- One step; `none` if it is not possible. `lock` waits until nobody owns the lock, not even the thread itself. -/
def hlStep (s : HlState L) : HlLabel L → Option (HlState L)
  | .step v =>
    match s.acts v with
    | [] => none
    | (.acq l :: r) :: as => if s.owner l = none then some { s.go v (r :: as) with owner := Function.update s.owner l (some v) } else none
    | (.rel l :: r) :: as => if s.owner l = some v then some { s.go v (r :: as) with owner := Function.update s.owner l none } else none
    | [] :: [] => none                       -- the thread has ended
    | [] :: a :: as => some (s.go v (a :: as))   -- the handler returns
  | .signal v H =>
    match s.acts v with
    | [] => none
    | [] :: [] => none
    | a :: as => some (s.go v (H :: a :: as))

/-- A history. -/
def hlRun (s : HlState L) : List (HlLabel L) → Option (HlState L)
  | [] => some s
  | x :: r => (hlStep s x).bind fun s' => hlRun s' r

end G3
