import Mathlib.Logic.Function.Basic
/-
Adding and removing sinks when a program has several workers: /repo/src/g3log/logworker.hpp:88-95 (addSink), 100-121 (removeSink), 125-131 (removeAllSinks),
/repo/src/g3log/sinkhandle.hpp:54-56 (sink), /repo/src/logworker.cpp:23-29 (bgSave), 109-115 (addWrappedSink).

removeSink takes the handle over and erases the sink of the handle from the list of the worker on which it is called. Nothing ties a handle to its worker.

External: nothing. Simplifications: each operation is taken as a whole (a worker does its tasks one after the other, C17, and the callers wait for those that
change the sinks); the program keeps no shared pointer to a sink; the destruction of sinks is C04 and C110.
-/
namespace G3

/-- The sinks of each worker (`_sinks`), the handles that the program has, the number of sinks made, and what the sinks got. Handle k is that of sink k. -/
structure OwState (M : Type) where
  sinks : Nat → List Nat
  handles : List Nat
  made : Nat
  got : List (Nat × M)

/-- The operations. -/
inductive OwLabel (M : Type)
  | add (w : Nat)             -- w.addSink(...)
  | remove (w k : Nat)        -- w.removeSink(std::move(handle k)); an empty handle if it has been moved away before
  | removeAll (w : Nat)       -- w.removeAllSinks()
  | log (w : Nat) (m : M)     -- worker w does its task for a message

variable {M : Type}

/-- One operation. -/
def owStep (s : OwState M) : OwLabel M → OwState M
  | .add w => { s with sinks := Function.update s.sinks w (s.sinks w ++ [s.made]), handles := s.handles ++ [s.made], made := s.made + 1 }
  | .remove w k =>
    if k ∈ s.handles then
      { s with sinks := Function.update s.sinks w ((s.sinks w).filter (· ≠ k)), handles := s.handles.filter (· ≠ k) }
    else s
  | .removeAll w => { s with sinks := Function.update s.sinks w [] }
  | .log w m => { s with got := s.got ++ (s.sinks w).map (·, m) }

/-- A sequence of operations, from the start. -/
def owRun (ls : List (OwLabel M)) : OwState M := ls.foldl owStep { sinks := fun _ => [], handles := [], made := 0, got := [] }

end G3
