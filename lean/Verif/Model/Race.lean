import Verif.Model.Str
/-
The unsynchronised accesses to `g_logger_instance` in /repo/src/g3log.cpp: `pushMessageToLogger` (lines 193-209)
reads it twice without the mutex, while `shutDownLogging` (:118-121) and the destructor of the worker run in
other threads. Interleaving of whole memory accesses; the data race as such (undefined by the C++ memory
model already) is not modelled.
-/
namespace G3

/-- Where a thread is in `pushMessageToLogger`. -/
inductive LPc
  | out                     -- not in a LOG call
  | passed                  -- line 195 found the logger initialised
  | loaded (w : Option Nat) -- line 208 has read the pointer again
  | done
  | faulty                  -- line 208 has dereferenced a null pointer or a destroyed worker
deriving DecidableEq, Repr

/-- Shared state. -/
structure RState where
  inst : Option Nat
  alive : Nat → Bool
  pc : Nat → LPc

/-- Steps. -/
inductive RLabel
  | check (t : Nat)     -- line 195
  | load (t : Nat)      -- line 208, reading g_logger_instance
  | call (t : Nat)      -- line 208, LogWorker::save reading its members
  | shutdown            -- line 120
  | destroy (w : Nat)   -- the memory of worker w is released
deriving DecidableEq, Repr

/-- Update of one thread. -/
def RState.setPc (s : RState) (t : Nat) (p : LPc) : RState := { s with pc := fun k => if k = t then p else s.pc k }

/-- One step. The owner of a worker shuts logging down before releasing it (~LogWorker, logworker.cpp:71), hence
the condition on `destroy`. -/
def rStep (s : RState) : RLabel → Option RState
  | .check t =>
    if s.pc t = .out then some (s.setPc t (if s.inst = none then .done else .passed)) else none
  | .load t => if s.pc t = .passed then some (s.setPc t (.loaded s.inst)) else none
  | .call t =>
    match s.pc t with
    | .loaded none => some (s.setPc t .faulty)
    | .loaded (some w) => some (s.setPc t (if s.alive w then .done else .faulty))
    | _ => none
  | .shutdown => some { s with inst := none }
  | .destroy w => if s.inst = some w then none else some { s with alive := fun k => if k = w then false else s.alive k }

/-- A schedule. -/
def rRun (s : RState) : List RLabel → Option RState
  | [] => some s
  | l :: ls => (rStep s l).bind (rRun · ls)

/-- Worker `w` is active, nobody is logging. -/
def rStart (w : Nat) : RState := { inst := some w, alive := fun _ => true, pc := fun _ => .out }

end G3
