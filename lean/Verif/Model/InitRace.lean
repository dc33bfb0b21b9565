import Verif.Model.Str
/-
LOG calls on any number of threads while another thread runs `initializeLogging`: /repo/src/g3log.cpp:55-83 and 193-209.

`pushMessageToLogger` stores the first message in the global `unique_ptr` `g_first_uninitialized_msg` inside one `call_once`,
`initializeLogging` tests and empties that pointer inside another one, so nothing keeps the two apart. One step is one access to shared
memory. Each thread logs one message, the message and the object that holds it are named by the thread. The worker destroys a message when it
has served it (logworker.cpp:23-36: the last copy of the task goes).
-/
namespace G3

/-- Where a logging thread is. -/
inductive IPc
  | out
  | passed        -- line 195 found a logger
  | missed        -- line 195 found none
  | entered       -- inside the call_once of line 196
  | stored        -- line 197 done
  | read          -- line 199 has read the message through the pointer
  | referred      -- line 200 has a reference to the text
  | rewritten     -- lines 201, 202
  | done
  | faulty        -- null pointer or destroyed object accessed, or the text changed while the worker reads it
deriving DecidableEq, Repr

/-- Where the thread in `initializeLogging` is. -/
inductive InitPc
  | before
  | found         -- line 72 has seen a message
  | saved         -- past line 75
  | finished      -- line 77 done
deriving DecidableEq, Repr

/-- The state of the first once_flag. -/
inductive Once
  | free
  | busy
  | over
deriving DecidableEq, Repr

/-- Shared state. -/
structure IState where
  pc : Nat → IPc
  ipc : InitPc
  inst : Bool                    -- g_logger_instance is set
  slot : Option Nat              -- g_first_uninitialized_msg
  once : Once                    -- g_set_first_uninitialized_flag
  marked : Nat → Bool            -- the text of the message begins with "LOGGER NOT INITIALIZED"
  queue : List Nat               -- messages handed to the worker
  out : List (Nat × Bool)        -- messages served by the worker, and whether they were marked

/-- No logger, nothing logged. -/
def IState.start : IState :=
  { pc := fun _ => .out, ipc := .before, inst := false, slot := none, once := .free, marked := fun _ => false, queue := [], out := [] }

/-- Steps. -/
inductive ILabel
  | log (t : Nat)     -- next step of the LOG call of thread t
  | init              -- next step of initializeLogging
  | serve             -- the worker serves the next message and destroys it
deriving DecidableEq, Repr

/-- Thread t goes to `p`. -/
def IState.go (s : IState) (t : Nat) (p : IPc) : IState := { s with pc := fun k => if k = t then p else s.pc k }

/-- One step of a LOG call. -/
def iLog (s : IState) (t : Nat) : Option IState :=
  match s.pc t with
  | .out => some (s.go t (if s.inst then .passed else .missed))
  | .passed => some { s.go t .done with queue := s.queue ++ [t] }
  | .missed =>
    match s.once with
    | .free => some { s.go t .entered with once := .busy }
    | .busy => none
    | .over => some (s.go t .done)
  | .entered => some { s.go t .stored with slot := some t }
  | .stored => some (s.go t (if s.slot = none then .faulty else .read))
  | .read => some (s.go t (if s.slot = none then .faulty else .referred))
  | .referred =>
    if s.slot = some t then some { s.go t .rewritten with marked := fun k => if k = t then true else s.marked k }
    else some (s.go t .faulty)
  | .rewritten => some { s.go t .done with once := .over }
  | .done => none
  | .faulty => none

/-- One step of initializeLogging. -/
def iInit (s : IState) : Option IState :=
  match s.ipc with
  | .before => some { s with ipc := if s.slot = none then .saved else .found }
  | .found =>
    match s.slot with
    | none => none
    | some t => some { s with ipc := .saved, slot := none, queue := s.queue ++ [t] }
  | .saved => some { s with ipc := .finished, inst := true }
  | .finished => none

/-- One step. -/
def iStep (s : IState) : ILabel → Option IState
  | .log t => iLog s t
  | .init => iInit s
  | .serve =>
    match s.queue with
    | [] => none
    | t :: r => some { s with queue := r, out := s.out ++ [(t, s.marked t)] }

/-- A schedule. -/
def iRun (s : IState) : List ILabel → Option IState
  | [] => some s
  | l :: ls => (iStep s l).bind (iRun · ls)

end G3
