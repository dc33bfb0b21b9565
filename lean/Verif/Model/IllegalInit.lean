import Verif.Model.Str
import Mathlib.Logic.Function.Basic
/-
`initializeLogging`, `shutDownLogging`, `shutDownLoggingForActiveOnly` and `~LogWorker` with the mutex `g_logging_init_mutex`, on any number of threads and with any number of workers:
/repo/src/g3log.cpp:37-38, 55-83, 111-138, 193-208 and /repo/src/logworker.cpp:70-99. An illegal initialisation calls `std::exit` while the mutex is locked (g3log.cpp:59-68); `exit` destroys the
objects with static storage duration on the same thread, among them the `LogWorker`s that the program keeps there, in the reverse order of their construction; it does not destroy the others.

Simplifications: messages are numbers; the sinks of a worker are one queue, and a worker executes a message in one step (Model/Worker); the crash handlers and the first message (g3log.cpp:56-58, 70-75) are left
out, as are hook and counter (:77-82), which are not seen here (Model/Front, Model/InitRace); the call of `save` by LOG is one step with its test of the pointer (Model/Race); a thread that locks a mutex that
it has locked waits for ever (undefined behaviour by the standard, this by glibc). `main` does not return and nobody else calls `exit` (Model/ExitPath).
-/
namespace G3

/-- What a worker gets. -/
inductive JMsg
  | msg (n : Nat)
  | warning          -- g3log.cpp:129-132
deriving DecidableEq, Repr

/-- A `LogWorker`. -/
structure JWorker where
  static : Bool            -- static storage duration
  alive : Bool             -- nobody has begun to destroy it
  pending : List JMsg      -- handed over, not with the sinks
  got : List JMsg          -- with the sinks
  sent : List JMsg         -- everything that was handed over (ghost)

/-- Where a thread is in `~LogWorker`. -/
inductive JPhase
  | test       -- before g3log.cpp:128
  | lock       -- before :116
  | inside     -- before :117
  | drain      -- waits in removeAllSinks, logworker.cpp:83
deriving DecidableEq, Repr

/-- Where a thread is. -/
inductive JPc
  | idle
  | init (w : Option Nat)                                    -- before g3log.cpp:59; the argument
  | initIn (w : Option Nat)                                  -- before :60
  | shut                                                     -- before :116
  | shutIn                                                   -- before :117
  | dtor (w : Nat) (ph : JPhase) (k : Option (List Nat))     -- ~LogWorker; called by `exit`, which then has these workers to destroy
  | exiting (rest : List Nat)                                -- in `exit`
deriving DecidableEq, Repr

/-- What happens to `g_logger_instance` (ghost). -/
inductive JEvent
  | on (w : Nat)                  -- a legal initialisation
  | off                           -- shut down
  | illegal (w : Option Nat)      -- an illegal initialisation
deriving DecidableEq, Repr

/-- State of the process. -/
structure JState where
  lock : Option Nat           -- the thread that has locked `g_logging_init_mutex`
  active : Option Nat         -- `g_logger_instance`
  n : Nat                     -- number of workers
  ws : Nat → JWorker
  pcs : Nat → JPc
  hist : List JEvent
  over : Option Nat           -- the process has ended with this status

/-- What the program does. -/
inductive JOp
  | init (w : Option Nat)
  | shutDown
  | log (m : Nat)
  | destroy (w : Nat)          -- the owner destroys a worker that is not static

/-- Labels. -/
inductive JLabel
  | call (t : Nat) (o : JOp)
  | step (t : Nat)
  | work (w : Nat)             -- the thread of worker `w`

/-- `save`, logworker.cpp:101-103. -/
def JState.send (s : JState) (w : Nat) (m : JMsg) : JState :=
  { s with ws := Function.update s.ws w { s.ws w with pending := (s.ws w).pending ++ [m], sent := (s.ws w).sent ++ [m] } }

/-- The next place of a thread. -/
def JState.go (s : JState) (t : Nat) (p : JPc) : JState := { s with pcs := Function.update s.pcs t p }

/-- Somebody begins to destroy a worker. -/
def JState.kill (s : JState) (w : Nat) : JState := { s with ws := Function.update s.ws w { s.ws w with alive := false } }

/-- The workers that `exit` destroys, the youngest first. -/
def JState.statics (s : JState) : List Nat := ((List.range s.n).filter fun w => (s.ws w).static && (s.ws w).alive).reverse

/-- Calls of the program. -/
def JState.call (s : JState) (t : Nat) : JOp → Option JState
  | .init none => some (s.go t (.init none))
  | .init (some w) => if w < s.n then if (s.ws w).alive then some (s.go t (.init (some w))) else none else none
  | .shutDown => some (s.go t .shut)
  | .log m =>
    match s.active with                                        -- g3log.cpp:195
    | none => some s
    | some w => some (s.send w (.msg m))                       -- :208
  | .destroy w =>
    if w < s.n then
      if (s.ws w).alive then if (s.ws w).static then none else some ((s.kill w).go t (.dtor w .test none)) else none
    else none

/-- One step of a thread. -/
def JState.stepAt (s : JState) (t : Nat) : JPc → Option JState
  | .idle => none
  | .init w =>
    match s.lock with                                          -- g3log.cpp:59
    | none => some (JState.go { s with lock := some t } t (.initIn w))
    | some _ => none
  | .initIn w =>
    match s.active, w with                                     -- :60
    | none, some v => some (JState.go { s with active := some v, lock := none, hist := s.hist ++ [.on v] } t .idle)      -- :77 and the end of the block
    | _, _ => some (JState.go { s with hist := s.hist ++ [.illegal w] } t (.exiting s.statics))                            -- :67
  | .shut =>
    match s.lock with                                          -- :116
    | none => some (JState.go { s with lock := some t } t .shutIn)
    | some _ => none
  | .shutIn => some (JState.go { s with active := none, lock := none, hist := s.hist ++ [.off] } t .idle)                  -- :117
  | .dtor w .test k =>
    match s.active with                                        -- :128
    | none => some (s.go t (.dtor w .lock k))
    | some v => if v = w then some (s.go t (.dtor w .lock k)) else some ((s.send v .warning).go t (.dtor w .drain k))
  | .dtor w .lock k =>
    match s.lock with
    | none => some (JState.go { s with lock := some t } t (.dtor w .inside k))
    | some _ => none
  | .dtor w .inside k => some (JState.go { s with active := none, lock := none, hist := s.hist ++ [.off] } t (.dtor w .drain k))
  | .dtor w .drain k =>
    if (s.ws w).pending = [] then                              -- logworker.cpp:83
      match k with
      | none => some (s.go t .idle)
      | some r => some (s.go t (.exiting r))
    else none
  | .exiting (w :: r) => some ((s.kill w).go t (.dtor w .test (some r)))
  | .exiting [] => some { s with over := some 1 }              -- EXIT_FAILURE

/-- The thread of a worker hands a message to the sinks, logworker.cpp:23-36. -/
def JState.work (s : JState) (w : Nat) : Option JState :=
  match (s.ws w).pending with
  | [] => none
  | m :: r => some { s with ws := Function.update s.ws w { s.ws w with pending := r, got := (s.ws w).got ++ [m] } }

/-- One step of the process. -/
def JState.step (s : JState) (l : JLabel) : Option JState :=
  if s.over = none then
    match l with
    | .call t o => if s.pcs t = .idle then s.call t o else none
    | .step t => s.stepAt t (s.pcs t)
    | .work w => s.work w
  else none

/-- A run. -/
def JState.run (s : JState) : List JLabel → Option JState
  | [] => some s
  | l :: ls => (s.step l).bind fun s' => s'.run ls

/-- The start: workers, none of them used; `st` says which are static. -/
def JState.start (n : Nat) (st : Nat → Bool) : JState := ⟨none, none, n, fun w => ⟨st w, true, [], [], []⟩, fun _ => .idle, [], none⟩

end G3
