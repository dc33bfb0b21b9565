import Verif.Model.Front
/-
`saveFatalMessage` (/repo/src/g3log.cpp:157-184) run by several threads at the same time, with `setFatalPreLoggingHook`
(g3log.cpp:91-95) inside it. The threads share the hook object `g_fatal_pre_logging_hook`, the mutex of `setFatalPreLoggingHook`, the
counter `g_fatal_hook_recursive_counter` and the static `first_stack_trace`.

The hook is read without the mutex (g3log.cpp:158) and written with it (g3log.cpp:94). Copying and assigning a `std::function` take time: each has
a begin and an end here, and an overlap of a copy and an assignment is undefined behaviour. Events raised inside the hook are the
subject of Verif.Model.Front; here the hook returns. Each thread raises one event.
-/
namespace G3

/-- Where a thread is. The flag says whether its copy `fatalhook` is the hook of the user. -/
inductive FtPc
  | idle
  | copying                  -- inside the copy of g3log.cpp:158
  | copied (user : Bool)
  | locked (user : Bool)     -- line 93: owns the mutex
  | writing (user : Bool)    -- inside the assignment of line 94
  | written (user : Bool)
  | unlocked (user : Bool)   -- back in saveFatalMessage
  | counted (user : Bool)    -- line 162
  | traced (user : Bool)     -- line 166
  | hooked                   -- line 167
  | done                     -- line 183: the message has been passed to fatalCall
deriving DecidableEq, Repr

/-- The shared state. -/
structure FtState where
  pc : Nat → FtPc
  hook : Bool               -- g_fatal_pre_logging_hook is (still) the hook of the user
  copiers : Nat             -- threads inside the copy
  writing : Bool            -- some thread is inside the assignment
  owner : Option Nat        -- of the mutex
  counter : Nat
  first : Option Str        -- first_stack_trace
  runs : List Nat           -- threads that have run the hook of the user
  out : List (Nat × Str)    -- messages passed to fatalCall
  ub : Bool

/-- A hook has been set and no fatal event has been raised since `initializeLogging`. -/
def FtState.start : FtState :=
  { pc := fun _ => .idle, hook := true, copiers := 0, writing := false, owner := none, counter := 0, first := none, runs := [], out := [], ub := false }

/-- Thread t goes to `p`. -/
def FtState.go (s : FtState) (t : Nat) (p : FtPc) : FtState := { s with pc := fun i => if i = t then p else s.pc i }

/-- The next step of thread t, whose event has the text `text t` and the stack trace `trace t`. -/
def ftStep (text trace : Nat → Str) (s : FtState) (t : Nat) : Option FtState :=
  if s.ub then none
  else match s.pc t with
  | .idle => if s.writing then some { s with ub := true } else some { s.go t .copying with copiers := s.copiers + 1 }
  | .copying => some { s.go t (.copied s.hook) with copiers := s.copiers - 1 }
  | .copied u => if s.owner = none then some { s.go t (.locked u) with owner := some t } else none
  | .locked u => if 0 < s.copiers then some { s with ub := true } else some { s.go t (.writing u) with writing := true }
  | .writing u => some { s.go t (.written u) with writing := false, hook := false }
  | .written u => some { s.go t (.unlocked u) with owner := none }
  | .unlocked u => some { s.go t (.counted u) with counter := s.counter + 1 }
  | .counted u => some { s.go t (.traced u) with first := some (s.first.getD (trace t)) }
  | .traced u => some { s.go t .hooked with runs := if u then s.runs ++ [t] else s.runs }
  | .hooked =>
    some { s.go t .done with
      out := s.out ++ [(t, text t ++ trace t ++ if 1 < s.counter then recursiveText (s.first.getD []) else [])] }
  | .done => none

/-- A schedule: which thread makes the next step. -/
def ftRun (text trace : Nat → Str) (s : FtState) : List Nat → Option FtState
  | [] => some s
  | t :: ts => (ftStep text trace s t).bind (ftRun text trace · ts)

end G3
