/-
Model of `kjellkod::Active`, /repo/src/g3log/active.hpp:30-65, on top of the queue (whose operations take effect one at a
time, see `Verif.Props.Queue`). A task is a number; what it does is not modelled, except that it returns (an exception
leaving a task ends the program). Tasks are sent by any thread, including the tasks themselves.
-/
namespace G3

/-- What is in the queue: a task, or the final task of the destructor (line 51). -/
inductive ATask
  | user (id : Nat)
  | stop
deriving DecidableEq, Repr

/-- The destructor, lines 50-53. -/
inductive Dtor
  | notStarted
  | sent        -- line 51 done
  | joined      -- line 52 done
deriving DecidableEq, Repr

/-- State of the object and its thread; `ran` and `sent` are ghosts. -/
structure AState where
  q : List ATask
  running : Option ATask
  flag : Bool            -- done_
  exited : Bool          -- run() has returned
  dtor : Dtor
  sent : List ATask
  ran : List Nat
deriving DecidableEq, Repr

/-- `createActive`, lines 60-64. -/
def AState.start : AState := { q := [], running := none, flag := false, exited := false, dtor := .notStarted, sent := [], ran := [] }

/-- Steps. -/
inductive ALabel
  | send (id : Nat)     -- line 56, by anybody
  | dtorSend            -- line 51
  | pop                 -- lines 38-40: the flag is not set, a task is taken
  | finish              -- line 41: the task has run
  | leave               -- line 38: the flag is set
  | join                -- line 52
deriving DecidableEq, Repr

/-- One step. Nothing is sent once the destructor has returned. -/
def aStep (s : AState) : ALabel → Option AState
  | .send i => if s.dtor = .joined then none else some { s with q := s.q ++ [.user i], sent := s.sent ++ [.user i] }
  | .dtorSend =>
    if s.dtor = .notStarted then some { s with q := s.q ++ [.stop], sent := s.sent ++ [.stop], dtor := .sent } else none
  | .pop =>
    if s.flag = false ∧ s.exited = false ∧ s.running = none then
      match s.q with
      | [] => none
      | x :: r => some { s with q := r, running := some x }
    else none
  | .finish =>
    match s.running with
    | some (.user i) => some { s with running := none, ran := s.ran ++ [i] }
    | some .stop => some { s with running := none, flag := true }
    | none => none
  | .leave => if s.flag = true ∧ s.exited = false ∧ s.running = none then some { s with exited := true } else none
  | .join => if s.dtor = .sent ∧ s.exited = true then some { s with dtor := .joined } else none

/-- A schedule. -/
def aRun (s : AState) : List ALabel → Option AState
  | [] => some s
  | l :: ls => (aStep s l).bind (aRun · ls)

end G3
