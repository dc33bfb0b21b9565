import Verif.Model.Active
import Verif.Model.Queue
/-
`kjellkod::Active`, /repo/src/g3log/active.hpp:30-65, together with the queue it uses, /repo/src/g3log/shared_queue.hpp:26-78,
down to single lock, unlock, wait and notify operations. `Verif.Model.Active` takes every queue operation as one step; here
any number of threads are anywhere inside them. Thread 0 is the thread of the object; any thread may send, thread 0 from
within a task. Tasks return, as in `Verif.Model.Active`.
-/
namespace G3

/-- The destructor, lines 50-53. -/
inductive CDtor
  | notStarted
  | inside (d : Nat)    -- thread d is in line 51, or waits in line 52
  | joined              -- line 52 done
deriving DecidableEq, Repr

/-- The queue, the object and its thread; `ran` is a ghost. -/
structure CState where
  qs : QState ATask
  running : Option ATask     -- `func`, lines 39-41, after `wait_and_pop` has returned
  flag : Bool                -- done_
  exited : Bool              -- run() has returned
  dtor : CDtor
  ran : List Nat

/-- `createActive`, lines 60-64, in a program of `n` threads. -/
def CState.start (n : Nat) : CState :=
  { qs := .start n, running := none, flag := false, exited := false, dtor := .notStarted, ran := [] }

/-- Steps. -/
inductive CLabel
  | send (t : Nat) (id : Nat)   -- line 56: thread t calls push
  | dtorSend (d : Nat)          -- line 51: thread d calls push
  | mem (l : QLabel ATask)      -- a step inside a member function of the queue
  | enter                       -- lines 38-40: the flag is not set, wait_and_pop is called
  | finish                      -- line 41: the task has run
  | leave                       -- line 38: the flag is set
  | join                        -- line 52

/-- Is `func` a task of a user? Only those call `send`. -/
def inUserTask : Option ATask → Bool
  | some (.user _) => true
  | _ => false

/-- `func` after the step `l`: `wait_and_pop` hands over the item when it returns. -/
def handedOver (s : CState) : QLabel ATask → Option ATask
  | .unlock 0 => match s.qs.pcs[(0 : Nat)]? with | some (.fin .waitPop (.item x)) => some x | _ => s.running
  | _ => s.running

/-- One step. The object is not used once its destructor has returned, and the thread that destroys it does not send and
is not thread 0. -/
def cStep (s : CState) : CLabel → Option CState
  | .send t i =>
    if s.dtor = .joined ∨ s.dtor = .inside t ∨ (t = 0 ∧ inUserTask s.running = false) then none
    else (qStep s.qs (.call t (.push (.user i)))).map fun q => { s with qs := q }
  | .dtorSend d =>
    if s.dtor = .notStarted ∧ d ≠ 0 then
      (qStep s.qs (.call d (.push .stop))).map fun q => { s with qs := q, dtor := .inside d }
    else none
  | .mem l =>
    match l with
    | .call _ _ => none
    | l => if s.dtor = .joined then none else (qStep s.qs l).map fun q => { s with qs := q, running := handedOver s l }
  | .enter =>
    if s.flag = false ∧ s.exited = false ∧ s.running = none then
      (qStep s.qs (.call 0 .waitPop)).map fun q => { s with qs := q }
    else none
  | .finish =>
    match s.qs.pcs[(0 : Nat)]? with
    | some .idle =>
      match s.running with
      | some (.user i) => some { s with running := none, ran := s.ran ++ [i] }
      | some .stop => some { s with running := none, flag := true }
      | none => none
    | _ => none
  | .leave =>
    match s.qs.pcs[(0 : Nat)]? with
    | some .idle => if s.flag = true ∧ s.exited = false ∧ s.running = none then some { s with exited := true } else none
    | _ => none
  | .join =>
    match s.dtor with
    | .inside d =>
      match s.qs.pcs[d]? with
      | some .idle => if s.exited = true then some { s with dtor := .joined } else none
      | _ => none
    | _ => none

/-- A schedule. -/
def cRun (s : CState) : List CLabel → Option CState
  | [] => some s
  | l :: ls => (cStep s l).bind (cRun · ls)

end G3
