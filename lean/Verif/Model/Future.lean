/-
Model of `spawn_task` (/repo/src/g3log/future.hpp:42-61) on an active object, as used by `Sink::async` (/repo/src/g3log/sink.hpp:70-73)
and `SinkHandle::call` (/repo/src/g3log/sinkhandle.hpp:36-49).

A call is a function on the object of type `S` (the real sink) that returns a value or throws. `std::packaged_task` stores the value
or the exception in the shared state of the future; a task destroyed unexecuted stores `broken_promise`. The queue is FIFO and served
by one thread (`Verif.Props.Active`), so the execution of a task is one step. Arguments are bound into the function (sink.hpp:72).
-/
namespace G3

variable {S E R : Type}

/-- The shared state of a future. -/
inductive FutVal (E R : Type)
  | pending
  | value (r : R)
  | thrown (e : E)
  | nullWorker      -- runtime_error("nullptr instantiated worker"), future.hpp:50
  | badWeak         -- bad_weak_ptr, sinkhandle.hpp:43-47
  | broken          -- future_error(broken_promise)
deriving DecidableEq, Repr

/-- A call bound to its arguments. -/
abbrev FTask (S E R : Type) := S → Except E R × S

/-- What `packaged_task` stores. -/
def FutVal.ofResult : Except E R → FutVal E R
  | .ok r => .value r
  | .error e => .thrown e

/-- The object, the queue of its active object, and the futures handed out so far. -/
structure FutSt (S E R : Type) where
  obj : S
  q : List (Nat × FTask S E R)
  slots : List (FutVal E R)
  alive : Bool := true   -- the active object exists; using it afterwards is undefined behaviour and not modelled

/-- Steps: `spawn_task` with and without a worker, a call through an expired handle, the thread executes the next task, the queue is
destroyed. -/
inductive FLabel (S E R : Type)
  | spawn (f : FTask S E R)
  | spawnNull (f : FTask S E R)
  | expired (f : FTask S E R)
  | exec
  | drop

/-- The futures of tasks destroyed unexecuted. -/
def breakAll (slots : List (FutVal E R)) : List (Nat × FTask S E R) → List (FutVal E R)
  | [] => slots
  | (k, _) :: r => breakAll (slots.set k .broken) r

def futStep (s : FutSt S E R) : FLabel S E R → Option (FutSt S E R)
  -- future.hpp:54-58: the future is taken before the task is moved into the queue
  | .spawn f => if !s.alive then none else some { s with q := s.q ++ [(s.slots.length, f)], slots := s.slots ++ [.pending] }
  -- future.hpp:47-52
  | .spawnNull _ => some { s with slots := s.slots ++ [.nullWorker] }
  -- sinkhandle.hpp:43-48
  | .expired _ => some { s with slots := s.slots ++ [.badWeak] }
  -- active.hpp:40-41 with moveoncopy.hpp:45-47
  | .exec =>
    match s.q with
    | [] => none
    | (k, f) :: r => some { s with obj := (f s.obj).2, q := r, slots := s.slots.set k (FutVal.ofResult (f s.obj).1) }
  -- ~packaged_task of the tasks still queued; `~Active` leaves none (C17)
  | .drop => if !s.alive then none else some { s with q := [], slots := breakAll s.slots s.q, alive := false }

def futRun (s : FutSt S E R) : List (FLabel S E R) → Option (FutSt S E R)
  | [] => some s
  | l :: ls => (futStep s l).bind (futRun · ls)

end G3
