/-
Model of `shared_queue<T>`, /repo/src/g3log/shared_queue.hpp:26-78, down to lock, unlock, wait and notify. Any number of
threads (fixed for a run) call any operations. `std::mutex` and `std::condition_variable` behave as in the standard: one
owner at a time; `wait` releases the mutex and blocks in one step, may wake up spuriously, and needs the mutex again to
return; `notify_one` wakes one waiting thread, any of them, and does nothing if there is none. Allocation failures are not
modelled.
-/
namespace G3

/-- The member functions. -/
inductive QOp (T : Type)
  | push (x : T)   -- :38-44
  | tryPop         -- :47-55
  | waitPop        -- :58-67
  | empty          -- :69-72
  | size           -- :74-77

/-- What they return. -/
inductive QRes (T : Type)
  | unit
  | item (x : T)
  | fail
  | bool (b : Bool)
  | nat (n : Nat)

/-- Where a thread is. -/
inductive QPc (T : Type)
  | idle
  | want (op : QOp T)                -- about to lock m_
  | crit (op : QOp T)                -- owns m_, has not touched the queue since
  | fin (op : QOp T) (r : QRes T)    -- owns m_, work done
  | notify                           -- push: m_ released, line 43 not yet executed
  | waiting                          -- wait_and_pop: blocked in line 61
  | woken                            -- wait_and_pop: woken up, about to lock m_ again

/-- Ghost events. -/
inductive QEv (T : Type)
  | call (t : Nat) (op : QOp T)
  | lin (t : Nat) (op : QOp T) (r : QRes T)   -- the operation takes effect
  | ret (t : Nat) (r : QRes T)

/-- State; `trace` is a ghost. -/
structure QState (T : Type) where
  q : List T
  owner : Option Nat
  pcs : List (QPc T)
  trace : List (QEv T)

/-- Steps. -/
inductive QLabel (T : Type)
  | call (t : Nat) (op : QOp T)
  | lock (t : Nat)
  | act (t : Nat)
  | unlock (t : Nat)
  | notify (t : Nat) (target : Option Nat)
  | spurious (t : Nat)

variable {T : Type}

/-- `n` threads, empty queue. -/
def QState.start (n : Nat) : QState T := { q := [], owner := none, pcs := List.replicate n .idle, trace := [] }

/-- Is some thread blocked in `wait`? -/
def QState.hasWaiter (s : QState T) : Bool := s.pcs.any fun | .waiting => true | _ => false

/-- The critical section: what the operation does to the queue (lines 41, 49-54, 65-66, 71, 76); `none`: the queue is
empty and `wait_and_pop` has to wait (lines 60-61). -/
def critical (q : List T) : QOp T → Option (List T × QRes T)
  | .push x => some (q ++ [x], .unit)
  | .tryPop => match q with | [] => some ([], .fail) | x :: r => some (r, .item x)
  | .waitPop => match q with | [] => none | x :: r => some (r, .item x)
  | .empty => some (q, .bool q.isEmpty)
  | .size => some (q, .nat q.length)

/-- One step. -/
def qStep (s : QState T) : QLabel T → Option (QState T)
  | .call t op =>
    match s.pcs[t]? with
    | some .idle => some { s with pcs := s.pcs.set t (.want op), trace := s.trace ++ [.call t op] }
    | _ => none
  | .lock t =>
    match s.owner with
    | some _ => none
    | none =>
      match s.pcs[t]? with
      | some (.want op) => some { s with owner := some t, pcs := s.pcs.set t (.crit op) }
      | some .woken => some { s with owner := some t, pcs := s.pcs.set t (.crit .waitPop) }
      | _ => none
  | .act t =>
    match s.pcs[t]? with
    | some (.crit op) =>
      match critical s.q op with
      | some (q', r) => some { s with q := q', pcs := s.pcs.set t (.fin op r), trace := s.trace ++ [.lin t op r] }
      | none => some { s with owner := none, pcs := s.pcs.set t .waiting }
    | _ => none
  | .unlock t =>
    match s.pcs[t]? with
    | some (.fin (.push _) _) => some { s with owner := none, pcs := s.pcs.set t .notify }
    | some (.fin _ r) => some { s with owner := none, pcs := s.pcs.set t .idle, trace := s.trace ++ [.ret t r] }
    | _ => none
  | .notify t target =>
    match s.pcs[t]? with
    | some .notify =>
      match target with
      | none => if s.hasWaiter then none else some { s with pcs := s.pcs.set t .idle, trace := s.trace ++ [.ret t .unit] }
      | some u =>
        match s.pcs[u]? with
        | some .waiting => some { s with pcs := (s.pcs.set t .idle).set u .woken, trace := s.trace ++ [.ret t .unit] }
        | _ => none
    | _ => none
  | .spurious t =>
    match s.pcs[t]? with
    | some .waiting => some { s with pcs := s.pcs.set t .woken }
    | _ => none

/-- A schedule. -/
def qRun (s : QState T) : List (QLabel T) → Option (QState T)
  | [] => some s
  | l :: ls => (qStep s l).bind (qRun · ls)

end G3
