import Verif.Model.ActiveLocks
/-
Several `kjellkod::Active` objects (/repo/src/g3log/active.hpp:30-65) that send tasks to each other, such as the worker and its sinks
(/repo/src/g3log/logworker.hpp:84-131, /repo/src/g3log/sink.hpp:26-74), with the operations that matter to the C++ memory model: which thread locks and
unlocks which mutex, touches which memory, ends, is joined, sets and reads which future.

Object `k < n` has its own thread, with the number `k`; the other threads of the program have numbers from `n` on. Within object `k`,
Verif.Model.ActiveLocks calls the object's own thread 0; `swp` translates. Objects exist from the start (their construction happens before
everything else). Every access to a queue counts as a write. A future is that of a task (/repo/src/g3log/future.hpp:48-58).
-/
namespace G3

/-- Memory that is not accessed by atomic operations. -/
inductive MemLoc
  | queue      -- queue_, shared_queue.hpp:28
  | flag       -- done_, active.hpp:46
deriving DecidableEq, Repr

/-- What a thread does, as far as the memory model is concerned. -/
inductive MemEv
  | lock (k : Nat)                 -- m_ of the queue of object k
  | unlock (k : Nat)
  | notify (k : Nat)               -- data_cond_ is used
  | access (k : Nat) (x : MemLoc)
  | ended                          -- the thread function returns
  | joined (g : Nat)               -- join of thread g returns
  | destroy (k : Nat)              -- the members of object k are destroyed
  | send (k i : Nat)               -- send(task i) begins
  | work (k i : Nat)               -- something that task i does
  | set (k i : Nat)                -- task i is done; its future is ready
  | got (k i : Nat)                -- get() on the future of task i returns
  | dtor (k : Nat)                 -- the destructor of object k begins
deriving DecidableEq, Repr

/-- Exchanges 0 and `k`. -/
def swp (k t : Nat) : Nat := if t = k then 0 else if t = 0 then k else t

/-- The events of a step of object `k` in state `c`. -/
def memEvents (k : Nat) (c : CState) : CLabel → List (Nat × MemEv)
  | .send t i => [(swp k t, .send k i)]
  | .dtorSend d => [(swp k d, .dtor k)]
  | .mem (.lock t) => [(swp k t, .lock k)]
  | .mem (.act t) =>
    match c.qs.pcs[t]? with
    | some (.crit op) =>
      match critical c.qs.q op with
      | some _ => [(swp k t, .access k .queue)]
      | none => [(swp k t, .access k .queue), (swp k t, .unlock k)]   -- shared_queue.hpp:60-61
    | _ => []
  | .mem (.unlock t) => [(swp k t, .unlock k)]
  | .mem (.notify t _) => [(swp k t, .notify k)]
  | .mem (.spurious _) => []
  | .mem (.call _ _) => []
  | .enter => [(k, .access k .flag)]          -- active.hpp:38
  | .finish =>
    match c.running with
    | some (.user i) => [(k, .set k i)]
    | some .stop => [(k, .access k .flag)]    -- active.hpp:51
    | none => []
  | .leave => [(k, .access k .flag), (k, .ended)]
  | .join =>
    match c.dtor with
    | .inside d => [(swp k d, .joined k), (swp k d, .destroy k)]   -- active.hpp:52-53
    | _ => []

/-- All objects, and what has happened so far. For the threads from `n` on there is no object; of their `act` only `exited` is used. -/
structure VState where
  act : Nat → CState
  tr : List (Nat × MemEv)

/-- Steps. -/
inductive VLabel
  | act (k : Nat) (l : CLabel)
  | work (k : Nat)          -- the running task of object k does something
  | get (g k i : Nat)       -- thread g: get() on the future of task i of object k
  | stop (g : Nat)          -- thread g, which belongs to no object, ends
  | wait (d g : Nat)        -- thread d: join() on thread g, which belongs to no object

/-- Thread `g` is inside no queue operation and no destructor. -/
def vFree (n : Nat) (s : VState) (g : Nat) : Bool :=
  (List.range n).all fun k =>
    (match (s.act k).qs.pcs[swp k g]? with | some .idle => true | _ => false) && decide ((s.act k).dtor ≠ .inside (swp k g))

/-- Thread `g` can begin something: the threads of the objects do so in tasks only, the others until they end. -/
def vMay (n : Nat) (s : VState) (g : Nat) : Bool := vFree n s g && (if n ≤ g then !(s.act g).exited else inUserTask (s.act g).running)

/-- The condition on the thread for a step of object `k`. -/
def vCond (n : Nat) (s : VState) (k : Nat) : CLabel → Bool
  | .send t _ => vMay n s (swp k t)
  | .dtorSend d => vMay n s (swp k d)
  | .enter => vFree n s k
  | .finish => vFree n s k
  | .leave => vFree n s k
  | _ => true

/-- One step. -/
def vStep (n : Nat) (s : VState) : VLabel → Option VState
  | .act k l =>
    if k < n ∧ vCond n s k l = true then
      (cStep (s.act k) l).map fun c => { act := fun j => if j = k then c else s.act j, tr := s.tr ++ memEvents k (s.act k) l }
    else none
  | .work k =>
    match (s.act k).running with
    | some (.user i) => if k < n ∧ vFree n s k = true then some { s with tr := s.tr ++ [(k, .work k i)] } else none
    | _ => none
  | .get g k i =>
    if k < n ∧ i ∈ (s.act k).ran ∧ vMay n s g = true then some { s with tr := s.tr ++ [(g, .got k i)] } else none
  | .stop g =>
    if n ≤ g ∧ vMay n s g = true then
      some { act := fun j => if j = g then { s.act g with exited := true } else s.act j, tr := s.tr ++ [(g, .ended)] }
    else none
  | .wait d g => if n ≤ g ∧ (s.act g).exited = true ∧ vMay n s d = true then some { s with tr := s.tr ++ [(d, .joined g)] } else none

/-- A schedule. -/
def vRun (n : Nat) (s : VState) : List VLabel → Option VState
  | [] => some s
  | l :: ls => (vStep n s l).bind (vRun n · ls)

/-- `n` objects in a program of `m` threads. -/
def VState.start (m : Nat) : VState := { act := fun _ => .start m, tr := [] }

end G3
