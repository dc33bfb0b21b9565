import Mathlib.Logic.Function.Basic
/-
Locks and fatal signals: the handler of /repo/src/crashhandler_unix.cpp:62-85 runs on the thread that the signal hits, and needs locks itself. Threads are
reduced to the locks they take and release, in order.

What takes which lock (all of them are not recursive):
* `heap`: every allocation and release of memory in the C library. In the handler: the stack dump (crashhandler_unix.cpp:136-190 `stackdump`),
  the texts of lines 75-79, `LogCapture` and its message.
* `hook`: `setFatalPreLoggingHook`, g3log.cpp:91-95, a static mutex, within which a `std::function` is copied. Called by the program, by `initializeLogging`
  (g3log.cpp:80) and by `saveFatalMessage` (g3log.cpp:161).
* `queue`: the mutex of the queue of the worker, /repo/src/g3log/shared_queue.hpp:38-78; memory is taken and released inside it (`push`, `pop`).
* `other l`: every other mutex, as `g_logging_init_mutex` (g3log.cpp:38) and those of the program.

Simplifications: programs are finite and their locks do not depend on the schedule; waiting for a condition is left out (it owns no lock); an allocation
that the C library serves without its lock is simply not listed; the lock of the dynamic loader, which is recursive, is left out. The pre-fatal hook
itself takes no lock.
-/
namespace G3

/-- Taking and releasing a lock. -/
inductive LkOp (L : Type)
  | acq (l : L)
  | rel (l : L)

/-- What the threads still have to do, and who owns the locks. -/
structure LkState (L : Type) where
  prog : Nat → List (LkOp L)
  owner : L → Option Nat

variable {L : Type} [DecidableEq L]

/-- At the start nothing is locked. -/
def LkState.start (P : Nat → List (LkOp L)) : LkState L := ⟨P, fun _ => none⟩

/-- Thread `v` makes its next step, if it can: `lock` waits until nobody owns the lock, not even the thread itself. -/
def lkStep (s : LkState L) (v : Nat) : Option (LkState L) :=
  match s.prog v with
  | [] => none
  | .acq l :: r => if s.owner l = none then some ⟨Function.update s.prog v r, Function.update s.owner l (some v)⟩ else none
  | .rel l :: r => if s.owner l = some v then some ⟨Function.update s.prog v r, Function.update s.owner l none⟩ else none

/-- A schedule. -/
def lkRun (s : LkState L) : List Nat → Option (LkState L)
  | [] => some s
  | v :: r => (lkStep s v).bind fun s' => lkRun s' r

/-- A signal hits a thread: this one makes no more steps; `u` (so far unused) stands for its signal handler, with the locks `H` to take and release. -/
def lkSignal (s : LkState L) (u : Nat) (H : List (LkOp L)) : LkState L := { s with prog := Function.update s.prog u H }

/-- The locks of the program. -/
inductive GLock
  | heap
  | hook
  | queue
  | other (n : Nat)
deriving DecidableEq, Repr

/-- Pieces of programs that hold no lock of the program's own. -/
inductive GPiece
  | alloc              -- memory is taken or released
  | hook (k : Nat)     -- setFatalPreLoggingHook
  | queue (k : Nat)    -- an operation of the queue of the worker
deriving DecidableEq, Repr

/-- Pieces of programs: these, also under one other lock. -/
inductive GPart
  | piece (p : GPiece)
  | under (n : Nat) (ps : List GPiece)

/-- Uses of the heap, one after the other. -/
def heapOps : Nat → List (LkOp GLock)
  | 0 => []
  | k + 1 => .acq .heap :: .rel .heap :: heapOps k

/-- The locks of a piece. -/
def GPiece.ops : GPiece → List (LkOp GLock)
  | .alloc => heapOps 1
  | .hook k => .acq .hook :: (heapOps k ++ [.rel .hook])
  | .queue k => .acq .queue :: (heapOps k ++ [.rel .queue])

/-- The locks of pieces in order. -/
def pieceOps : List GPiece → List (LkOp GLock)
  | [] => []
  | p :: r => p.ops ++ pieceOps r

/-- The locks of a part. -/
def GPart.ops : GPart → List (LkOp GLock)
  | .piece p => p.ops
  | .under n ps => .acq (.other n) :: (pieceOps ps ++ [.rel (.other n)])

/-- The locks of a program. -/
def partOps : List GPart → List (LkOp GLock)
  | [] => []
  | p :: r => p.ops ++ partOps r

/-- The signal handler, crashhandler_unix.cpp:62-85, and what it calls: texts and stack dump, g3log.cpp:161 with `a` uses of the heap
inside, the fatal message, and the hand-over (logworker.cpp:105-107) with `b` uses inside. -/
def handlerPieces (texts a message b : Nat) : List GPiece :=
  List.replicate (texts + 1) .alloc ++ .hook a :: (List.replicate (message + 1) .alloc ++ [.queue b])

/-- A LOG statement: logcapture.cpp and g3log.cpp:193-209, then logworker.cpp:101-103. -/
def logPieces (texts b : Nat) : List GPiece := List.replicate (texts + 1) .alloc ++ [.queue b]

end G3
