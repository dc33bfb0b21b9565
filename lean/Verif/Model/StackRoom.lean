import Verif.Model.Str
/-
Room on the stack. A thread of the program calls functions, returns from them, logs, and crashes; all of this needs room on its stack. The signal handler is installed with `sa_flags = SA_SIGINFO`
(/repo/src/crashhandler_unix.cpp:95), so without SA_ONSTACK: it runs on the stack of the thread that got the signal, also if the program has given the thread an alternate one (sigaltstack). The library itself never calls sigaltstack.
The handler (/repo/src/crashhandler_unix.cpp:62-84) makes a stack dump and the message and hands it over, and then sleeps in `pushFatalMessageToLogger` (/repo/src/g3log.cpp:216-230).

Of the kernel this is modelled (sigaction(2), sigaltstack(2)): to deliver a signal it puts a frame on the stack on which the handler runs; if there is no room for it, it kills the process by SIGSEGV. A function that does not
fit on the stack causes SIGSEGV, and then there is no room left.

Simplifications: one thread of the program, with logging set up; sizes are numbers that do not depend on the data, and the needs of a log statement, a fatal statement and the handler are their largest ones, reached before the message is handed over;
a handler that runs out of stack kills the process: its signal is blocked or, for another signal than SIGSEGV, the new SIGSEGV finds no room. What the worker does then is the subject of other models: it writes everything that has been sent and kills the process
by the signal (Model/FatalExit).
-/
namespace G3

/-- Sizes. -/
structure StackEnv where
  size : Nat          -- the stack of the thread
  frame : Nat         -- the frame that the kernel makes for a signal
  handler : Nat       -- signalHandler, crashhandler_unix.cpp:62-84
  logNeed : Nat       -- LOG(INFO): logcapture.cpp:43-47, g3log.cpp:143-155, 193-209
  fatalNeed : Nat     -- LOG(FATAL): logcapture.cpp:43-47, g3log.cpp:143-151, 158-186, 216-230
  alt : Option Nat    -- an alternate stack, if the program has set one for the thread
deriving Repr

/-- What the thread does. -/
inductive StackOp
  | call (f : Nat)
  | ret
  | log (m : Str)
  | fatal (m : Str)
  | crash (n : Int)     -- a fault or `raise`
deriving DecidableEq, Repr

/-- What is sent to the worker. -/
inductive StackMsg
  | text (m : Str)
  | fatalText (m : Str)
  | signal (n : Int)
deriving DecidableEq, Repr

/-- How it ends: by the worker, after a report, or at once by the kernel. -/
inductive StackEnd
  | reported (n : Int)
  | silent              -- killed by SIGSEGV
deriving DecidableEq, Repr

/-- State. -/
structure StackState where
  frames : List Nat
  sent : List StackMsg
  ended : Option StackEnd
deriving DecidableEq, Repr

/-- The value of SA_ONSTACK in `installSignalHandler` (/repo/src/crashhandler_unix.cpp:95). -/
def libOnStack : Bool := false

/-- Is there room for the frame of a signal and the handler, if `free` is left on the stack of the thread? -/
def StackEnv.fits (E : StackEnv) (onStack : Bool) (free : Nat) : Bool :=
  match onStack, E.alt with
  | true, some a => E.frame + E.handler ≤ a
  | _, _ => E.frame + E.handler ≤ free

/-- Signal `n` is delivered (crashhandler_unix.cpp:62-84). -/
def StackState.signal (E : StackEnv) (onStack : Bool) (s : StackState) (free : Nat) (n : Int) : StackState :=
  if E.fits onStack free then { s with sent := s.sent ++ [.signal n], ended := some (.reported n) } else { s with ended := some .silent }

/-- One operation. -/
def stackStep (E : StackEnv) (onStack : Bool) (s : StackState) (o : StackOp) : StackState :=
  if s.ended.isSome then s else
  match o with
  | .call f => if s.frames.sum + f ≤ E.size then { s with frames := f :: s.frames } else s.signal E onStack 0 11
  | .ret => { s with frames := s.frames.tail }
  | .log m => if s.frames.sum + E.logNeed ≤ E.size then { s with sent := s.sent ++ [.text m] } else s.signal E onStack 0 11
  | .fatal m =>
    if s.frames.sum + E.fatalNeed ≤ E.size then { s with sent := s.sent ++ [.fatalText m], ended := some (.reported 6) } else s.signal E onStack 0 11
  | .crash n => s.signal E onStack (E.size - s.frames.sum) n

/-- The thread runs. -/
def stackRun (E : StackEnv) (onStack : Bool) (ops : List StackOp) : StackState :=
  ops.foldl (stackStep E onStack) ⟨[], [], none⟩

/-- What can be found in the log afterwards: the worker may be anywhere when the kernel kills the process (the queue is in the memory of the process, /repo/src/g3log/shared_queue.hpp:28), and has written everything otherwise. -/
def stackLog (s : StackState) (l : List StackMsg) : Prop :=
  if s.ended = some .silent then l <+: s.sent else l = s.sent

end G3
