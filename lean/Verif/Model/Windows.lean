import Verif.Model.Signals
/-
Model of /repo/src/stacktrace_windows.cpp and /repo/src/crashhandler_windows.cpp.

Environment: the values of the EXCEPTION_* constants (winnt.h) and of the signal numbers (Microsoft's signal.h); what `StackWalk64`,
`SymFromAddr` and `SymGetLineFromAddr64` answer. SIGFPE, SIGILL and SIGSEGV have one disposition per thread, SIGABRT and SIGTERM
one per process. `signal` does not fail.
-/
namespace G3

/-- The table `kExceptionsAsText`, stacktrace_windows.cpp:38-41, in the order of the source (the source lists EXCEPTION_FLT_INEXACT_RESULT twice;
a `std::map` keeps the first). -/
def kExceptionsAsText : List (Nat × Str) :=
  [(0xC0000005, "EXCEPTION_ACCESS_VIOLATION".toList),
   (0xC000008C, "EXCEPTION_ARRAY_BOUNDS_EXCEEDED".toList),
   (0x80000002, "EXCEPTION_DATATYPE_MISALIGNMENT".toList),
   (0xC000008D, "EXCEPTION_FLT_DENORMAL_OPERAND".toList),
   (0xC000008E, "EXCEPTION_FLT_DIVIDE_BY_ZERO".toList),
   (0xC000008F, "EXCEPTION_FLT_INEXACT_RESULT".toList),
   (0xC000008F, "EXCEPTION_FLT_INEXACT_RESULT".toList),
   (0xC0000090, "EXCEPTION_FLT_INVALID_OPERATION".toList),
   (0xC0000091, "EXCEPTION_FLT_OVERFLOW".toList),
   (0xC0000092, "EXCEPTION_FLT_STACK_CHECK".toList),
   (0xC0000093, "EXCEPTION_FLT_UNDERFLOW".toList),
   (0xC000001D, "EXCEPTION_ILLEGAL_INSTRUCTION".toList),
   (0xC0000006, "EXCEPTION_IN_PAGE_ERROR".toList),
   (0xC0000094, "EXCEPTION_INT_DIVIDE_BY_ZERO".toList),
   (0xC0000095, "EXCEPTION_INT_OVERFLOW".toList),
   (0xC0000026, "EXCEPTION_INVALID_DISPOSITION".toList),
   (0xC0000025, "EXCEPTION_NONCONTINUABLE_EXCEPTION".toList),
   (0xC0000096, "EXCEPTION_PRIV_INSTRUCTION".toList),
   (0xC00000FD, "EXCEPTION_STACK_OVERFLOW".toList),
   (0x80000003, "EXCEPTION_BREAKPOINT".toList),
   (0x80000004, "EXCEPTION_SINGLE_STEP".toList)]

/-- `exceptionIdToText`, stacktrace_windows.cpp:133-140. -/
def exceptionIdToText (id : Nat) : Str :=
  match kExceptionsAsText.lookup id with
  | none => "UNKNOWN EXCEPTION".toList ++ ":".toList ++ decNat id
  | some t => t

/-- `isKnownException`, stacktrace_windows.cpp:145-147. -/
def isKnownException (id : Nat) : Bool := (kExceptionsAsText.lookup id).isSome

/-- SIGABRT of Microsoft's C library; the other four have the POSIX numbers. -/
def WIN_SIGABRT : Nat := 22

/-- `exitReasonName`, crashhandler_windows.cpp:127-153. -/
def winExitReasonName (level : Level) (id : Nat) : Str :=
  if level.value = FATAL_EXCEPTION.value then exceptionIdToText id
  else if id = WIN_SIGABRT then "SIGABRT".toList
  else if id = 8 then "SIGFPE".toList
  else if id = 11 then "SIGSEGV".toList
  else if id = 4 then "SIGILL".toList
  else if id = 15 then "SIGTERM".toList
  else "UNKNOWN SIGNAL(".toList ++ decNat id ++ ")".toList

/-! ### Stack walk -/

/-- Processor for which the library is compiled, stacktrace_windows.cpp:51-71. -/
inductive WinArch | arm64 | arm | x64 | x86
deriving DecidableEq, Repr

/-- The registers of a `CONTEXT` that matter: program counter, frame pointer, stack pointer. -/
structure WinRegs where
  pc : Nat
  fp : Nat
  sp : Nat
deriving DecidableEq, Repr

/-- Where the walk starts (`STACKFRAME64`, all zero at first). -/
structure WinFrame where
  addrPC : Nat := 0
  addrFrame : Nat := 0
  addrStack : Nat := 0
deriving DecidableEq, Repr

/-- The assignments at stacktrace_windows.cpp:51-71. -/
def startFrame (a : WinArch) (r : WinRegs) : WinFrame :=
  match a with
  | .arm64 | .arm | .x64 =>
    let f : WinFrame := {}
    let f := { f with addrPC := r.pc }
    let f := { f with addrFrame := r.fp }
    { f with addrStack := r.sp }
  | .x86 =>
    let f : WinFrame := {}
    let f := { f with addrPC := r.pc }
    let f := { f with addrPC := r.fp }
    { f with addrPC := r.sp }

/-- The loop stacktrace_windows.cpp:72-86: `walk` is what `StackWalk64` finds, `cap` the size of the vector; entries not reached stay 0. -/
def walkFrames (walk : List Nat) (cap : Nat) : List Nat := walk.take cap ++ List.replicate (cap - walk.length) 0

/-- What the symbol functions know about an address: name, and file and line. -/
structure SymInfo where
  name : Option Str
  line : Option (Str × Nat)

/-- `getSymbolInformation`, stacktrace_windows.cpp:92-116. -/
def getSymbolInformation (sym : Nat → SymInfo) (index : Nat) (addr : Nat) : Str :=
  let frame_dump := "stack dump [".toList ++ decNat index ++ "]\t".toList
  match (sym addr).name with
  | none => frame_dump
  | some n =>
    let lineInformation := match (sym addr).line with
      | none => []
      | some (f, k) => "\t".toList ++ f ++ " L: ".toList ++ decNat k
    frame_dump ++ lineInformation ++ (" ".toList ++ n)

/-- `convertFramesToText`, stacktrace_windows.cpp:119-127, from `index` on. -/
def convertFramesFrom (sym : Nat → SymInfo) (index : Nat) : List Nat → Str
  | [] => []
  | a :: r => if a = 0 then [] else getSymbolInformation sym index a ++ "\n".toList ++ convertFramesFrom sym (index + 1) r

/-- `stackdump(CONTEXT*)`, stacktrace_windows.cpp:164-194. `count` is the thread's `g_thread_local_recursive_crash_check`, `init` the success of
`SymInitialize`, `walk` the answers of `StackWalk64` for this context. Returns the text and the new value of the counter. -/
def winStackdump (sym : Nat → SymInfo) (init : Bool) (walk : List Nat) (count : Nat) : Str × Nat :=
  if 2 ≤ count then
    ("\n\n\n***** Recursive crash detected".toList ++ ", cannot continue stackdump traversal. *****\n\n\n".toList, count)
  else if !init then ("Error: Cannot call SymInitialize(...) for retrieving symbols in stack".toList, count + 1)
  else (convertFramesFrom sym 0 (walkFrames walk 64), count + 1)

/-! ### Handlers -/

/-- The top level exception filter of the process. -/
inductive WinFilter
  | none
  | g3log
  | user (h : Nat)
deriving DecidableEq, Repr

/-- The process: filter and remembered filter (crashhandler_windows.cpp:28), registered vectored handlers of g3log, the remembered one (:35),
dispositions by thread and signal, the thread-local flag (:31), `gBlockForFatal` (:27), the fatal messages pushed, the signal raised. -/
structure WinState where
  filter : WinFilter
  prevFilter : WinFilter
  vectored : List Nat
  vhandle : Option Nat
  nextHandle : Nat
  sig : Nat → Nat → Disp
  installed : Nat → Bool
  block : Bool
  pushed : List (Level × Nat × Str)
  raised : Option Nat

/-- The five signals, in the order of crashhandler_windows.cpp:222-231. -/
def winSignals : List Nat := [15, WIN_SIGABRT, 8, 11, 4]

/-- Signals with one disposition for the whole process. -/
def processWide (n : Nat) : Bool := decide (n = 15) || decide (n = WIN_SIGABRT)

/-- `signal(n, d)` called on thread t. -/
def setSig (sig : Nat → Nat → Disp) (t n : Nat) (d : Disp) : Nat → Nat → Disp :=
  fun t' n' => if n' = n ∧ (t' = t ∨ processWide n = true) then d else sig t' n'

/-- `installSignalHandlerForThread`, crashhandler_windows.cpp:218-234. -/
def winInstallThread (s : WinState) (t : Nat) : WinState :=
  if s.installed t then s
  else { s with installed := fun t' => decide (t' = t) || s.installed t', sig := winSignals.foldl (fun g n => setSig g t n .g3log) s.sig }

/-- `installCrashHandler`, crashhandler_windows.cpp:236-247. -/
def winInstallCrash (s : WinState) (t : Nat) : WinState :=
  let s1 := winInstallThread s t
  { s1 with prevFilter := s1.filter, filter := .g3log, vectored := s1.vectored ++ [s1.nextHandle], vhandle := some s1.nextHandle,
            nextHandle := s1.nextHandle + 1 }

/-- `restoreFatalHandlingToDefault`, crashhandler_windows.cpp:183-206, on thread t. Removing a handler that is not registered does nothing. -/
def winRestore (s : WinState) (t : Nat) : WinState :=
  { s with filter := s.prevFilter
           vectored := match s.vhandle with
             | none => s.vectored
             | some h => s.vectored.filter (fun k => decide (k ≠ h))
           sig := [WIN_SIGABRT, 8, 11, 4, 15].foldl (fun g n => setSig g t n .dfl) s.sig }

/-- `exceptionHandling`, crashhandler_windows.cpp:63-81: a fatal message is pushed (`LogCapture` of level FATAL_EXCEPTION), the search for a handler
continues. -/
def winException (s : WinState) (handler : Str) (code pid : Nat) : WinState :=
  { s with pushed := s.pushed ++ [(FATAL_EXCEPTION, code, "\n***** ".toList ++ handler ++ ": Received fatal exception ".toList ++
      winExitReasonName FATAL_EXCEPTION code ++ "\tPID: ".toList ++ decNat pid ++ "\n".toList)] }

/-- `signalHandler`, crashhandler_windows.cpp:39-60: a fatal message is pushed; the handlers stay as they are until the worker restores them. -/
def winSignal (s : WinState) (n pid : Nat) : WinState :=
  { s with pushed := s.pushed ++ [(FATAL_SIGNAL, n, "\n***** Received fatal signal ".toList ++ winExitReasonName FATAL_SIGNAL n ++
      "(".toList ++ decNat n ++ ")\tPID: ".toList ++ decNat pid ++ "\n".toList)] }

/-- `vectorExceptionHandling`, crashhandler_windows.cpp:92-103; the answer is always EXCEPTION_CONTINUE_SEARCH. -/
def winVectored (s : WinState) (t code pid : Nat) : WinState :=
  if isKnownException code = false then s else winException (winRestore s t) "Vectored Exception Handler".toList code pid

/-- `unexpectedExceptionHandling`, crashhandler_windows.cpp:84-87. -/
def winUnexpected (s : WinState) (t code pid : Nat) : WinState :=
  winException (winRestore s t) "Unexpected Exception Handler".toList code pid

/-- `exitWithDefaultSignalHandler`, crashhandler_windows.cpp:158-173, on the worker thread t. -/
def winExit (s : WinState) (t : Nat) (level : Level) (id : Nat) : WinState :=
  let s1 := winRestore s t
  if FATAL_EXCEPTION.value = level.value then { s1 with block := false }
  else { s1 with raised := some id }

/-- Start of the process. -/
def winStart (filter : WinFilter) (sig : Nat → Nat → Disp) : WinState :=
  { filter := filter, prevFilter := .none, vectored := [], vhandle := none, nextHandle := 0, sig := sig, installed := fun _ => false, block := true,
    pushed := [], raised := none }

/-- What can happen; `log t` is a LOG call on thread t, which installs the handlers of that thread (logcapture.cpp:20-21, 45). -/
inductive WinOp
  | log (t : Nat)
  | installCrash (t : Nat)
  | signal (n pid : Nat)
  | vectored (t code pid : Nat)
  | unexpected (t code pid : Nat)
  | exit (t : Nat) (level : Level) (id : Nat)

def winStep (s : WinState) : WinOp → WinState
  | .log t => winInstallThread s t
  | .installCrash t => winInstallCrash s t
  | .signal n p => winSignal s n p
  | .vectored t c p => winVectored s t c p
  | .unexpected t c p => winUnexpected s t c p
  | .exit t l id => winExit s t l id

def winRun (s : WinState) (ops : List WinOp) : WinState := ops.foldl winStep s

end G3
