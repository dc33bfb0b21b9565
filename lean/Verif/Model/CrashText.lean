import Verif.Model.Capture
/-
Model of the text producing parts of /repo/src/crashhandler_unix.cpp: exitReasonName, stackdump, the text
written by signalHandler.
-/
namespace G3

/-- Signal numbers (Linux and other POSIX systems), <csignal>. -/
def SIGILL : Int := 4
/-- <csignal> -/
def SIGFPE : Int := 8
/-- <csignal> -/
def SIGSEGV : Int := 11
/-- <csignal> -/
def SIGTERM : Int := 15

/-- `exitReasonName`, /repo/src/crashhandler_unix.cpp:193-217. -/
def exitReasonName (level : Level) (n : Int) : Str :=
  if n = SIGABRT then "SIGABRT".toList
  else if n = SIGFPE then "SIGFPE".toList
  else if n = SIGSEGV then "SIGSEGV".toList
  else if n = SIGILL then "SIGILL".toList
  else if n = SIGTERM then "SIGTERM".toList
  else "UNKNOWN SIGNAL(".toList ++ decInt n ++ ") for ".toList ++ level.text

/-- Text streamed by `signalHandler`, /repo/src/crashhandler_unix.cpp:75-81. -/
def signalText (n pid errno code : Int) : Str :=
  let fatal_reason := exitReasonName FATAL_SIGNAL n
  "Received fatal signal: ".toList ++ fatal_reason ++
  ("(".toList ++ decInt n ++ ")\tPID: ".toList ++ decInt pid ++ "\n".toList) ++
  ("\n***** SIGNAL ".toList ++ fatal_reason ++ "(signo= ".toList ++ decInt n ++ " si_errno= ".toList ++ decInt errno ++
    " si_code = ".toList ++ decInt code ++ ")".toList ++ "\n".toList)

/-- `std::string::rfind(" _")` ([string.rfind]): start of the last occurrence. -/
def rfindSpaceUnderscore : Str → Option Nat
  | [] => none
  | c :: cs =>
    match rfindSpaceUnderscore cs with
    | some i => some (i + 1)
    | none => if c = ' ' ∧ cs.head? = some '_' then some 0 else none

/-- `a - b - c` in `size_t`; `none` when it wraps around. A wrapped value is larger than any string, so as
a length it means "to the end" (strings are shorter than 2^63 characters). -/
def subSize (a b c : Nat) : Option Nat := if b + c ≤ a then some (a - b - c) else none

/-- Exception thrown by `substr`. -/
inductive DumpErr | outOfRange
deriving DecidableEq, Repr

/-- `s.substr(pos, len)` ([string.substr]): throws when `pos > size()`; `len = none` is "to the end". -/
def substr (s : Str) (pos : Nat) (len : Option Nat) : Except DumpErr Str :=
  if pos > s.length then .error .outOfRange
  else match len with
    | none => .ok (s.drop pos)
    | some n => .ok ((s.drop pos).take n)

/-- Symbol and offset found in one line of `backtrace_symbols`, /repo/src/crashhandler_unix.cpp:148-169. -/
def parseFrame (s : Str) : Except DumpErr (Str × Str) :=
  match findLastOf ['('] s, findLastOf [')'] s with
  | some firstBracket, some secondBracket =>
    match substr s (firstBracket + 1) (subSize secondBracket firstBracket 1) with
    | .error e => .error e
    | .ok between =>
      match findFirstOf ['+'] between with
      | none => .ok ([], [])
      | some plus =>
        match substr between 0 (some plus), substr between (plus + 1) none with
        | .ok a, .ok b => .ok (a, b)
        | .error e, _ => .error e
        | _, .error e => .error e
  | _, _ =>
    match findFirstOf ['+'] s, rfindSpaceUnderscore s with
    | some plus, some under =>
      match substr s (under + 1) (subSize plus under 2), substr s (plus + 2) none with
      | .ok a, .ok b => .ok (a, b)
      | .error e, _ => .error e
      | _, .error e => .error e
    | _, _ => .ok ([], [])

/-- One line of the dump, /repo/src/crashhandler_unix.cpp:171-186. `dem` is `abi::__cxa_demangle` (`none` when
its status is not 0); the name is passed through `c_str()` there. -/
def frameText (dem : Str → Option Str) (idx : Nat) (s : Str) : Except DumpErr Str :=
  match parseFrame s with
  | .error e => .error e
  | .ok (mangled, offset) =>
    if mangled ≠ [] ∧ offset ≠ [] then
      match dem (cstr mangled) with
      | some real => .ok ("\tstack dump [".toList ++ decNat idx ++ "]  ".toList ++ real ++ " + ".toList ++ offset ++ ['\n'])
      | none => .ok ("\tstack dump [".toList ++ decNat idx ++ "]  ".toList ++ mangled ++ " + ".toList ++ offset ++ ['\n'])
    else .ok ("\tstack dump [".toList ++ decNat idx ++ "]  ".toList ++ s ++ ['\n'])

/-- The loop of `stackdump`, /repo/src/crashhandler_unix.cpp:147-187, from index `idx` on. -/
def dumpLoop (dem : Str → Option Str) (idx : Nat) : List Str → Except DumpErr Str
  | [] => .ok []
  | s :: rest =>
    match frameText dem idx s with
    | .error e => .error e
    | .ok t =>
      match dumpLoop dem (idx + 1) rest with
      | .error e => .error e
      | .ok ts => .ok (t ++ ts)

/-- `stackdump`, /repo/src/crashhandler_unix.cpp:136-190. `raw = none` is a null `rawdump`; `frames` is the
result of `backtrace_symbols` (at most 50 lines; `none` when it returns a null pointer). -/
def stackdump (dem : Str → Option Str) (raw : Option Str) (frames : Option (List Str)) : Except DumpErr Str :=
  match raw with
  | some r => if r ≠ [] then .ok r else
      match frames with
      | none => .ok []
      | some fs => dumpLoop dem 1 ((fs.take 50).drop 1)
  | none =>
      match frames with
      | none => .ok []
      | some fs => dumpLoop dem 1 ((fs.take 50).drop 1)

end G3
