import Verif.Model.Str
import Mathlib.Logic.Function.Basic
/-
Messages and the memory of the program. A statement keeps pointers to its file name, function name and expression and a reference to its level (/repo/src/g3log/logcapture.hpp:67-73); its destructor
(/repo/src/logcapture.cpp:43-47) hands them to `saveMessage`, which copies everything ("explicitly copy of all input. This is makes it possibly to use g3log across dynamically loaded libraries", /repo/src/g3log.cpp:141-156,
/repo/src/logmessage.cpp:117-136). The message is formatted in the thread of the sink, by a function to which the sink keeps a pointer (/repo/src/filesink.cpp:18, 63, 106-108).

Memory consists of cells, each belonging to the program (`owner = 0`) or to a shared library that can be unloaded (dlclose). Reading a cell that is gone is undefined behaviour, recorded as `bad`.

Simplifications: not fatal statements; logging is set up, with one sink; the worker and the sink are one queue; a statement is opened, streamed into, and closed in single steps, and the reads of its destructor are one step;
the time stamp and the thread are left out; the text holds no NUL (otherwise see C54); cells hold whole strings, levels or functions (`code`); the function itself and the short file name (C28) are not executed: `out` records which function got which message.
-/
namespace G3

/-- Where something is. -/
structure DlAddr where
  owner : Nat
  idx : Nat
deriving DecidableEq, Repr

/-- What is there. -/
inductive DlCell
  | str (s : Str)
  | lvl (value : Int) (text : Str)
  | code (k : Nat)
deriving DecidableEq, Repr

abbrev DlMem := DlAddr → Option DlCell

/-- What LogCapture holds (logcapture.hpp:66-73). -/
structure DlCapture where
  file : DlAddr
  line : Int
  function : DlAddr
  level : DlAddr
  expression : DlAddr
  text : Str
deriving DecidableEq, Repr

/-- What LogMessage holds (logmessage.hpp:104-115). -/
structure DlMsg where
  file : Str
  line : Int
  function : Str
  levelValue : Int
  levelText : Str
  expression : Str
  text : Str
deriving DecidableEq, Repr

/-- State. -/
structure DlState where
  mem : DlMem
  stmts : Nat → Option DlCapture    -- the statements that are being executed
  queue : List DlMsg
  formatter : DlAddr
  out : List (Nat × DlMsg)          -- which function formatted which message
  bad : Bool

/-- Steps. -/
inductive DlLabel
  | begin (k : Nat) (file : DlAddr) (line : Int) (function level expression : DlAddr)   -- LogCapture::LogCapture
  | stream (k : Nat) (s : Str)
  | close (k : Nat)                    -- LogCapture::~LogCapture
  | take                               -- the sink formats and writes a message
  | override (a : DlAddr)               -- FileSink::overrideLogDetails
  | write (a : DlAddr) (c : DlCell)      -- the program: new or changed contents
  | free (a : DlAddr)
  | unload (lib : Nat)                 -- dlclose
deriving DecidableEq, Repr

/-- A string in memory. -/
def DlMem.str (m : DlMem) (a : DlAddr) : Option Str :=
  match m a with | some (.str s) => some s | _ => none

/-- A level in memory. -/
def DlMem.lvl (m : DlMem) (a : DlAddr) : Option (Int × Str) :=
  match m a with | some (.lvl v t) => some (v, t) | _ => none

/-- A function in memory. -/
def DlMem.code (m : DlMem) (a : DlAddr) : Option Nat :=
  match m a with | some (.code k) => some k | _ => none

/-- `saveMessage` (g3log.cpp:143-156) with LogMessage::LogMessage (logmessage.cpp:117-136): everything is copied. -/
def saveCopy (m : DlMem) (c : DlCapture) : Option DlMsg :=
  (m.str c.file).bind fun f => (m.str c.function).bind fun g => (m.lvl c.level).bind fun l => (m.str c.expression).bind fun e =>
    some ⟨f, c.line, g, l.1, l.2, e, c.text⟩

/-- One step; `none` if it is not possible. -/
def dlStep (s : DlState) (l : DlLabel) : Option DlState :=
  if s.bad then none else
  match l with
  | .begin k f n g v e =>
    match s.stmts k with
    | some _ => none
    | none =>
      -- logcapture.cpp:60-73: `wasFatal(level)` reads the level
      some { s with stmts := Function.update s.stmts k (some ⟨f, n, g, v, e, []⟩), bad := (s.mem.lvl v).isNone }
  | .stream k t => (s.stmts k).map fun c => { s with stmts := Function.update s.stmts k (some { c with text := c.text ++ t }) }
  | .close k => (s.stmts k).map fun c =>
      match saveCopy s.mem c with
      | some m => { s with stmts := Function.update s.stmts k none, queue := s.queue ++ [m] }
      | none => { s with bad := true }
  | .take =>
    match s.queue with
    | [] => none
    | m :: q =>
      match s.mem.code s.formatter with
      | some k => some { s with queue := q, out := s.out ++ [(k, m)] }
      | none => some { s with bad := true }
  | .override a => some { s with formatter := a }
  | .write a c => some { s with mem := Function.update s.mem a (some c) }
  | .free a => some { s with mem := Function.update s.mem a none }
  | .unload i => some { s with mem := fun a => if a.owner = i + 1 then none else s.mem a }

/-- A history. -/
def dlRun (s : DlState) : List DlLabel → Option DlState
  | [] => some s
  | l :: r => (dlStep s l).bind fun s' => dlRun s' r

/-- Before the first statement. -/
def dlStart (m : DlMem) (f : DlAddr) : DlState := ⟨m, fun _ => none, [], f, [], false⟩

end G3
