import Verif.Model.Levels
import Mathlib.Logic.Function.Basic
/-
Logging statements inside logging statements: an operand of `LOG(...) << f()` may call functions that log themselves, to any depth and on any number of threads. A statement at a level that is on creates a temporary
`LogCapture` (/repo/src/g3log/g3log.hpp:140-226), which has a stream of its own (/repo/src/g3log/logcapture.hpp:61-65) and lives until the end of the statement, so that the captures of a thread form a stack. Its destructor
(/repo/src/logcapture.cpp:43-47) hands the message over; at a fatal level it does not return (/repo/src/g3log.cpp:216-230).

Simplifications: a statement at a level that is off evaluates nothing (C24) and has no step here; a statement that an exception leaves ends like any other (C86), only earlier; `capturef` is one insertion; file, line, function, time and stack
dump are left out; the default exit handler is in force, and handing the message over is one step.
-/
namespace G3

/-- An insertion: from the format state of the stream (base, width, precision, ...) to the inserted text, the new format state, and whether the stream is left in a failed state. -/
abbrev NPiece (F : Type) := F → Str × F × Bool

/-- A `LogCapture`, logcapture.hpp:65-73. -/
structure NFrame (F : Type) where
  level : Level
  text : Str
  fmt : F
  failed : Bool

/-- A message that was handed over. -/
structure NMsg where
  thr : Nat
  level : Level
  text : Str
deriving DecidableEq, Repr

/-- State. -/
structure NState (F : Type) where
  stack : Nat → List (NFrame F)   -- the captures that are alive, the innermost first
  gone : Nat → Bool               -- in the loop at g3log.cpp:227-229
  out : List NMsg                 -- everything handed over, in this order

/-- Steps. -/
inductive NLabel (F : Type)
  | enter (t : Nat) (l : Level)      -- the capture is created, g3log.hpp:140-143
  | put (t : Nat) (p : NPiece F)     -- `<< operand`, after the operand has been evaluated
  | leave (t : Nat)                  -- the capture is destroyed, logcapture.cpp:43-47

variable {F : Type}

/-- A new capture; `f0` is the format state of a new stream. -/
def NFrame.new (f0 : F) (l : Level) : NFrame F := { level := l, text := [], fmt := f0, failed := false }

/-- One insertion; a failed stream ignores it. -/
def NFrame.put (f : NFrame F) (p : NPiece F) : NFrame F :=
  if f.failed then f else { f with text := f.text ++ (p f.fmt).1, fmt := (p f.fmt).2.1, failed := (p f.fmt).2.2 }

/-- Nothing has been logged. -/
def nStart : NState F := { stack := fun _ => [], gone := fun _ => false, out := [] }

/-- One step; `none` if it is not possible. -/
def nStep (f0 : F) (s : NState F) : NLabel F → Option (NState F)
  | .enter t l => if s.gone t then none else some { s with stack := Function.update s.stack t (NFrame.new f0 l :: s.stack t) }
  | .put t p =>
    if s.gone t then none else
    match s.stack t with
    | [] => none
    | f :: r => some { s with stack := Function.update s.stack t (f.put p :: r) }
  | .leave t =>
    if s.gone t then none else
    match s.stack t with
    | [] => none
    | f :: r => some { stack := Function.update s.stack t r, gone := Function.update s.gone t (wasFatal f.level),
                       out := s.out ++ [⟨t, f.level, cstr f.text⟩] }

/-- A history. -/
def nRun (f0 : F) (s : NState F) : List (NLabel F) → Option (NState F)
  | [] => some s
  | l :: r => (nStep f0 s l).bind fun s' => nRun f0 s' r

end G3
