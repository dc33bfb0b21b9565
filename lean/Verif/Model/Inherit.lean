import Verif.Model.Str
import Mathlib.Logic.Function.Basic
/-
Log files and the programs that a logging program starts: /repo/src/filesinkhelper.ipp:100-125 (openLogFile, createLogFile),
/repo/src/filesink.cpp:17-42 (constructor), 44-54 (destructor), 72-99 (changeLogFile).

Log files are opened with `std::ofstream::open`, which does not ask for close-on-exec: a program started while the file is open has it
open as well, until it ends. A file is released (its blocks are freed after it has been removed, its file system can be unmounted) when nobody has it
open.

External: POSIX open, fork, exec. Simplifications: attempts to open a file that fail have no step, as they leave nothing open; every file is a
new one (what opening a file of the same name does to its content is C42); programs that a started program starts count as part of it;
the program itself does not end. The old file is closed by the assignment to `_outptr`, filesink.cpp:95; programs can be started at any time,
between the opening of the new file and that too.
-/
namespace G3

/-- The state. Files have the numbers of their opening. -/
structure InhState where
  next : Nat                       -- number of the next file
  cur : Nat → Option Nat           -- `_outptr` of each sink
  pend : Nat → Option Nat          -- `log_stream` of a changeLogFile under way, filesink.cpp:79
  fds : List Nat                   -- the log files that the process has open
  kids : List (Nat × List Nat)     -- the started programs that run, each with the log files it has open

/-- The steps. -/
inductive InhLabel
  | create (k : Nat)      -- a sink is made
  | opens (k : Nat)       -- changeLogFile: the new file is opened
  | move (k : Nat)        -- changeLogFile: the new file replaces the old one
  | destroy (k : Nat)     -- a sink is destroyed
  | spawn (p : Nat)       -- program p is started
  | quit (p : Nat)        -- program p ends
deriving DecidableEq, Repr

/-- Is program p running? -/
def InhState.runs (s : InhState) (p : Nat) : Bool := s.kids.any fun q => q.1 == p

/-- One step. -/
def inhStep (s : InhState) : InhLabel → Option InhState
  | .create k =>
    match s.cur k with
    | none => some { s with next := s.next + 1, cur := Function.update s.cur k (some s.next), fds := s.fds ++ [s.next] }
    | some _ => none
  | .opens k =>
    match s.cur k, s.pend k with
    | some _, none => some { s with next := s.next + 1, pend := Function.update s.pend k (some s.next), fds := s.fds ++ [s.next] }
    | _, _ => none
  | .move k =>
    match s.cur k, s.pend k with
    | some f, some g =>
      some { s with cur := Function.update s.cur k (some g), pend := Function.update s.pend k none, fds := s.fds.filter (· ≠ f) }
    | _, _ => none
  | .destroy k =>
    match s.cur k, s.pend k with
    | some f, none => some { s with cur := Function.update s.cur k none, fds := s.fds.filter (· ≠ f) }
    | _, _ => none
  | .spawn p => if s.runs p then none else some { s with kids := s.kids ++ [(p, s.fds)] }
  | .quit p => if s.runs p then some { s with kids := s.kids.filter fun q => q.1 ≠ p } else none

/-- A schedule. -/
def inhRun (s : InhState) : List InhLabel → Option InhState
  | [] => some s
  | l :: ls => (inhStep s l).bind (inhRun · ls)

/-- The program begins. -/
def InhState.start : InhState := { next := 0, cur := fun _ => none, pend := fun _ => none, fds := [], kids := [] }

/-- Somebody has the file open. -/
def InhState.held (s : InhState) (f : Nat) : Prop := f ∈ s.fds ∨ ∃ q ∈ s.kids, f ∈ q.2

end G3
