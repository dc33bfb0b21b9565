import Verif.Model.Str
import Mathlib.Logic.Function.Basic
/-
Write errors that the system announces by a signal, and the file sinks: /repo/src/filesink.cpp:44-54 (destructor), 57-70 (fileWrite),
/repo/src/crashhandler_unix.cpp:42-48 (the signals that are handled: neither SIGPIPE nor SIGXFSZ is among them).

A write to a pipe that nobody reads raises SIGPIPE, one beyond the limit of the size of files SIGXFSZ. Both end the process unless the program has
changed that; g3log leaves them as they are. The destructor of a file sink writes to std::cerr, which is a broken pipe as soon as the reader of the standard
error stream has gone.

External: the outcome of each transfer, given with the step; which signals end the process (`deadly`). A stream that has failed attempts no further
transfer: the file stream until its end (C81), std::cerr for ever.

Simplifications: the entries of a sink are collected and transferred at any time, not only after every so many of them (C38, C39), and are removed from the
buffer by the transfer also when it fails (filesink.cpp:68); one transfer is one write; all sinks exist from the beginning; changes of the file are left out;
a program that makes g3log handle such a signal is C69 (the worker's thread hits itself).
-/
namespace G3

/-- The outcome of a transfer. -/
inductive WOut
  | ok
  | fail (sig : Option Nat)     -- an error, with the signal that announces it
deriving DecidableEq, Repr

/-- A file sink. -/
structure WSink (M : Type) where
  alive : Bool
  buf : List M          -- `_write_buffer`
  file : List M         -- entries in the file
  bad : Bool            -- the file stream has failed
deriving DecidableEq, Repr

/-- The process. -/
structure WSigState (M : Type) where
  sink : Nat → WSink M
  cerrBad : Bool             -- std::cerr has failed
  killed : Option Nat        -- the signal that has ended the process

/-- The steps. -/
inductive WSigLabel (M : Type)
  | put (k : Nat) (m : M)                 -- fileWrite of sink k collects an entry, filesink.cpp:63-65
  | flush (k : Nat) (o : WOut)            -- fileWrite transfers what is collected, filesink.cpp:66-69
  | destroy (k : Nat) (o o' : WOut)       -- ~FileSink: transfer to the file, then the exit message to std::cerr, filesink.cpp:50-53
deriving DecidableEq, Repr

variable {M : Type}

/-- The signal that a transfer ends the process with. -/
def WOut.kills (deadly : Nat → Bool) : WOut → Option Nat
  | .ok => none
  | .fail none => none
  | .fail (some g) => if deadly g then some g else none

/-- The transfer of the buffer of a sink to its file: the sink after it, and the signal that has ended the process. -/
def WSink.transfer (deadly : Nat → Bool) (k : WSink M) (o : WOut) : WSink M × Option Nat :=
  if k.bad then ({ k with buf := [] }, none)
  else match o with
    | .ok => ({ k with file := k.file ++ k.buf, buf := [] }, none)
    | .fail g => ({ k with buf := [], bad := true }, (WOut.fail g).kills deadly)

/-- One step. -/
def wsStep (deadly : Nat → Bool) (s : WSigState M) (l : WSigLabel M) : Option (WSigState M) :=
  if s.killed.isSome then none
  else match l with
    | .put k m =>
      if (s.sink k).alive then
        some { s with sink := Function.update s.sink k { s.sink k with buf := (s.sink k).buf ++ [m] } }
      else none
    | .flush k o =>
      if (s.sink k).alive then
        let r := (s.sink k).transfer deadly o
        some { s with sink := Function.update s.sink k r.1, killed := r.2 }
      else none
    | .destroy k o o' =>
      if (s.sink k).alive then
        let r := (s.sink k).transfer deadly o
        match r.2 with
        | some g => some { s with sink := Function.update s.sink k { r.1 with alive := false }, killed := some g }
        | none =>
          let s1 := { s with sink := Function.update s.sink k { r.1 with alive := false } }
          if s.cerrBad then some s1
          else match o' with
            | .ok => some s1
            | .fail g => some { s1 with cerrBad := true, killed := (WOut.fail g).kills deadly }
      else none

/-- A schedule. -/
def wsRun (deadly : Nat → Bool) (s : WSigState M) : List (WSigLabel M) → Option (WSigState M)
  | [] => some s
  | l :: ls => (wsStep deadly s l).bind (wsRun deadly · ls)

/-- The sinks are there, and nothing has been logged. -/
def WSigState.start : WSigState M :=
  { sink := fun _ => { alive := true, buf := [], file := [], bad := false }, cerrBad := false, killed := none }

end G3
