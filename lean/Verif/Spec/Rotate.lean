import Verif.Spec.FileSink
import Verif.Spec.Worker
/-
Changing the log file while messages are logged: what a file sink does with the tasks that its thread executes, and in which file a line is.
-/
namespace G3.Spec
open G3

/-- What a program may ask a file sink for through its handle (/repo/src/g3log/filesink.hpp:21-24). -/
def Askable : SinkOp → Prop
  | .write .. => False
  | .spill _ => False
  | _ => True

/-- The line of a message that a sink got. -/
def gotLine (E : Env) (f : DetailsFn) : Got LogMessage → Str
  | .log m => (toString E m f).1
  | .fatal m => (toString E m f).1

/-- The files `files`, in the order of their creation, have the lines `lines`: every line is in exactly one file, the files have the lines in order. -/
def Distributed (lines : List Str) (files : List (Str × List Chunk)) : Prop := (files.map fun x => entries x.2).flatten = lines

/-- What a sink is given to do: a message or a call. -/
inductive Turn
  | entry (g : Got LogMessage)
  | call (c : Nat)

/-- The messages among them. -/
def Turn.got : Turn → Option (Got LogMessage)
  | .entry g => some g
  | .call _ => none

/-- The calls among them. -/
def Turn.called : Turn → Option Nat
  | .entry _ => none
  | .call c => some c

/-- The lines, if a call may also change the format of the lines after it. -/
def linesOf (E : Env) (calls : Nat → SinkOp) (f : DetailsFn) : List Turn → List Str
  | [] => []
  | .entry g :: ts => gotLine E f g :: linesOf E calls f ts
  | .call c :: ts => linesOf E calls (match calls c with | .overrideDetails g => g | _ => f) ts

end G3.Spec
