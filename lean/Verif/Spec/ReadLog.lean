import Verif.Spec.LogMessage
import Verif.Spec.FileSink
/- C117: reading a log file. -/
namespace G3.Spec
open G3

/-- The lines of a text, without their ends; a last line that is not ended is left out. -/
def textLines : Str → List Str
  | [] => []
  | c :: r =>
    if c = '\n' then [] :: textLines r
    else match textLines r with
      | [] => []
      | l :: ls => (c :: l) :: ls

/-- A reader of log files of the default sink: after the five lines of the header every line is an entry, except for the last one, which tells
of the shutdown. -/
def readLog (content : Str) : List LineFields := (((textLines content).drop 5).dropLast).map fun l => parseLine (l ++ ['\n'])

/-- What an entry should be read as. -/
def recordOf (E : Env) (m : LogMessage) : LineFields :=
  { stamp := E.stamp m.timestamp, level := m.level.text, file := m.file, function := m.function, line := decInt m.line, message := m.message }

/-- The fields that are printed before the message have none of the characters that stand between them. -/
def CleanFields (E : Env) (m : LogMessage) : Prop :=
  m.level.value < 1000 ∧ '\t' ∉ E.stamp m.timestamp ∧ '\t' ∉ m.level.text ∧ '[' ∉ m.level.text ∧ '\t' ∉ m.file ∧ '>' ∉ m.file ∧ '\t' ∉ m.function

/-- Nothing in the entry ends a line. -/
def OneLine (E : Env) (m : LogMessage) : Prop :=
  '\n' ∉ E.stamp m.timestamp ∧ '\n' ∉ m.level.text ∧ '\n' ∉ m.file ∧ '\n' ∉ m.function ∧ '\n' ∉ m.message

/-- The messages written, in order. -/
def writtenIn : List SinkOp → List LogMessage
  | [] => []
  | .write m _ :: ops => m :: writtenIn ops
  | _ :: ops => writtenIn ops

/-- An operation of a program that uses the default sink as it is; the time in the header does not end a line. -/
def plainOp : SinkOp → Prop
  | .write _ t => '\n' ∉ t
  | .fileName => True
  | .spill _ => True
  | _ => False

end G3.Spec
