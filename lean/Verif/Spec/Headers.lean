import Verif.Spec.FileSink
/-
Specification for C129: the headers in the files of a file sink.
-/
namespace G3.Spec
open G3

/-- What a log file is made of. -/
inductive Part
  | header (time text : Str)
  | entry (text : Str)
  | note (text : Str)      -- anything else that the sink writes: about changes of the file and the shut down
deriving DecidableEq, Repr

/-- The text of a part; a header says when it was written. -/
def Part.text : Part → Str
  | .header time h => "\t\tg3log created log at: ".toList ++ time ++ "\n".toList ++ h
  | .entry t => t
  | .note t => t

/-- The text of a file. -/
def partsText (ps : List Part) : Str := ps.flatMap Part.text

/-- The entries of a file. -/
def partEntries (ps : List Part) : List Str := ps.filterMap fun | .entry t => some t | _ => none

/-- The headers of a file, with their times, in order. -/
def partHeaders (ps : List Part) : List (Str × Str) := ps.filterMap fun | .header t h => some (t, h) | _ => none

/-- A log file as one expects it: it begins with its header. -/
def beginsWithHeader : List Part → Prop
  | .header _ _ :: _ => True
  | _ => False

/-- The header in force after a history. -/
def headerAfter (h : Str) : List SinkOp → Str
  | [] => h
  | .overrideHeader g :: r => headerAfter g r
  | _ :: r => headerAfter h r

/-- A message is written somewhere in the history. -/
def anyWrite (ops : List SinkOp) : Prop := ∃ m t, SinkOp.write m t ∈ ops

/-- The change of the log file succeeds. -/
def isSwitch : SinkOp → Prop
  | .change _ _ _ _ _ true => True
  | _ => False

/-- The header at the first message of a history: when, and which text was in force then. -/
def openingHeader (h : Str) : List SinkOp → List (Str × Str)
  | [] => []
  | .write _ t :: _ => [(t, h)]
  | .overrideHeader g :: r => openingHeader g r
  | _ :: r => openingHeader h r

/-- The header at the change that comes next. -/
def closingHeader (h : Str) : List SinkOp → List (Str × Str)
  | .change _ _ _ _ ht true :: _ => [(ht, h)]
  | _ => []

/-- The first operation of the history that writes anything is not a change that fails. -/
def startsWell : List SinkOp → Prop
  | [] => False
  | .write _ _ :: _ => True
  | .change _ _ _ _ _ o :: _ => o = true
  | _ :: r => startsWell r

end G3.Spec
