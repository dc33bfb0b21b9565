import Verif.Model.ProgramFatal
import Verif.Spec.ProgramThreads
/- What the log of a program with several threads should contain after a fatal statement. -/
namespace G3.Spec
open G3

/-- The statement that a thread is in. -/
def inStmt : QfPc → Option LogStmt
  | .idle => none
  | .held st => some st
  | .checked st => some st
  | .crashing st => some st
  | .crashed st _ => some st
  | .asleep st => some st

/-- The fatal statement whose report a thread has begun. -/
def inFatalStmt : QfPc → Option LogStmt
  | .crashing st => some st
  | .crashed st _ => some st
  | .asleep st => some st
  | _ => none

/-- The thread has seen the logger and is going to use it. -/
def holdsLogger : QfPc → Prop
  | .checked _ => True
  | .crashed _ _ => True
  | _ => False

/-- The stack dump in the report of a fatal statement. -/
def stmtTrace (s : LogStmt) : Str := cstr ("\n*******\tSTACKDUMP *******\n".toList ++ s.dump)

/-- The note about a recursive crash, with the stack dump of the first event. -/
def recursionNote (first : Str) : Str :=
  "\n\n\nWARNING\nA recursive crash detected. It is likely the hook set with 'setFatalPreLoggingHook(...)' is responsible\n\n---First crash stacktrace: ".toList ++
    first ++ "\n---End of first stacktrace\n".toList

/-- The entry of a fatal statement: text, stack dump, a note, and the sentence about the exit, in the form that belongs to its level. -/
def stmtFatalWith (E : Env) (full : Bool) (size : Nat) (s : LogStmt) (note : Str) : Str :=
  entryText (kindOf s.level.value) (stmtDetails E full s) (E.stamp s.now)
    (stmtText size s ++ stmtTrace s ++ note ++ "\nExiting after fatal event  (".toList ++ cstr s.level.text ++
      "). Fatal type:  ".toList ++ exitReasonName ⟨s.level.value, cstr s.level.text⟩ s.signal ++ "\nLog content flushed successfully to sink\n\n".toList)
    s.expression

/-- Only thread `f` has fatal statements. -/
def OnlyFatalIn (f : Nat) (progs : Nat → List PStep) : Prop := ∀ t, t ≠ f → ∀ st, .log st ∈ progs t → st.level.value < 1000

end G3.Spec
