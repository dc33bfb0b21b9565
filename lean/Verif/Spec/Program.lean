import Verif.Model.Program
import Verif.Spec.Levels
import Verif.Spec.LogMessage
import Verif.Spec.Capture
/- What the log file of a program should contain, statement by statement. -/
namespace G3.Spec
open G3

/-- The effect of a step on the documented on/off map. -/
def progLevel : PStep → LevelOp
  | .levels o => o
  | .log s => .logLevel s.level

/-- The statements that are executed: those whose level is on at that moment. -/
def executed (σ : SState) : List PStep → List LogStmt
  | [] => []
  | .levels o :: p => executed (sStep σ o) p
  | .log s :: p => if σ s.level.value = some true then s :: executed σ p else executed σ p

/-- The text that a statement logs: everything put into it, one after the other (up to the first NUL character). -/
def stmtText (size : Nat) (s : LogStmt) : Str := cstr (s.ins.flatMap (insText size))

/-- The file name as shown: without its directories unless the build says otherwise. -/
def shownFile (full : Bool) (f : Str) : Str := if full then f else splitFileName f

/-- The details in front of each entry. -/
def stmtDetails (E : Env) (full : Bool) (s : LogStmt) : Str :=
  E.stamp s.now ++ "\t".toList ++ cstr s.level.text ++ " [".toList ++ shownFile full s.file ++ "->".toList ++ s.function ++
    ":".toList ++ decInt s.line ++ "]\t".toList

/-- The line of a statement that is not fatal. -/
def stmtLine (E : Env) (full : Bool) (size : Nat) (s : LogStmt) : Str := stmtDetails E full s ++ stmtText size s ++ "\n".toList

/-- The entry of a fatal statement: text, stack dump and the sentence about the exit, in the form that belongs to its level. -/
def stmtFatal (E : Env) (full : Bool) (size : Nat) (s : LogStmt) : Str :=
  entryText (kindOf s.level.value) (stmtDetails E full s) (E.stamp s.now)
    (stmtText size s ++ cstr ("\n*******\tSTACKDUMP *******\n".toList ++ s.dump) ++ "\nExiting after fatal event  (".toList ++ cstr s.level.text ++
      "). Fatal type:  ".toList ++ exitReasonName ⟨s.level.value, cstr s.level.text⟩ s.signal ++ "\nLog content flushed successfully to sink\n\n".toList)
    s.expression

end G3.Spec
