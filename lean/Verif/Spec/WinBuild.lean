import Verif.Model.Windows
/- C115: which reports of an exception there should be. -/
namespace G3.Spec
open G3

/-- The report of an exception by a handler. -/
def excReport (handler : Str) (code pid : Nat) : Level × Nat × Str :=
  (FATAL_EXCEPTION, code, "\n***** ".toList ++ handler ++ ": Received fatal exception ".toList ++ exceptionIdToText code ++ "\tPID: ".toList ++ decNat pid ++ "\n".toList)

/-- The two handlers of g3log. -/
inductive WinSource | vectored | unexpected
deriving DecidableEq, Repr

def WinSource.name : WinSource → Str
  | .vectored => "Vectored Exception Handler".toList
  | .unexpected => "Unexpected Exception Handler".toList

/-- Who should report an exception: somebody, once, if the program does not handle it; nobody otherwise. -/
def onceIfFatal (caught : Bool) (l : List WinSource) : Prop := l.length = if caught then 0 else 1

/-- Who does report it, in the builds with and without signal handling and vectored handlers; `listed`: the exception is in the table of C59. -/
def reporters (signals vectored listed caught : Bool) : List WinSource :=
  match vectored && listed, caught with
  | true, true => [.vectored]
  | true, false => if signals then [.vectored] else [.vectored, .unexpected]
  | false, true => []
  | false, false => [.unexpected]

end G3.Spec
