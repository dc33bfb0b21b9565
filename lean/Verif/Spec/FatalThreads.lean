import Verif.Model.Str
/- What is expected of the messages of fatal events on several threads. -/
namespace G3.Spec
open G3

/-- The report of one event: its text and its stack trace. -/
def plainReport (text trace : Nat → Str) (t : Nat) : Str := text t ++ trace t

/-- The same with the warning about a recursive crash, which shows the stack trace of the event of thread r. -/
def warnedReport (text trace : Nat → Str) (t r : Nat) : Str :=
  text t ++ trace t ++
    ("\n\n\nWARNING\nA recursive crash detected. It is likely the hook set with 'setFatalPreLoggingHook(...)' is responsible\n\n---First crash stacktrace: ".toList
      ++ trace r ++ "\n---End of first stacktrace\n".toList)

end G3.Spec
