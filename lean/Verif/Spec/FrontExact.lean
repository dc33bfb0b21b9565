import Verif.Spec.Front
/-
Specification for the exact form of C48: which hook and which exit handler a program has set, read off its calls.
-/
namespace G3.Spec
open G3

/-- The hook set last; `o` is the one there was before. -/
def hookSet (o : Option Hook) : List FOp → Option Hook
  | [] => o
  | .setHook h :: rest => hookSet (some h) rest
  | _ :: rest => hookSet o rest

/-- The exit handler set last. -/
def handlerSet (x : ExitHandler) : List FOp → ExitHandler
  | [] => x
  | .setHandler h :: rest => handlerSet h rest
  | _ :: rest => handlerSet x rest

/-- The report on stderr when nobody is there to log it. -/
def lonelyReport (E : Env) (m : LogMessage) (n : Int) : Str :=
  "FATAL CALL but logger is NOT initialized\nCAUSE: ".toList ++ exitReasonName m.level n ++ "\nMessage: \n".toList ++
    (toString E m .default).1

/-- What follows a fatal event in a program that never initialised logging, by the exit handler. -/
def lonelyEnd (E : Env) (x : ExitHandler) (m : LogMessage) (n : Int) : Eff × Stat :=
  match x with
  | .default => (.err (lonelyReport E m n), .exitSignal n)
  | .custom true => (.handler ⟨m, n⟩, .ok)
  | .custom false => (.handler ⟨m, n⟩, .thrown)

end G3.Spec
