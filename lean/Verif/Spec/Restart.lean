import Verif.Spec.FrontExact
/- Specification for C119: what can be seen of a life of the logger, from one initialisation on. -/
namespace G3.Spec
open G3

/-- What can be seen of a call apart from the installation of the signal handlers and the notice about a message that found no logger: messages and fatal messages
handed to workers, hooks started, calls of the user's exit handler and other text on stderr. -/
def shown (es : List Eff) : List Eff := es.filter fun
  | .install => false
  | .err t => !("LOGGER NOT INITIALIZED:".toList.isPrefixOf t)
  | _ => true

/-- Some initialisation is among the calls. -/
def everBegun (ops : List FOp) : Prop := ∃ w, FOp.init (some w) ∈ ops

/-- A program that has just begun, but with an exit handler and the stack trace of an earlier fatal event. -/
def begunWith (x : ExitHandler) (t : Option Str) : Front := { Front.start with handler := x, firstTrace := t }

/-- How often the signal handlers are installed. -/
def installs (es : List Eff) : Nat := (es.filter fun | .install => true | _ => false).length

/-- Did some message find no logger? Read off the calls of a program; the argument is the worker active before. -/
def unheard : Option Nat → List FOp → Bool
  | _, [] => false
  | none, .log _ :: _ => true
  | some w, .log _ :: rest => unheard (some w) rest
  | _, .init w :: rest => unheard w rest
  | _, .shutdown :: rest => unheard none rest
  | none, .shutdownActive _ _ _ :: rest => unheard none rest
  | some w, .shutdownActive _ _ w' :: rest => if w' = none ∨ w' = some w then unheard none rest else unheard (some w) rest
  | a, _ :: rest => unheard a rest

/-- The notice on stderr. -/
def notice (m : LogMessage) : Str := "LOGGER NOT INITIALIZED:\n\t\t".toList ++ m.message ++ "\n".toList

end G3.Spec
