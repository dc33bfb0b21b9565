import Verif.Model.ExitPath
/- What the end of a program promises about its log, in terms of the statements executed and what the sinks got. -/
namespace G3.Spec
open G3

/-- What a statement logs. -/
def sentBy : ExLabel → Option ExItem
  | .log _ m => some (.msg m)
  | .fatal _ n _ => some (.fatal n)
  | _ => none

/-- Everything logged, in order. -/
def sent (ls : List ExLabel) : List ExItem := ls.filterMap sentBy

/-- Steps that end, or should end, the program: a fatal event or a call of `exit`. -/
def isEnding : ExLabel → Bool
  | .fatal _ _ _ => true
  | .exit _ _ => true
  | _ => false

/-- Steps of the library and of the running `exit`; the others are the program's. -/
def isOwn : ExLabel → Bool
  | .log _ _ => false
  | .fatal _ _ _ => false
  | .exit _ _ => false
  | .unblock _ => false
  | _ => true

/-- The sinks got exactly what was logged up to and including the first fatal event, which has number `n`. -/
def FlushedTo (n : Int) (hist done : List ExItem) : Prop :=
  ∃ pre post, hist = pre ++ .fatal n :: post ∧ (∀ x ∈ pre, ∃ m, x = .msg m) ∧ done = pre ++ [.fatal n]

end G3.Spec
