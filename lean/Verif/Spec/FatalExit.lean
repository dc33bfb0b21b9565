import Verif.Model.FatalExit
/- What a fatal event promises about the log, in terms of what was handed over and what the sinks got. -/
namespace G3.Spec
open G3

/-- Is the item a fatal message? -/
def isFatal : XItem → Bool
  | .fatal _ _ => true
  | .msg _ => false

/-- The sinks have got exactly what was handed over up to and including the first fatal message. -/
def Flushed (hist done : List XItem) : Prop :=
  ∃ pre f post, hist = pre ++ f :: post ∧ (∀ x ∈ pre, isFatal x = false) ∧ isFatal f = true ∧ done = pre ++ [f]

/-- The thread deals with a fatal event and has got past the handler's counter. -/
def busy : XPc → Prop
  | .run => False
  | .wait => False
  | _ => True

/-- The fatal events among the steps. -/
def events (ls : List XLabel) : List XLabel := ls.filter (fun | .fatal _ => true | .signal _ _ => true | _ => false)

/-- All fatal events of the history are signals. -/
def OnlySignals (ls : List XLabel) : Prop := ∀ l ∈ ls, ∀ t, l ≠ .fatal t

/-- The signal number of a fatal event: SIGABRT for a statement. -/
def evNum : XLabel → Option Int
  | .fatal _ => some 6
  | .signal _ n => some n
  | _ => none

/-- The numbers of the fatal events of a history. -/
def nums (ls : List XLabel) : List Int := ls.filterMap evNum

end G3.Spec
