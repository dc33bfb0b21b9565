import Verif.Model.HandlerLog
import Verif.Spec.SignalLocks
/-
Specification for C128: when a program may log in its signal handlers.
-/
namespace G3.Spec
open G3

variable {L : Type} [DecidableEq L]

/-- The thread has come to its end, its handlers included. -/
def finished (s : HlState L) (v : Nat) : Prop := s.acts v = [[]]

/-- No thread can go on. -/
def atRest (s : HlState L) : Prop := ∀ v, hlStep s (.step v) = none

/-- A history in which every signal comes at a moment when its thread owns none of the locks `N`. -/
def Considerate (N : L → Prop) : HlState L → List (HlLabel L) → Prop
  | _, [] => True
  | s, x :: r => (∀ v H, x = .signal v H → ∀ l, N l → s.owner l ≠ some v) ∧ ∀ s', hlStep s x = some s' → Considerate N s' r

/-- The handlers of a history. -/
def handlersOf : List (HlLabel L) → List (List (LkOp L))
  | [] => []
  | .step _ :: r => handlersOf r
  | .signal _ H :: r => H :: handlersOf r

/-- The locks of a LOG statement. -/
def logLock : GLock → Prop
  | .heap => True
  | .queue => True
  | _ => False

/-- Pieces of a program, none of which is a call of `setFatalPreLoggingHook`. -/
def hookFree (ps : List GPiece) : Prop := ∀ p ∈ ps, ∀ k, p ≠ .hook k

/-- In these steps of its program the thread is inside the heap or inside an operation of the queue of the worker. -/
def inLogLock (done : List (LkOp GLock)) : Prop := ownsAfter .heap done ∨ ownsAfter .queue done

end G3.Spec
