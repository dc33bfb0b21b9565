import Verif.Model.Windows
import Verif.Spec.Windows
/- C63: which signals are handled after a history, on Windows. -/
namespace G3.Spec
open G3

/-- Thread u logs or installs the crash handler. -/
def takesFor (u : Nat) : WinOp → Prop
  | .log t => t = u
  | .installCrash t => t = u
  | _ => False

/-- On thread v the handlers are put back. -/
def putsBackOn (v : Nat) : WinOp → Prop
  | .vectored t c _ => t = v ∧ ∃ x, (c, x) ∈ fatalExceptions
  | .unexpected t _ _ => t = v
  | .exit t _ _ => t = v
  | _ => False

/-- What thread u does to signal n concerns thread t: SIGTERM and SIGABRT belong to the process, the others to the thread. -/
def reachesThread (u t n : Nat) : Prop := u = t ∨ n = 15 ∨ n = 22

instance (u t n : Nat) : Decidable (reachesThread u t n) := by unfold reachesThread; infer_instance

/-- Signal n is handled on thread t: by a thread that logs for the first time ever, and nothing has been put back since. -/
def handledAfter (ops : List WinOp) (t n : Nat) : Prop :=
  ∃ a op b u, ops = a ++ op :: b ∧ takesFor u op ∧ (∀ x ∈ a, ¬ takesFor u x) ∧ reachesThread u t n ∧ ∀ x ∈ b, ∀ v, putsBackOn v x → ¬ reachesThread v t n

end G3.Spec
