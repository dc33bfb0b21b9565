import Verif.Model.Race
/- C14: when a logging call hits a missing worker. -/
namespace G3.Spec
open G3

/-- What came before the (first) event x. -/
def before (x : RLabel) (ls : List RLabel) : List RLabel := ls.takeWhile (fun y => decide (y ≠ x))

/-- The call of thread t touches a missing worker: logging was not yet shut down when it looked, and it was when it read the pointer, or the worker
was gone when it used it. -/
def touches (w t : Nat) (ls : List RLabel) : Prop :=
  .call t ∈ ls ∧ .shutdown ∉ before (.check t) ls ∧ (.shutdown ∈ before (.load t) ls ∨ .destroy w ∈ before (.call t) ls)

end G3.Spec
