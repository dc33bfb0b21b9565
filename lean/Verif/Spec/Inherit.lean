import Verif.Model.Inherit
/-
Specification for C132: what a schedule says by itself about who has a log file open.
-/
namespace G3.Spec
open G3

/-- A step that opens a file: for which sink, and how many changes of that sink it stays in use (that to itself counts). -/
def opensFor : InhLabel → Option (Nat × Nat)
  | .create k => some (k, 0)
  | .opens k => some (k, 1)
  | _ => none

/-- How many files have been opened. -/
def filesOpened (ls : List InhLabel) : Nat := ls.countP fun l => (opensFor l).isSome

/-- File f is opened for sink k; r is what happens after that. -/
def FileLife (ls : List InhLabel) (f k n : Nat) (r : List InhLabel) : Prop :=
  ∃ a l, ls = a ++ l :: r ∧ opensFor l = some (k, n) ∧ filesOpened a = f

/-- After this, sink k is done with the file: it has changed to another one or is destroyed. -/
def DoneWith (n k : Nat) (r : List InhLabel) : Prop := n < r.count (.move k) ∨ .destroy k ∈ r

/-- The file is in use by its sink. -/
def FileInUse (ls : List InhLabel) (f : Nat) : Prop := ∃ k n r, FileLife ls f k n r ∧ ¬ DoneWith n k r

/-- Program p was started while the file was in use, and still runs. -/
def KeptBy (ls : List InhLabel) (f p : Nat) : Prop :=
  ∃ k n r r', FileLife ls f k n (r ++ .spawn p :: r') ∧ ¬ DoneWith n k r ∧ .quit p ∉ r'

/-- Program p runs. -/
def ProgRuns (ls : List InhLabel) (p : Nat) : Prop := ∃ a b, ls = a ++ .spawn p :: b ∧ .quit p ∉ b

/-- x has happened, and y not since. -/
def SinceThen (x y : InhLabel) (ls : List InhLabel) : Prop := ∃ a b, ls = a ++ x :: b ∧ y ∉ b

/-- When a step is possible: sinks live from their making to their destruction, which is not during a change of the file; a sink changes one file at a time;
programs run from their start to their end. -/
def inhPossible (ls : List InhLabel) : InhLabel → Prop
  | .create k => ¬ SinceThen (.create k) (.destroy k) ls
  | .opens k => SinceThen (.create k) (.destroy k) ls ∧ ¬ SinceThen (.opens k) (.move k) ls
  | .move k => SinceThen (.opens k) (.move k) ls
  | .destroy k => SinceThen (.create k) (.destroy k) ls ∧ ¬ SinceThen (.opens k) (.move k) ls
  | .spawn p => ¬ ProgRuns ls p
  | .quit p => ProgRuns ls p

/-- What one expects: files are open exactly as long as their sinks use them. -/
def ReleasedWhenDone (ls : List InhLabel) (s : InhState) : Prop := ∀ f, s.held f → FileInUse ls f

end G3.Spec
