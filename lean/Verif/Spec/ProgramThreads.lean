import Verif.Model.ProgramThreads
import Verif.Spec.Program
/- What the log of a program with several threads should contain. -/
namespace G3.Spec
open G3

/-- What belongs to thread `t`. -/
def ofThread {α : Type} (t : Nat) (l : List (Nat × α)) : List α := (l.filter fun x => x.1 = t).map Prod.snd

/-- The statements whose level is on when they are reached; the list has the uses of the level registry in their order. -/
def executedBy (σ : SState) : List (Nat × PStep) → List (Nat × LogStmt)
  | [] => []
  | (_, .levels o) :: p => executedBy (sStep σ o) p
  | (t, .log s) :: p => if σ s.level.value = some true then (t, s) :: executedBy σ p else executedBy σ p

/-- The statements of a program. -/
def statements (p : List PStep) : List LogStmt := p.filterMap fun | .log s => some s | .levels _ => none

end G3.Spec
