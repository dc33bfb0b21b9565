import Verif.Model.ThreadIds
/-
Specification for C135: what a schedule says by itself about threads, their identifications and their entries.
-/
namespace G3.Spec
open G3

/-- Thread t has been started with identification i, and not ended since. -/
def RunsAs (ls : List TidLabel) (t i : Nat) : Prop := ∃ a b, ls = a ++ .start t i :: b ∧ .done t ∉ b

/-- The step is a logging statement. -/
def isTidLog : TidLabel → Bool
  | .log _ _ => true
  | _ => false

/-- The step is one of the worker. -/
def isTidWork : TidLabel → Bool
  | .work => true
  | _ => false

/-- The n-th statement is executed by thread t with identification i. -/
def StmtAt (ls : List TidLabel) (n t i : Nat) (x : TidSrc) : Prop :=
  ∃ a b, ls = a ++ .log t x :: b ∧ a.countP isTidLog = n ∧ RunsAs a t i

/-- When a step is possible. -/
def tidPossible (ls : List TidLabel) : TidLabel → Prop
  | .start t i => (∀ j, .start t j ∉ ls) ∧ ∀ u, ¬ RunsAs ls u i
  | .log t _ => ∃ i, RunsAs ls t i
  | .done t => ∃ i, RunsAs ls t i
  | .work => ls.countP isTidWork < ls.countP isTidLog

/-- What one expects: entries that show the same identification are of the same thread. -/
def IdTellsThread (s : TidState) : Prop :=
  ∀ p ∈ s.out, ∀ q ∈ s.out, p.2.threadId = q.2.threadId → p.1 = q.1

end G3.Spec
