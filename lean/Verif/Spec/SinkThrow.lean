import Verif.Model.SinkThrow
/- When a callback of a sink throws. -/
namespace G3.Spec
open G3

variable {M : Type}

/-- On the thread of sink `i` the callback for the message of `x` runs and is about to throw. -/
def Throwing (env : TEnv M) (s : TState M) (i : Nat) (x : SItem M) : Prop :=
  i < s.base.n ∧ (s.base.sk i).running = some x ∧ (s.base.sk i).blocked = false ∧ s.asleep i = false ∧
    (∃ m, x = .msg m ∨ x = .fatal m) ∧ env.throws i (s.base.sk i).done x = true

/-- In the course of `ls` a callback has thrown. -/
def Threw (env : TEnv M) (ls : List (WLabel M)) : Prop :=
  ∃ l1 j l2 u x, ls = l1 ++ .sinkFin j :: l2 ∧ tRun env TState.start l1 = some u ∧ Throwing env u j x

/-- The messages logged, in order. -/
def logged : List (WLabel M) → List M
  | [] => []
  | .save m :: l => m :: logged l
  | _ :: l => logged l

end G3.Spec
