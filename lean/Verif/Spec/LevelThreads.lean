import Verif.Model.LevelThreads
/-
Which calls on the level registry may be made by different threads at the same time. Stated by what the calls are documented to do, for the set of
levels that are registered when the threads begin; `known k` says that k is one of them.
-/
namespace G3.Spec
open G3

/-- The call adds or removes a level. LOG at a level that is not registered is among these. -/
def reshapes (known : Int → Prop) : RegCall → Prop
  | .op (.add l _) => ¬ known l.value
  | .op (.add1 l) => ¬ known l.value
  | .op .reset => True
  | .op (.logLevel l) => ¬ known l.value
  | _ => False

/-- The call stores the name of level k. -/
def storesName (known : Int → Prop) (k : Int) : RegCall → Prop
  | .op (.add l _) => k = l.value
  | .op (.add1 l) => k = l.value
  | .op (.set l _) => k = l.value ∧ known k
  | .op (.disable l) => k = l.value ∧ known k
  | .op (.enable l) => k = l.value ∧ known k
  | .op (.setHighest l) => known l.value ∧ known k
  | _ => False

/-- The call looks at the name of level k. -/
def looksAtName (known : Int → Prop) (k : Int) : RegCall → Prop
  | .op (.setHighest l) => known l.value ∧ known k
  | .getAll => known k
  | _ => False

/-- Two calls that may be made at the same time. -/
def Compatible (known : Int → Prop) (a b : RegCall) : Prop :=
  ¬ reshapes known a ∧ ¬ reshapes known b ∧
  ∀ k, ¬ (storesName known k a ∧ (storesName known k b ∨ looksAtName known k b)) ∧ ¬ (storesName known k b ∧ looksAtName known k a)

/-- The call may turn level k on or off. -/
def switches (known : Int → Prop) (k : Int) : RegCall → Prop
  | .op (.add l _) => k = l.value
  | .op (.add1 l) => k = l.value
  | .op .reset => True
  | .op (.set l _) => k = l.value
  | .op (.disable l) => k = l.value
  | .op (.enable l) => k = l.value
  | .op (.setHighest l) => known l.value
  | .op .disableAll => True
  | .op .enableAll => True
  | .op (.getStatus _) => False
  | .op (.logLevel _) => False
  | .getAll => False

end G3.Spec
