/- Threads that wait for each other. -/
namespace G3.Spec

/-- The threads of the library: that of the worker and those of the sinks. -/
inductive Th
  | worker
  | sink (i : Nat)
deriving DecidableEq, Repr

/-- A group of threads each of which waits for one of the group. -/
def Deadlock {T : Type} (waits : T → T → Prop) (C : T → Prop) : Prop := (∃ t, C t) ∧ ∀ t, C t → ∃ t', C t' ∧ waits t t'

end G3.Spec
