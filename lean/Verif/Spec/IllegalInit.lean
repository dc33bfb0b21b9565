import Verif.Model.IllegalInit
/- C104: when an initialisation is legal, and when the end of the process is blocked. -/
namespace G3.Spec

/-- The rule: a worker may be put in use if none is, and only a worker; everything else is illegal. `none` if an event breaks the rule; else what is in use afterwards. -/
def inUse : List JEvent → Option Nat → Option (Option Nat)
  | [], a => some a
  | .on w :: es, none => inUse es (some w)
  | .on _ :: _, some _ => none
  | .off :: es, _ => inUse es none
  | .illegal none :: es, a => inUse es a
  | .illegal (some _) :: es, some v => inUse es (some v)
  | .illegal (some _) :: _, none => none

/-- Reachable. -/
def JReach (s : JState) : Prop := ∃ n st ls, (JState.start n st).run ls = some s

/-- Thread `t` has the mutex and is about to find that its initialisation, with this argument, is illegal. -/
def IllegalAt (s : JState) (t : Nat) (w : Option Nat) : Prop := s.over = none ∧ s.pcs t = .initIn w ∧ (w = none ∨ s.active ≠ none)

/-- All static workers can be destroyed by a thread that has the mutex: either there are none, or the worker in use is not one of them. -/
def Free (s : JState) : Prop := ∀ i, i < s.n → (s.ws i).static = true → (s.ws i).alive = true → ∃ v, s.active = some v ∧ v ≠ i

end G3.Spec
