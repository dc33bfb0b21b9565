import Verif.Model.OtherWorker
/-
Specification for C137: what a sequence of operations says by itself about which worker has which sinks.
-/
namespace G3.Spec
open G3

variable {M : Type}

def isOwAdd : OwLabel M → Bool
  | .add _ => true
  | _ => false

/-- Sink k was made for worker w, and b is what was done since then. -/
def OwMade (ls : List (OwLabel M)) (w k : Nat) (b : List (OwLabel M)) : Prop :=
  ∃ a, ls = a ++ .add w :: b ∧ a.countP isOwAdd = k

/-- The program still has the handle of sink k: no removeSink has taken it. -/
def OwHas (ls : List (OwLabel M)) (k : Nat) : Prop :=
  ∃ w b, OwMade ls w k b ∧ ∀ v, .remove v k ∉ b

/-- Sink k is attached to worker w: it was made for w, w has not removed all its sinks since then, and the first removeSink with its handle,
if there was one, was not on w. -/
def OwAttached (ls : List (OwLabel M)) (w k : Nat) : Prop :=
  ∃ b, OwMade ls w k b ∧ .removeAll w ∉ b ∧ ∀ c d, b = c ++ .remove w k :: d → ∃ v, .remove v k ∈ c

/-- What sink k got. -/
def owGot (s : OwState M) (k : Nat) : List M := (s.got.filter (·.1 = k)).map (·.2)

/-- What the documentation of removeSink says: the sink of the handle is removed when the call returns, that is, it gets nothing any more. -/
def OwRemoved (ls : List (OwLabel M)) (w k : Nat) : Prop :=
  ∀ ls', owGot (owRun (ls ++ .remove w k :: ls')) k = owGot (owRun ls) k

end G3.Spec
