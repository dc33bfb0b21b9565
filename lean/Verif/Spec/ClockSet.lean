import Verif.Model.ClockSet
/-
Specification for C131: what a schedule says by itself about the clocks.
-/
namespace G3.Spec
open G3

/-- How much time has passed. -/
def timePassed : List ClkLabel → Int
  | [] => 0
  | .pass d :: ls => d + timePassed ls
  | _ :: ls => timePassed ls

/-- By how much the system clock has been set forward, all in all. -/
def clockSet : List ClkLabel → Int
  | [] => 0
  | .set a :: ls => a + clockSet ls
  | _ :: ls => clockSet ls

/-- What the system clock shows after a schedule that began when it showed c. -/
def sysAt (c : Int) (p : List ClkLabel) : Int := c + timePassed p + clockSet p

/-- What the clock of the messages shows, if the steady clock began at h. -/
def hrcAt (system : Bool) (h c : Int) (p : List ClkLabel) : Int := if system then sysAt c p else h + timePassed p

/-- Message i is made in the step after p. -/
def MadeAfter (ls p : List ClkLabel) (i : Nat) : Prop := (∃ r, ls = p ++ .log :: r) ∧ p.count .log = i

/-- The statics are initialised in the step after a and in the step after a, .readH, m. -/
def BaseRead (ls a m : List ClkLabel) : Prop := ∃ r, ls = a ++ .readH :: m ++ .readS :: r

/-- The statics are read once. -/
def OneBase (ls : List ClkLabel) : Prop := ls.count .readH ≤ 1 ∧ ls.count .readS ≤ 1

/-- v is x in whole ticks, what is over being left out. -/
def WholeTicks (tick x v : Int) : Prop := (∃ n, v = tick * n) ∧ ((0 ≤ x → 0 ≤ v ∧ v ≤ x ∧ x < v + tick) ∧ (x ≤ 0 → v ≤ 0 ∧ x ≤ v ∧ v - tick < x))

/-- How many stamps have been made. -/
def stampsMade (ls : List ClkLabel) : Nat := ls.countP fun | .format _ => true | _ => false

/-- When a step is possible after ls: the statics are read once, when the first message is formatted, and stamps are made after that. -/
def clkPossible (ls : List ClkLabel) : ClkLabel → Prop
  | .readH => .readH ∉ ls ∧ .log ∈ ls
  | .readS => .readH ∈ ls ∧ .readS ∉ ls
  | .format i => .readS ∈ ls ∧ i < ls.count .log
  | _ => True

/-- What one expects: each stamp shows what the system clock showed when the message was made. -/
def StampsShowClock (c : Int) (ls : List ClkLabel) (shown : List (Nat × Int)) : Prop :=
  ∀ x ∈ shown, ∃ p, MadeAfter ls p x.1 ∧ x.2 = sysAt c p

end G3.Spec
