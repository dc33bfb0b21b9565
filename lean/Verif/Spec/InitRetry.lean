import Verif.Model.InitRetry
/-
Specification for C105: what calling `initializeLogging` again after it has thrown has to lead to. Stated by what can be observed: the dispositions of the signals, those that an ending process restores, the messages handed over.
-/
namespace G3.Spec
open G3

/-- From request `k` on there is memory. -/
def MemFrom (ok : Nat → Bool) (k : Nat) : Prop := ∀ j, k ≤ j → ok j = true

/-- Exactly request `j` finds no memory. -/
def onlyFails (j : Nat) : Nat → Bool := fun i => decide (i ≠ j)

/-- The process after `c` calls (or after the first that did not throw). -/
def afterCalls (e : SigEnv) (ok : Nat → Bool) (w : Nat) (d0 : Int → Disp) (l : List Int) (m : Option Str) (c : Nat) : InitState :=
  (initCalls e ok w c (InitState.start d0 l m) 0).2.1

/-- All `c` calls have thrown. -/
def AllThrow (e : SigEnv) (ok : Nat → Bool) (w : Nat) (d0 : Int → Disp) (l : List Int) (m : Option Str) (c : Nat) : Prop :=
  (initCalls e ok w c (InitState.start d0 l m) 0).1 = false

/-- Call number `c + 1` is the first that does not throw. -/
def ReturnsAt (e : SigEnv) (ok : Nat → Bool) (w : Nat) (d0 : Int → Disp) (l : List Int) (m : Option Str) (c : Nat) : Prop :=
  AllThrow e ok w d0 l m c ∧ (initCalls e ok w (c + 1) (InitState.start d0 l m) 0).1 = true

/-- One of the first `c` calls threw while it installed the handlers, and had installed that for `x` by then. -/
def Spoilt (e : SigEnv) (ok : Nat → Bool) (w : Nat) (d0 : Int → Disp) (l : List Int) (m : Option Str) (c : Nat) (x : Int) : Prop :=
  ∃ i, i ≤ c ∧ (afterCalls e ok w d0 l m i).installed = false ∧ (afterCalls e ok w d0 l m i).sig.disp x = .g3log

/-- What the process should be like after a call that did not throw: the handlers installed, the former dispositions to be restored, the first message with the worker, the worker in use. -/
structure Ready (e : SigEnv) (w : Nat) (d0 : Int → Disp) (l : List Int) (m : Option Str) (s : InitState) : Prop where
  handlers : ∀ x, s.sig.disp x = if x ∈ l ∧ e.accepts x = true ∧ e.off = false then .g3log else d0 x
  restores : ∀ x, (restoreAll e s.sig).disp x = d0 x
  message : s.handed = m.toList
  inUse : s.inst = some w

end G3.Spec
