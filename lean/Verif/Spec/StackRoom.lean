import Verif.Model.StackRoom
/-
Specification for C125: how much stack a thread needs so that its crash is reported.
-/
namespace G3.Spec
open G3

/-- The size of the functions that have been called and have not returned, reading the history backwards; `skip` returns are still to be matched. -/
def openSize : Nat → List StackOp → Nat
  | _, [] => 0
  | 0, .call f :: r => f + openSize 0 r
  | skip + 1, .call _ :: r => openSize skip r
  | skip, .ret :: r => openSize (skip + 1) r
  | skip, _ :: r => openSize skip r

/-- What an operation needs by itself. -/
def ownNeed (E : StackEnv) : StackOp → Nat
  | .call f => f
  | .ret => 0
  | .log _ => E.logNeed
  | .fatal _ => E.fatalNeed
  | .crash _ => E.frame + E.handler

/-- The operation after which nothing comes. -/
def lastOp : StackOp → Prop
  | .fatal _ => True
  | .crash _ => True
  | _ => False

/-- What an operation sends. -/
def sends : StackOp → List StackMsg
  | .log m => [.text m]
  | .fatal m => [.fatalText m]
  | .crash n => [.signal n]
  | _ => []

/-- The signal by which a last operation ends the process. -/
def endSignal : StackOp → Int
  | .crash n => n
  | _ => 6

/-- The signal of an operation that has no room: that of the crash, or SIGSEGV. -/
def overflowSignal : StackOp → Int
  | .crash n => n
  | _ => 11

/-- Operation `o`, done after the history `pre`, has room on a stack of `size`. -/
def hasRoom (E : StackEnv) (pre : List StackOp) (o : StackOp) : Prop :=
  o ≠ .ret → openSize 0 pre.reverse + ownNeed E o ≤ E.size

/-- All operations of a history have room. -/
def allRoom (E : StackEnv) (ops : List StackOp) : Prop :=
  ∀ pre o post, ops = pre ++ o :: post → hasRoom E pre o

end G3.Spec
