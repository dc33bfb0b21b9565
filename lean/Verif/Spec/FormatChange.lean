import Verif.Model.FormatChange
/-
Specification for C136: what a schedule says by itself about the formats of entries.
-/
namespace G3.Spec
open G3

variable {M F : Type}

/-- The message of a statement. -/
def fmtLogged : FmtLabel M F → Option M
  | .log m => some m
  | _ => none

/-- The format of a call. -/
def fmtCalled : FmtLabel M F → Option F
  | .call f => some f
  | _ => none

def isFmtForward : FmtLabel M F → Bool
  | .forward => true
  | _ => false

def isFmtHandle : FmtLabel M F → Bool
  | .handle => true
  | _ => false

/-- The step puts a task into the queue of the sink. -/
def isFmtTask : FmtLabel M F → Bool
  | .forward => true
  | .call _ => true
  | _ => false

/-- The format called for last. -/
def lastFormat (f : F) (ls : List (FmtLabel M F)) : F := (ls.filterMap fmtCalled).getLast?.getD f

/-- At the moment when the n-th message reached the sink, f had been called for last. -/
def FormatThen (f0 : F) (ls : List (FmtLabel M F)) (n : Nat) (f : F) : Prop :=
  ∃ a b, ls = a ++ .forward :: b ∧ a.countP isFmtForward = n ∧ f = lastFormat f0 a

/-- At the moment of the n-th statement, f had been called for last. -/
def FormatOfStatement (f0 : F) (ls : List (FmtLabel M F)) (n : Nat) (f : F) : Prop :=
  ∃ a m b, ls = a ++ .log m :: b ∧ (a.filterMap fmtLogged).length = n ∧ f = lastFormat f0 a

/-- How many entries are written: the messages among the tasks that the sink has done. -/
def fmtWritten (ls : List (FmtLabel M F)) : Nat := ((ls.filter isFmtTask).take (ls.countP isFmtHandle)).countP isFmtForward

/-- When a step is possible. -/
def fmtPossible (ls : List (FmtLabel M F)) : FmtLabel M F → Prop
  | .forward => ls.countP isFmtForward < (ls.filterMap fmtLogged).length
  | .handle => ls.countP isFmtHandle < ls.countP isFmtTask
  | _ => True

/-- What one expects: an entry has the format that had been called for last at its statement. -/
def FormatInOrder (f0 : F) (ls : List (FmtLabel M F)) (s : FmtState M F) : Prop :=
  ∀ n m f, s.out[n]? = some (m, f) → FormatOfStatement f0 ls n f

end G3.Spec
