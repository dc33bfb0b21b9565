import Verif.Model.SignalLocks
/-
Specification for C122: which locks a thread owns at some point of its program, and in which order locks are taken.
-/
namespace G3.Spec
open G3

variable {L : Type} [DecidableEq L]

/-- After these steps of a thread it owns the lock `l`: the last of them that concerns `l` takes it. -/
def ownsAfter (l : L) (done : List (LkOp L)) : Prop :=
  ∃ a b, done = a ++ .acq l :: b ∧ ∀ x ∈ b, x ≠ .acq l ∧ x ≠ .rel l

/-- `l` is taken somewhere in these steps. -/
def takes (l : L) (p : List (LkOp L)) : Prop := .acq l ∈ p

/-- A program that releases what it takes and nothing else, that takes locks in the order of `rank`, and that takes only locks of `N`
while it owns one of `N`. `held` are the locks it owns at the beginning. -/
def inLockOrder (rank : L → Nat) (N : L → Prop) : List L → List (LkOp L) → Prop
  | held, [] => held = []
  | held, .acq l :: r => (∀ h ∈ held, rank h < rank l) ∧ ((∃ h ∈ held, N h) → N l) ∧ inLockOrder rank N (l :: held) r
  | held, .rel l :: r => l ∈ held ∧ inLockOrder rank N (held.filter (· ≠ l)) r

/-- Nobody but `t` can make a step. -/
def stuckBut (t : Nat) (s : LkState L) : Prop := ∀ v, v ≠ t → lkStep s v = none

/-- In these steps of a program as it is in Model/SignalLocks, the thread is inside the heap, or `setFatalPreLoggingHook`, or an operation of the queue of the worker. -/
def inLibraryLock (done : List (LkOp GLock)) : Prop := ownsAfter .heap done ∨ ownsAfter .hook done ∨ ownsAfter .queue done

end G3.Spec
