import Verif.Model.WriteSignal
/-
Specification for C134: what a schedule says by itself about the files and the end of the process.
-/
namespace G3.Spec
open G3

variable {M : Type}

/-- The transfer to the file of a sink in a step, and its outcome. -/
def fileOut (k : Nat) : WSigLabel M → Option WOut
  | .put _ _ => none
  | .flush j o => if j = k then some o else none
  | .destroy j o _ => if j = k then some o else none

/-- A failed transfer to the file of sink k has happened. -/
def FileFailed (k : Nat) (ls : List (WSigLabel M)) : Prop := ∃ l ∈ ls, ∃ g, fileOut k l = some (.fail g)

/-- The entries for sink k. -/
def entriesFor (k : Nat) (ls : List (WSigLabel M)) : List M :=
  ls.filterMap fun l => match l with
    | .put j m => if j = k then some m else none
    | _ => none

/-- The file of sink k has these entries: those that came before its last good transfer, where transfers after a failed one count for nothing. -/
def FileHas (k : Nat) (ls : List (WSigLabel M)) (f : List M) : Prop :=
  ∃ a b, ls = a ++ b ∧ f = entriesFor k a ∧ (a = [] ∨ ∃ a' l, a = a' ++ [l] ∧ fileOut k l = some .ok) ∧ ¬ FileFailed k a ∧
    ∀ b1 l b2, b = b1 ++ l :: b2 → fileOut k l = some .ok → FileFailed k b1

/-- The outcome announces itself by a signal that ends the process. -/
def Deadly (deadly : Nat → Bool) (o : WOut) (g : Nat) : Prop := o = .fail (some g) ∧ deadly g = true

/-- The step ends the process, after this history, by its transfer to a file. -/
def KillsByFile (deadly : Nat → Bool) (a : List (WSigLabel M)) (l : WSigLabel M) (g : Nat) : Prop :=
  ∃ k o, fileOut k l = some o ∧ Deadly deadly o g ∧ ¬ FileFailed k a

/-- The exit message of a sink could not be written. -/
def CerrFailed (deadly : Nat → Bool) (ls : List (WSigLabel M)) : Prop :=
  ∃ a b k o g, ls = a ++ .destroy k o (.fail g) :: b ∧ ∀ g', ¬ KillsByFile deadly a (.destroy k o (.fail g)) g'

/-- The step ends the process, after this history. -/
def EndsProcess (deadly : Nat → Bool) (a : List (WSigLabel M)) (l : WSigLabel M) (g : Nat) : Prop :=
  KillsByFile deadly a l g ∨
    (∃ k o o', l = .destroy k o o' ∧ (∀ g', ¬ KillsByFile deadly a l g') ∧ Deadly deadly o' g ∧ ¬ CerrFailed deadly a)

/-- Signal g has ended the process. -/
def EndedBy (deadly : Nat → Bool) (ls : List (WSigLabel M)) (g : Nat) : Prop := ∃ a l, ls = a ++ [l] ∧ EndsProcess deadly a l g

/-- Sink k has been destroyed. -/
def SinkGone (k : Nat) (ls : List (WSigLabel M)) : Prop := ∃ o o', .destroy k o o' ∈ ls

/-- The sink that a step is about. -/
def sinkOf : WSigLabel M → Nat
  | .put k _ => k
  | .flush k _ => k
  | .destroy k _ _ => k

/-- When a step is possible. -/
def wsPossible (deadly : Nat → Bool) (ls : List (WSigLabel M)) (l : WSigLabel M) : Prop :=
  (∀ g, ¬ EndedBy deadly ls g) ∧ ¬ SinkGone (sinkOf l) ls

/-- What one expects: write errors do not end the process, and a sink that is destroyed has all its entries in its file unless the errors were its own. -/
def ErrorsContained (ls : List (WSigLabel M)) (s : WSigState M) : Prop :=
  s.killed = none ∧ ∀ k, SinkGone k ls → ¬ FileFailed k ls → (s.sink k).file = entriesFor k ls

end G3.Spec
