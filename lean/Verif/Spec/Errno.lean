import Verif.Model.Errno
/-
Specification for C133: the story of errno, told as one list of what sets and what reads it.
-/
namespace G3.Spec
open G3

/-- What happens to errno. -/
inductive EMark
  | user (o : Option Int)    -- code of the program may set it
  | lib (o : Option Int)     -- code of the library may set it
  | read                     -- an operand of a statement may use it
deriving DecidableEq, Repr

/-- The value set, by anybody. -/
def EMark.value : EMark → Option Int
  | .user o => o
  | .lib o => o
  | .read => none

/-- The value set by the program. -/
def EMark.own : EMark → Option Int
  | .user o => o
  | _ => none

/-- The value set last. -/
def lastSet (f : EMark → Option Int) (e : Int) (ms : List EMark) : Int := (ms.filterMap f).getLast?.getD e

/-- At each reading, the value set last before it. -/
def readsOf (f : EMark → Option Int) (e : Int) (ms : List EMark) : List Int :=
  (List.range ms.length).filterMap fun i => if ms[i]? = some .read then some (lastSet f e (ms.take i)) else none

/-- The statement emits a message. -/
def Emits (t : ErrStmt) : Prop :=
  match t.guard with
  | .log => t.enabled = true
  | .logIf b _ => t.enabled = true ∧ b = true
  | .check b _ => b = false

/-- The statement is fatal when it emits. -/
def FatalStmt (t : ErrStmt) : Prop := t.fatalLevel = true ∨ ∃ b o, t.guard = .check b o

/-- Logging is not initialised after this. -/
def NotInit (ls : List ErrLabel) : Prop := ¬ ∃ a b, ls = a ++ .init :: b ∧ .shutdown ∉ b

/-- A message has been reported on stderr for want of a logger. -/
def Told (ls : List ErrLabel) : Prop := ∃ a t b, ls = a ++ .stmt t :: b ∧ Emits t ∧ ¬ FatalStmt t ∧ NotInit a

/-- The program has been ended by a fatal statement. -/
def ErrEnded (ls : List ErrLabel) : Prop := ∃ t, .stmt t ∈ ls ∧ Emits t ∧ FatalStmt t

/-- When a step is possible. -/
def errPossible (ls : List ErrLabel) : ErrLabel → Prop
  | .init => ¬ ErrEnded ls ∧ NotInit ls
  | _ => ¬ ErrEnded ls

/-- What is tested before a statement emits. -/
def headMarks (t : ErrStmt) : List EMark :=
  match t.guard with
  | .log => [.lib t.test]
  | .logIf _ o => if t.enabled then [.lib t.test, .user o] else [.lib t.test]
  | .check _ o => [.user o]

/-- The operands: inserted one by one, or formatted together. -/
def operandMarks (t : ErrStmt) : List EMark :=
  if t.printf then (t.ops.flatMap fun o => [.read, .user o.1]) ++ [.lib t.format]
  else t.ops.flatMap fun o => [.read, .user o.1, .lib o.2]

open Classical in
/-- What a step of the program does to errno, after a history. -/
noncomputable def labelMarks (a : List ErrLabel) : ErrLabel → List EMark
  | .set v => [.user (some v)]
  | .init => []
  | .shutdown => []
  | .stmt t =>
    headMarks t ++
      if Emits t then
        [.lib t.ctor] ++ (if FatalStmt t then [.lib t.dump] else []) ++ operandMarks t ++ [.lib t.save] ++
          (if ¬ FatalStmt t ∧ NotInit a ∧ ¬ Told a then [.lib t.report] else [])
      else []

/-- The whole story. -/
noncomputable def histMarks (ls : List ErrLabel) : List EMark :=
  (List.range ls.length).flatMap fun i => match ls[i]? with
    | some l => labelMarks (ls.take i) l
    | none => []

/-- What one expects: operands see errno as the program set it last, and so does the program after its statements. -/
def ErrnoKept (e : Int) (ls : List ErrLabel) (s : ErrState) : Prop :=
  s.seen = readsOf EMark.own e (histMarks ls) ∧ s.errno = lastSet EMark.own e (histMarks ls)

open Classical in
/-- The values that the program itself sets: outside statements, in conditions that are evaluated, and in operands that are evaluated. -/
noncomputable def progSets (ls : List ErrLabel) : List Int :=
  ls.flatMap fun l => match l with
    | .set v => [v]
    | .init => []
    | .shutdown => []
    | .stmt t =>
      (match t.guard with
        | .log => []
        | .logIf _ o => if t.enabled then o.toList else []
        | .check _ o => o.toList) ++
      if Emits t then t.ops.flatMap fun o => o.1.toList else []

/-- The library leaves errno alone. -/
def QuietLib (ls : List ErrLabel) : Prop := ∀ o, .lib o ∈ histMarks ls → o = none

end G3.Spec
