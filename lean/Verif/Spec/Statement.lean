import Verif.Model.Statement
/- What a logging statement with throwing operands should do, in terms of the operands. -/
namespace G3.Spec
open G3

variable {E W : Type}

/-- The operands are evaluated one after the other, each once, from state `s`, until one throws or all are done: what they did, the exception,
and the state afterwards. -/
inductive Evals : List (Operand E W) → MState W → List (Piece E) → Option E → MState W → Prop
  | none (s : MState W) : Evals [] s [] none s
  | next {o : Operand E W} {os : List (Operand E W)} {s s1 s2 : MState W} {p : Piece E} {ps : List (Piece E)} {e : Option E} :
      o s = (p, s1) → p.exc = none → Evals os s1 ps e s2 → Evals (o :: os) s (p :: ps) e s2
  | throws {o : Operand E W} {os : List (Operand E W)} {s s1 : MState W} {p : Piece E} {x : E} :
      o s = (p, s1) → p.exc = some x → Evals (o :: os) s [p] (some x) s1

/-- The texts of all operands. -/
def allText (ps : List (Piece E)) : Str := ps.flatMap (·.text)

/-- The texts up to and including that of the first operand that leaves the stream in a failed state. -/
def seen : List (Piece E) → Str
  | [] => []
  | p :: ps => p.text ++ (if p.spoils then [] else seen ps)

/-- The statement ends with the operand's exception, or normally if there is none. -/
def Reaches (exc : Option E) (r : StmtEnd E) : Prop :=
  match exc with
  | some e => r = .thrown e
  | none => r = .done

end G3.Spec
