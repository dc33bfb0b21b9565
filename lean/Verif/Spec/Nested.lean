import Verif.Model.Nested
/-
What programs expect of logging statements inside logging statements, told from the history of each thread alone.
-/
namespace G3.Spec
open G3

variable {F : Type}

/-- What one thread does. -/
inductive NestEv (F : Type)
  | «open» (l : Level)
  | insert (p : NPiece F)
  | close

/-- What thread `t` does in a history. -/
def nestEvents (t : Nat) : List (NLabel F) → List (NestEv F)
  | [] => []
  | .enter u l :: r => if u = t then .open l :: nestEvents t r else nestEvents t r
  | .put u p :: r => if u = t then .insert p :: nestEvents t r else nestEvents t r
  | .leave u :: r => if u = t then .close :: nestEvents t r else nestEvents t r

/-- The text of insertions into a new stream, one after the other, up to the first that leaves it in a failed state. -/
def inserted (f : F) : List (NPiece F) → Str
  | [] => []
  | p :: ps => let r := p f; if r.2.2 then r.1 else r.1 ++ inserted r.2.1 ps

/-- The message of a statement with these insertions: the text up to the first null character. -/
def messageOf (f0 : F) (l : Level) (ps : List (NPiece F)) : Level × Str :=
  (l, (inserted f0 ps).takeWhile (fun c => c ≠ Char.ofNat 0))

/-- `Inside ls ps ms`: a piece of program, with all statements in it complete and none of them fatal, that makes the insertions `ps` into the statement around it, and whose own statements log `ms`. A statement logs
after all the statements inside it. -/
inductive Inside (f0 : F) : List (NestEv F) → List (NPiece F) → List (Level × Str) → Prop
  | nothing : Inside f0 [] [] []
  | insertion {ls ps ms} (p : NPiece F) : Inside f0 ls ps ms → Inside f0 (ls ++ [.insert p]) (ps ++ [p]) ms
  | statement {ls ps ms is qs ns} (l : Level) : l.value < 1000 → Inside f0 ls ps ms → Inside f0 is qs ns →
      Inside f0 (ls ++ .open l :: is ++ [.close]) ps (ms ++ ns ++ [messageOf f0 l qs])

/-- `Running ls st ms`: a thread that has done `ls` is in the statements `st`, the innermost first, with the insertions made so far, and has logged `ms`. -/
inductive Running (f0 : F) : List (NestEv F) → List (Level × List (NPiece F)) → List (Level × Str) → Prop
  | outside {ls ms} : Inside f0 ls [] ms → Running f0 ls [] ms
  | within {ls st ms is ps ns} (l : Level) : Running f0 ls st ms → Inside f0 is ps ns →
      Running f0 (ls ++ .open l :: is) ((l, ps) :: st) (ms ++ ns)

/-- `Ended ls st ms`: the last thing the thread has done is to end a fatal statement, inside the statements `st`; it has logged `ms`. -/
def Ended (f0 : F) (ls : List (NestEv F)) (st : List (Level × List (NPiece F))) (ms : List (Level × Str)) : Prop :=
  ∃ ls0 l ps ms0, 1000 ≤ l.value ∧ Running f0 ls0 ((l, ps) :: st) ms0 ∧ ls = ls0 ++ [.close] ∧ ms = ms0 ++ [messageOf f0 l ps]

/-- What thread `t` has logged. -/
def nestLogged (t : Nat) (out : List NMsg) : List (Level × Str) := (out.filter (fun m => m.thr = t)).map (fun m => (m.level, m.text))

end G3.Spec
