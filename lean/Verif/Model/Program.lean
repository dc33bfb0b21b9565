import Verif.Model.Macros
import Verif.Model.Front
/-
A program that uses the logging macros: LOG and LOGF statements mixed with calls on the level registry, /repo/src/g3log/g3log.hpp:140-226.
Joins the models of the macros, of the captures and of the front end. The statements run one after the other (those of
several threads in the order in which they reach the logger).
-/
namespace G3

/-- A LOG, LOGF or CHECK statement: what `LogCapture` gets from the macro (g3log.hpp:140-143, 147, 208), what is streamed or
printed into it, and clock, thread and stack dump at that moment. -/
structure LogStmt where
  file : Str
  line : Int
  function : Str
  level : Level
  expression : Str
  signal : Int
  dump : Str
  now : Int
  tid : Nat
  ins : List Ins

/-- The life of the capture of a statement, /repo/src/logcapture.cpp:43-113: what it does to the front end at its destruction.
`none` if `capturef` fails, which is possible only for a size that is not positive; what the code does then is in Model/Statement. -/
def LogStmt.op (full : Bool) (size : Int) (s : LogStmt) : Option FOp :=
  match (LogCapture.new s.file s.line s.function s.level s.expression s.signal s.dump).insertAll size s.ins with
  | .error _ => none
  | .ok c =>
    match c.destroy full s.now s.tid with
    | .push m => some (.log m)
    | .fatal t m n => some (.fatal m t n)

/-- A step of the program. -/
inductive PStep
  | levels (o : LevelOp)    -- a call on the level registry
  | log (s : LogStmt)       -- LOG(level) << ... or LOGF(level, ...)

/-- The calls that the front end sees: `if (!g3::logLevel(level)) {} else LogCapture(...)`, g3log.hpp:147, 208. -/
def progOps (full : Bool) (size : Int) (r : Registry) : List PStep → List FOp
  | [] => []
  | .levels o :: p => progOps full size (levelStep r o).2 p
  | .log s :: p =>
    let t := logLevel s.level r
    if !t.1 then progOps full size t.2 p
    else (s.op full size).toList ++ progOps full size t.2 p

end G3
