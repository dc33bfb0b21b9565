import Verif.Model.Levels
/-
Model of the LOG/CHECK macros, /repo/src/g3log/g3log.hpp:140-226 (G3_DYNAMIC_LOGGING build).

User expressions (conditions, streamed arguments) are arbitrary state transformers over the level
registry, the captures emitted so far and an arbitrary further state `W`, so they may have any side
effect, including logging and changing levels. What a capture does at its destruction is modelled in
`Verif.Model.Capture` and `Verif.Model.Front`; here it is recorded as one `Capture`.
-/
namespace G3

/-- What the macro hands to `LogCapture` (level, expression text of CHECK, captured text);
/repo/src/g3log/logcapture.hpp:38. File, line and function are constants of the call site. -/
structure Capture where
  level : Level
  expression : Str
  text : Str
deriving DecidableEq, Repr

/-- Program state as seen by a macro. -/
structure MState (W : Type) where
  reg : Registry
  out : List Capture
  world : W

/-- A user expression. -/
abbrev Expr (W α : Type) := MState W → α × MState W

variable {W : Type}

/-- The test `g3::logLevel(level)` inside a macro. -/
def testLevel (l : Level) : Expr W Bool := fun s =>
  ((logLevel l s.reg).1, { s with reg := (logLevel l s.reg).2 })

/-- `LogCapture(...).stream() << args` or `.capturef(args)`: evaluate the arguments, then the temporary
is destroyed at the end of the full expression and forwards one message (logcapture.cpp:43-47). -/
def emit (l : Level) (expression : Str) (args : Expr W Str) (s : MState W) : MState W :=
  let r := args s
  { r.2 with out := r.2.out ++ [⟨l, expression, r.1⟩] }

/-- `LOG(level) << args`, g3log.hpp:147; `LOGF(level, args)`, g3log.hpp:208-209. -/
def LOG (l : Level) (args : Expr W Str) (s : MState W) : MState W :=
  let t := testLevel l s
  if !t.1 then t.2 else emit l [] args t.2

/-- `LOG_IF(level, e) << args`, g3log.hpp:151-152; `LOGF_IF`, g3log.hpp:212-213. The operands of
`false == (e)` are promoted to `int`, so `e` is modelled as an integer (a C++ `bool` is 0 or 1). -/
def LOG_IF (l : Level) (e : Expr W Int) (args : Expr W Str) (s : MState W) : MState W :=
  let t := testLevel l s
  if !t.1 then t.2
  else
    let c := e t.2
    if (0 : Int) = c.1 then c.2 else emit l [] args c.2

/-- `CHECK(e) << args`, g3log.hpp:156-157; `CHECKF`, `CHECK_F`, g3log.hpp:218-226. The test is
`true == (e)` with both operands promoted to `int`. -/
def CHECK (exprText : Str) (e : Expr W Int) (args : Expr W Str) (s : MState W) : MState W :=
  let c := e s
  if (1 : Int) = c.1 then c.2 else emit CONTRACT exprText args c.2

end G3
