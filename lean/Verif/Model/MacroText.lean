import Verif.Model.Macros
/-
The LOG and CHECK macros as text: what the preprocessor makes of a logging statement (/repo/src/g3log/g3log.hpp:140-226), and what the pieces of that text do.

Simplifications: a program is a sequence of the tokens that matter for the structure of statements; conditions, the headers of loops and the
expressions of the program are taken as a whole (types `X` and, for levels, `L`). `LOG(l) << x;` is one token before preprocessing: the call of
the macro with its arguments and what follows it up to the semicolon.
-/
namespace G3

/-- A call of one of the macros with what follows it. -/
inductive MacroCall (L X : Type)
  | log (l : L) (tail : X)
  | logIf (l : L) (c : X) (tail : X)
  | check (c : X) (tail : X)
  | logF (l : L) (args : X)
  | logIfF (l : L) (c : X) (args : X)
  | checkF (c : X) (args : X)
  | check_F (c : X) (args : X)
deriving DecidableEq, Repr

/-- The tokens: `C` are conditions in parentheses, `S` simple statements with their semicolon. `head` is what a statement has to follow and that
is no `if`: `while (c)`, `for (...)`, `switch (c)`, a label. `until` is the `while (c);` of a `do`. -/
inductive Tok (C S : Type)
  | if_ (c : C)
  | else_
  | head (c : C)
  | do_
  | until (c : C)
  | lb
  | rb
  | simple (s : S)
deriving DecidableEq, Repr

/-- The constructor of `LogCapture` that is called, g3log.hpp:140, 142-143. -/
inductive CaptureCtor (L X : Type)
  | level (l : L)
  | contract (c : X)
deriving DecidableEq, Repr

/-- Conditions after preprocessing. -/
inductive CondText (L X : Type)
  | user (c : X)
  | levelOff (l : L)                  -- !g3::logLevel(l)
  | levelOffOr (l : L) (c : X)        -- !g3::logLevel(l) || false == (c)
  | isTrue (c : X)                    -- true == (c)
deriving DecidableEq, Repr

/-- Expressions after preprocessing. -/
inductive ExprText (L X : Type)
  | user (x : X)
  | stream (k : CaptureCtor L X) (tail : X)       -- LogCapture(...).stream() tail
  | capturef (k : CaptureCtor L X) (args : X)     -- LogCapture(...).capturef(args)
deriving DecidableEq, Repr

/-- A program before preprocessing. -/
abbrev SrcTok (L X : Type) := Tok X (X ⊕ MacroCall L X)
/-- A program after preprocessing. -/
abbrev OutTok (L X : Type) := Tok (CondText L X) (ExprText L X)

/-- The macros, g3log.hpp:147 (LOG), 151-152 (LOG_IF), 156-157 (CHECK), 208-209 (LOGF), 212-213 (LOGF_IF), 218-219 (CHECKF), 225-226 (CHECK_F). -/
def MacroCall.expand {L X : Type} : MacroCall L X → List (OutTok L X)
  | .log l x => [.if_ (.levelOff l), .lb, .rb, .else_, .simple (.stream (.level l) x)]
  | .logIf l c x => [.if_ (.levelOffOr l c), .lb, .rb, .else_, .simple (.stream (.level l) x)]
  | .check c x => [.if_ (.isTrue c), .lb, .rb, .else_, .simple (.stream (.contract c) x)]
  | .logF l x => [.if_ (.levelOff l), .lb, .rb, .else_, .simple (.capturef (.level l) x)]
  | .logIfF l c x => [.if_ (.levelOffOr l c), .lb, .rb, .else_, .simple (.capturef (.level l) x)]
  | .checkF c x => [.if_ (.isTrue c), .lb, .rb, .else_, .simple (.capturef (.contract c) x)]
  | .check_F c x => [.if_ (.isTrue c), .lb, .rb, .else_, .simple (.capturef (.contract c) x)]

/-- The preprocessor, token by token. -/
def SrcTok.expand {L X : Type} : SrcTok L X → List (OutTok L X)
  | .if_ c => [.if_ (.user c)]
  | .else_ => [.else_]
  | .head c => [.head (.user c)]
  | .do_ => [.do_]
  | .until c => [.until (.user c)]
  | .lb => [.lb]
  | .rb => [.rb]
  | .simple (.inl x) => [.simple (.user x)]
  | .simple (.inr m) => m.expand

/-- The preprocessor. -/
def preprocess {L X : Type} (ts : List (SrcTok L X)) : List (OutTok L X) := ts.flatMap SrcTok.expand

/-- What the expressions of a program do: `level` evaluates a level, `cond` a condition, `act` an expression statement, `text` what is streamed or printed
into a message; `spell` is the text that `#boolean_expression` makes of a condition. -/
structure Meaning (L X W : Type) where
  level : L → Expr W Level
  cond : X → Expr W Int
  act : X → MState W → MState W
  text : X → Expr W Str
  spell : X → Str

variable {L X W : Type}

/-- Conditions after preprocessing: `||` does not evaluate its right side if the left one is true; `false == (c)`, `true == (c)` compare as `int`;
g3log.hpp:147, 152, 157. -/
def CondText.eval (μ : Meaning L X W) : CondText L X → Expr W Bool
  | .user c => fun s => (decide ((μ.cond c s).1 ≠ 0), (μ.cond c s).2)
  | .levelOff l => fun s =>
    let a := μ.level l s
    let t := testLevel a.1 a.2
    (!t.1, t.2)
  | .levelOffOr l c => fun s =>
    let a := μ.level l s
    let t := testLevel a.1 a.2
    if !t.1 then (true, t.2)
    else
      let b := μ.cond c t.2
      (decide (b.1 = 0), b.2)
  | .isTrue c => fun s =>
    let b := μ.cond c s
    (decide (b.1 = 1), b.2)

/-- The arguments of the constructor of `LogCapture`, g3log.hpp:140, 142-143: level and text of the expression. -/
def CaptureCtor.eval (μ : Meaning L X W) : CaptureCtor L X → Expr W (Level × Str)
  | .level l => fun s => (((μ.level l s).1, []), (μ.level l s).2)
  | .contract c => fun s => ((CONTRACT, μ.spell c), s)

/-- Expressions after preprocessing: the capture is made before the operands or arguments are evaluated, and destroyed at the semicolon. -/
def ExprText.run (μ : Meaning L X W) : ExprText L X → MState W → MState W
  | .user x => μ.act x
  | .stream k x => fun s =>
    let a := k.eval μ s
    emit a.1.1 a.1.2 (μ.text x) a.2
  | .capturef k x => fun s =>
    let a := k.eval μ s
    emit a.1.1 a.1.2 (μ.text x) a.2

end G3
