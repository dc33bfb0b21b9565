import Verif.Model.Macros
import Verif.Model.Front
/-
Logging statements whose operands throw or spoil the stream: the macros of /repo/src/g3log/g3log.hpp:140-226 with the life of the
temporary `LogCapture` (/repo/src/g3log/logcapture.hpp:33-74, /repo/src/logcapture.cpp:43-113).

In C++17 (the standard the build asks for) the left operand of `<<` and the object of a member call are evaluated before the
right operand and the arguments. So the `LogCapture` exists when the first operand is evaluated, and an exception from there on destroys it
on the way out: its destructor, declared `noexcept(false)`, hands the message over. A second exception at that moment ends the program
(`std::terminate`).

Operands are arbitrary state transformers as in Model/Macros. What the destructor does is a parameter; `frontDtor` is the real one.
-/
namespace G3

/-- What one `<< operand` does: the text it inserts if the stream is good, whether it leaves the stream in a failed state (a null
`char const*` in common implementations, an empty `rdbuf()`), and the exception it ends with, if any. -/
structure Piece (E : Type) where
  text : Str
  spoils : Bool
  exc : Option E

/-- An operand of `<<`. -/
abbrev Operand (E W : Type) := MState W → Piece E × MState W

/-- The `ostringstream` of a capture, logcapture.hpp:66. A failed stream ignores insertions. -/
structure CStream where
  text : Str
  failed : Bool
deriving DecidableEq, Repr

variable {E W : Type}

/-- One insertion. -/
def CStream.put (c : CStream) (p : Piece E) : CStream := if c.failed then c else ⟨c.text ++ p.text, p.spoils⟩

/-- `stream() << a << b << ...`: up to the end or the first exception. -/
def streamAll : List (Operand E W) → CStream → MState W → CStream × Option E × MState W
  | [], c, s => (c, none, s)
  | o :: os, c, s =>
    let r := o s
    match r.1.exc with
    | some e => (c.put r.1, some e, r.2)
    | none => streamAll os (c.put r.1) r.2

/-- How the destructor of a capture ends. -/
inductive DtorEnd (E : Type)
  | returns
  | throws (e : E)
  | stays           -- it does not return: the process ends
deriving DecidableEq, Repr

/-- How a statement ends. -/
inductive StmtEnd (E : Type)
  | done
  | thrown (e : E)
  | stays
  | terminated      -- std::terminate
  | undefined       -- undefined behaviour in capturef
deriving DecidableEq, Repr

/-- What destroying a capture does to the rest of the program. -/
abbrev StmtDtor (E W : Type) := Capture → W → DtorEnd E × W

/-- The capture is destroyed, normally or because of an exception, logcapture.cpp:43-47. -/
def leave (dtor : StmtDtor E W) (l : Level) (expression : Str) (c : CStream) (exc : Option E) (s : MState W) : StmtEnd E × MState W :=
  let cap : Capture := ⟨l, expression, cstr c.text⟩
  let r := dtor cap s.world
  let s' : MState W := { s with out := s.out ++ [cap], world := r.2 }
  match r.1, exc with
  | .stays, _ => (.stays, s')
  | .returns, none => (.done, s')
  | .returns, some e => (.thrown e, s')
  | .throws e, none => (.thrown e, s')
  | .throws _, some _ => (.terminated, s')

/-- `LogCapture(...).stream() << ...`, g3log.hpp:140-143. -/
def captureStream (dtor : StmtDtor E W) (l : Level) (expression : Str) (os : List (Operand E W)) (s : MState W) : StmtEnd E × MState W :=
  let r := streamAll os ⟨[], false⟩ s
  leave dtor l expression r.1 r.2.1 r.2.2

/-- The arguments of a printf-like call: they throw, or yield the format and what the C library makes of it (see `capturef`). -/
abbrev FArgs (E W : Type) := MState W → Except E (Str × Option Str) × MState W

/-- `LogCapture(...).capturef(...)`, g3log.hpp:208-209. `lengthError` is the exception of a vector of negative size, logcapture.cpp:82. -/
def captureF (dtor : StmtDtor E W) (size : Int) (lengthError : E) (l : Level) (expression : Str) (args : FArgs E W) (s : MState W) :
    StmtEnd E × MState W :=
  let r := args s
  match r.1 with
  | .error e => leave dtor l expression ⟨[], false⟩ (some e) r.2
  | .ok (fmt, res) =>
    match capturef size fmt res with
    | .error .lengthError => leave dtor l expression ⟨[], false⟩ (some lengthError) r.2
    | .error .undefined => (.undefined, r.2)
    | .ok t => leave dtor l expression ⟨t, false⟩ none r.2

/-- A condition; it may throw. -/
abbrev Cond (E W : Type) := MState W → Except E Int × MState W

/-- `LOG(level) ...` and `LOGF(level, ...)`, g3log.hpp:147, 208-209; `body` is the capture. -/
def logStmt (l : Level) (body : MState W → StmtEnd E × MState W) (s : MState W) : StmtEnd E × MState W :=
  let t := testLevel l s
  if !t.1 then (.done, t.2) else body t.2

/-- `LOG_IF(level, e) ...` and `LOGF_IF`, g3log.hpp:151-152, 212-213. -/
def logIfStmt (l : Level) (e : Cond E W) (body : MState W → StmtEnd E × MState W) (s : MState W) : StmtEnd E × MState W :=
  let t := testLevel l s
  if !t.1 then (.done, t.2)
  else
    let c := e t.2
    match c.1 with
    | .error x => (.thrown x, c.2)
    | .ok v => if (0 : Int) = v then (.done, c.2) else body c.2

/-- `CHECK(e) ...`, `CHECKF`, `CHECK_F`, g3log.hpp:156-157, 218-226. -/
def checkStmt (e : Cond E W) (body : MState W → StmtEnd E × MState W) (s : MState W) : StmtEnd E × MState W :=
  let c := e s
  match c.1 with
  | .error x => (.thrown x, c.2)
  | .ok v => if (1 : Int) = v then (.done, c.2) else body c.2

/-- The constants of a call site, and clock, thread and stack dump at the moment of the call. -/
structure Site where
  file : Str
  line : Int
  function : Str
  signal : Int
  dump : Str
  now : Int
  tid : Nat

/-- The real destructor: `saveMessage` (/repo/src/g3log.cpp:143-155) and the front end (Model/Front). The world is the front end and the effects
it has had. An exception of a hook or of the exit handler is passed on as `x`. -/
def frontDtor (Env' : Env) (src : Src) (depth : Nat) (full : Bool) (site : Site) (x : E) : StmtDtor E (Front × List Eff) := fun cap w =>
  let trace := (LogCapture.new site.file site.line site.function cap.level cap.expression site.signal site.dump).stackTrace
  let op : FOp :=
    match saveMessage full site.now site.tid cap.text site.file site.line site.function cap.level cap.expression site.signal (cstr trace) with
    | .push m => .log m
    | .fatal t m n => .fatal m t n
  let r := fStep Env' src depth w.1 op
  (match r.2.2 with
    | .ok => .returns
    | .thrown => .throws x
    | .badCall => .throws x
    | _ => .stays, (r.1, w.2 ++ r.2.1))

end G3
