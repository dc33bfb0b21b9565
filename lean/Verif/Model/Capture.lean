import Verif.Model.LogMessage
/-
Model of /repo/src/logcapture.cpp (with /repo/src/g3log/logcapture.hpp) and of `saveMessage` in
/repo/src/g3log.cpp.
-/
namespace G3

/-- What can go wrong in `capturef`. -/
inductive CapErr
  | lengthError   -- std::vector<char>(negative int converted to size_t) throws
  | undefined     -- streaming the data() pointer of an empty vector
deriving DecidableEq, Repr

/-- Conversion of `size_t` to `int` (32 bit, modular as in C++20). -/
def toInt32 (n : Nat) : Int :=
  if n % 4294967296 < 2147483648 then ((n % 4294967296 : Nat) : Int) else ((n % 4294967296 : Nat) : Int) - 4294967296

/-- `setMaxMessageSize`, /repo/src/logcapture.cpp:33-35 (G3_DYNAMIC_MAX_MESSAGE_SIZE builds); the result is the
new value of the `int` `MaxMessageSize`. -/
def setMaxMessageSize (n : Nat) : Int := toInt32 n

/-- Default of `MaxMessageSize` / `kMaxMessageSize`, /repo/src/logcapture.cpp:31,86. -/
def defaultMessageSize : Int := 2048

/-- /repo/src/logcapture.cpp:80 -/
def truncatedText : Str := "[...truncated...]".toList

/-- `LogCapture::capturef`, /repo/src/logcapture.cpp:79-113 (not the MSVC branch): the text appended to the
stream. `res` is the outcome of formatting by the C library: `none` when `vsnprintf` returns a
negative number, otherwise the complete formatted text, of which `vsnprintf` stores the first
`size - 1` characters and returns the full length. -/
def capturef (size : Int) (fmt : Str) (res : Option Str) : Except CapErr Str :=
  if size < 0 then .error .lengthError
  else match res with
    | none => .ok ("\n\tERROR LOG MSG NOTIFICATION: Failure to successfully parse the message".toList ++
        (['"'] ++ fmt ++ ['"'] ++ ['\n']))
    | some t =>
      if size = 0 then .error .undefined
      else
        let finished_message := cstr (t.take (size.toNat - 1))
        if (t.length : Int) > size then .ok (finished_message ++ truncatedText)
        else .ok finished_message

/-- `struct LogCapture`, /repo/src/g3log/logcapture.hpp:66-73. -/
structure LogCapture where
  stream : Str
  stackTrace : Str
  file : Str
  line : Int
  function : Str
  level : Level
  expression : Str
  fatalSignal : Int
deriving DecidableEq, Repr

/-- `SIGABRT` on the modelled platforms (used in logcapture.hpp:38). -/
def SIGABRT : Int := 6

/-- `LogCapture::LogCapture(file, line, function, level, expression, fatal_signal, dump)`,
/repo/src/logcapture.cpp:60-73. `dump` is the result of `stackdump(dump)` (see `Verif.Model.CrashText`). -/
def LogCapture.new (file : Str) (line : Int) (function : Str) (level : Level) (expression : Str) (sig : Int)
    (dump : Str) : LogCapture :=
  { stream := []
    stackTrace := if wasFatal level then "\n*******\tSTACKDUMP *******\n".toList ++ dump else []
    file := file, line := line, function := function, level := level, expression := expression, fatalSignal := sig }

/-- `LogCapture::LogCapture(level, fatal_signal, dump)`, /repo/src/logcapture.cpp:50-52. -/
def LogCapture.newSignal (level : Level) (sig : Int) (dump : Str) : LogCapture :=
  LogCapture.new [] 0 [] level [] sig dump

/-- What is put into a capture between construction and destruction. -/
inductive Ins
  | stream (text : Str)                       -- `capture.stream() << ...`
  | printf (fmt : Str) (res : Option Str)     -- `capture.capturef(fmt, ...)`
deriving DecidableEq, Repr

/-- One insertion; `size` is the message size limit in force. -/
def LogCapture.insert (size : Int) (c : LogCapture) : Ins → Except CapErr LogCapture
  | .stream t => .ok { c with stream := c.stream ++ t }
  | .printf f r =>
    match capturef size f r with
    | .error e => .error e
    | .ok t => .ok { c with stream := c.stream ++ t }

/-- A sequence of insertions. -/
def LogCapture.insertAll (size : Int) (c : LogCapture) : List Ins → Except CapErr LogCapture
  | [] => .ok c
  | i :: is =>
    match c.insert size i with
    | .error e => .error e
    | .ok c' => c'.insertAll size is

/-- Where `saveMessage` sends a message: `pushMessageToLogger` or `saveFatalMessage`. -/
inductive Routed
  | push (m : LogMessage)
  | fatal (trace : Str) (m : LogMessage) (signal : Int)
deriving DecidableEq, Repr

/-- `saveMessage`, /repo/src/g3log.cpp:143-155, up to the call of the next function. All text arguments are
C strings. -/
def saveMessage (fullName : Bool) (now : Int) (tid : Nat) (entry file : Str) (line : Int) (function : Str)
    (level : Level) (expression : Str) (sig : Int) (trace : Str) : Routed :=
  let msgLevel := level.copy
  let m0 := LogMessage.new fullName now tid file line function msgLevel
  let m1 := { m0 with message := m0.message ++ entry }
  let m2 := { m1 with expression := expression }
  if wasFatal level then .fatal trace m2 sig else .push m2

/-- `LogCapture::~LogCapture`, /repo/src/logcapture.cpp:43-47. -/
def LogCapture.destroy (fullName : Bool) (now : Int) (tid : Nat) (c : LogCapture) : Routed :=
  saveMessage fullName now tid (cstr c.stream) c.file c.line c.function c.level c.expression c.fatalSignal
    (cstr c.stackTrace)

end G3
