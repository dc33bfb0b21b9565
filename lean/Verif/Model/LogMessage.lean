import Verif.Model.Levels
/-
Model of /repo/src/logmessage.cpp and /repo/src/g3log/logmessage.hpp.
-/
namespace G3

/-- `LogDetailsFunc`, /repo/src/g3log/logmessage.hpp:97: a function pointer. The two library functions
are named, user functions are identified by a number (their behaviour is in `Env.custom`). -/
inductive DetailsFn
  | default
  | full
  | custom (id : Nat)
deriving DecidableEq, Repr

/-- `struct LogMessage`, /repo/src/g3log/logmessage.hpp:106-115. -/
structure LogMessage where
  detailsFn : DetailsFn
  timestamp : Int
  threadId : Nat
  file : Str
  filePath : Str
  line : Int
  function : Str
  level : Level
  expression : Str
  message : Str
deriving DecidableEq, Repr

/-- What the formatting functions obtain from outside: `timestamp()` (logmessage.cpp:110-112, formatting
modelled in `Verif.Model.Time`), the text of a `std::thread::id` (logmessage.cpp:171-175) and the user's
formatting functions. -/
structure Env where
  stamp : Int → Str
  thread : Nat → Str
  custom : Nat → LogMessage → Str

/-- `LogMessage::splitFileName`, /repo/src/logmessage.cpp:16-20. -/
def splitFileName (s : Str) : Str := s.drop (succNpos (findLastOf ['(', '/', '\\'] s))

/-- `LogMessage::LogMessage(file, line, function, level)`, /repo/src/logmessage.cpp:121-138. `now` and `tid`
are the clock reading and the calling thread; `fullName` is the build option G3_LOG_FULL_FILENAME. The
level is passed by value and copied again into the member. -/
def LogMessage.new (fullName : Bool) (now : Int) (tid : Nat) (file : Str) (line : Int) (function : Str)
    (level : Level) : LogMessage :=
  { detailsFn := .default
    timestamp := now
    threadId := tid
    file := if fullName then file else splitFileName file
    filePath := file
    line := line
    function := function
    level := level.copy.copy
    expression := []
    message := [] }

/-- `LogMessage(const LogMessage&)`, /repo/src/logmessage.cpp:145-156. -/
def LogMessage.copy (o : LogMessage) : LogMessage :=
  { detailsFn := o.detailsFn
    timestamp := o.timestamp
    threadId := o.threadId
    file := o.file
    filePath := o.filePath
    line := o.line
    function := o.function
    level := o.level.copy
    expression := o.expression
    message := o.message }

/-- `LogMessage(LogMessage&&)`, /repo/src/logmessage.cpp:158-169; the new object. -/
def LogMessage.moved (o : LogMessage) : LogMessage :=
  { detailsFn := o.detailsFn
    timestamp := o.timestamp
    threadId := o.threadId
    file := o.file
    filePath := o.filePath
    line := o.line
    function := o.function
    level := o.level.copy
    expression := o.expression
    message := o.message }

/-- `swap(LogMessage&, LogMessage&)`, /repo/src/g3log/logmessage.hpp:117-127 (first component of the result
is the new `first`): `_file_path` and `_logDetailsToStringFunc` are not exchanged. -/
def LogMessage.swap (a b : LogMessage) : LogMessage × LogMessage :=
  ({ a with timestamp := b.timestamp, threadId := b.threadId, file := b.file, line := b.line,
            function := b.function, level := b.level, expression := b.expression, message := b.message },
   { b with timestamp := a.timestamp, threadId := a.threadId, file := a.file, line := a.line,
            function := a.function, level := a.level, expression := a.expression, message := a.message })

/-- `LogMessage::operator=(LogMessage other)`, /repo/src/logmessage.cpp:116-119; the argument is a copy. -/
def LogMessage.assign (self other : LogMessage) : LogMessage := (LogMessage.swap self other.copy).1

/-- `DefaultLogDetailsToString`, /repo/src/logmessage.cpp:53-57. -/
def defaultDetails (E : Env) (m : LogMessage) : Str :=
  E.stamp m.timestamp ++ "\t".toList ++ m.level.text ++ " [".toList ++ m.file ++ "->".toList ++ m.function ++
    ":".toList ++ decInt m.line ++ "]\t".toList

/-- `FullLogDetailsToString`, /repo/src/logmessage.cpp:59-63. -/
def fullDetails (E : Env) (m : LogMessage) : Str :=
  E.stamp m.timestamp ++ "\t".toList ++ m.level.text ++ " [".toList ++ E.thread m.threadId ++ " ".toList ++
    m.file ++ "->".toList ++ m.function ++ ":".toList ++ decInt m.line ++ "]\t".toList

/-- Call through `_logDetailsToStringFunc`. -/
def details (E : Env) (m : LogMessage) : Str :=
  match m.detailsFn with
  | .default => defaultDetails E m
  | .full => fullDetails E m
  | .custom i => E.custom i m

/-- `fatalSignalToString`, /repo/src/logmessage.cpp:23-27. -/
def fatalSignalToString (E : Env) (m : LogMessage) : Str :=
  E.stamp m.timestamp ++ "\n\n***** FATAL SIGNAL RECEIVED ******* \n".toList ++ m.message ++ ['\n']

/-- `fatalExceptionToString`, /repo/src/logmessage.cpp:30-34. -/
def fatalExceptionToString (E : Env) (m : LogMessage) : Str :=
  E.stamp m.timestamp ++ "\n\n***** FATAL EXCEPTION RECEIVED ******* \n".toList ++ m.message ++ ['\n']

/-- `fatalLogToString`, /repo/src/logmessage.cpp:37-42. -/
def fatalLogToString (E : Env) (m : LogMessage) : Str :=
  details E m ++ ("\n\t*******\t ".toList ++ "EXIT trigger caused by LOG(FATAL) entry: ".toList ++ "\n\t".toList ++
    ['"'] ++ m.message ++ ['"'])

/-- `fatalCheckToString`, /repo/src/logmessage.cpp:45-50. -/
def fatalCheckToString (E : Env) (m : LogMessage) : Str :=
  details E m ++ ("\n\t*******\t ".toList ++ "EXIT trigger caused by broken Contract:".toList ++ " CHECK(".toList ++
    m.expression ++ ")\n\t".toList ++ ['"'] ++ m.message ++ ['"'])

/-- `normalToString`, /repo/src/logmessage.cpp:66-70. -/
def normalToString (E : Env) (m : LogMessage) : Str := details E m ++ (m.message ++ ['\n'])

/-- `overrideLogDetailsFunc`, /repo/src/logmessage.cpp:74-76. -/
def LogMessage.overrideDetails (m : LogMessage) (f : DetailsFn) : LogMessage := { m with detailsFn := f }

/-- `LogMessage::toString(formattingFunc)`, /repo/src/logmessage.cpp:79-108. The second component is the
message afterwards (`_logDetailsToStringFunc` is `mutable`). -/
def toString (E : Env) (m0 : LogMessage) (f : DetailsFn) : Str × LogMessage :=
  let m := m0.overrideDetails f
  if wasFatal m.level = false then (normalToString E m, m)
  else if FATAL_SIGNAL.value = m.level.value then (fatalSignalToString E m, m)
  else if FATAL_EXCEPTION.value = m.level.value then (fatalExceptionToString E m, m)
  else if FATAL.value = m.level.value then (fatalLogToString E m, m)
  else if CONTRACT.value = m.level.value then (fatalCheckToString E m, m)
  else (details E m ++ ("\t*******".toList ++ "UNKNOWN or Custom made Log Message Type".toList ++ "\n\t".toList ++
    m.message ++ ['\n']), m)

/-- `toString()` with the default argument, /repo/src/g3log/logmessage.hpp:98. -/
def toStringDefault (E : Env) (m : LogMessage) : Str × LogMessage := toString E m .default

/-- `LogMessage(const std::string& fatalOsSignalCrashMessage)`, /repo/src/logmessage.cpp:140-143. -/
def LogMessage.newFatalSignal (fullName : Bool) (now : Int) (tid : Nat) (crash : Str) : LogMessage :=
  let m := LogMessage.new fullName now tid [] 0 [] FATAL_SIGNAL
  { m with message := m.message ++ crash }

/-- `struct FatalMessage`, /repo/src/g3log/logmessage.hpp:133-143. -/
structure FatalMessage where
  base : LogMessage
  signal : Int
deriving DecidableEq, Repr

/-- `FatalMessage(const LogMessage&, SignalType)`, /repo/src/logmessage.cpp:177-179. -/
def FatalMessage.new (details : LogMessage) (signal : Int) : FatalMessage := ⟨details.copy, signal⟩

/-- `FatalMessage::copyToLogMessage`, /repo/src/logmessage.cpp:185-187. -/
def FatalMessage.copyToLogMessage (m : FatalMessage) : LogMessage := m.base.copy

end G3
