import Verif.Model.Str
/-
Model of /repo/src/loglevels.cpp and /repo/src/g3log/loglevels.hpp (G3_DYNAMIC_LOGGING build;
the other build is `logLevelStatic`).
-/
namespace G3

/-- `struct LEVELS`, /repo/src/g3log/loglevels.hpp:32-65. -/
structure Level where
  value : Int
  text : Str
deriving DecidableEq, Repr

/-- `LEVELS(const LEVELS&)`, /repo/src/g3log/loglevels.hpp:36-38: the text goes through `c_str()`. -/
def Level.copy (l : Level) : Level := { value := l.value, text := cstr l.text }

/-- /repo/src/g3log/loglevels.hpp:89,96 -/
def DEBUG : Level := ⟨100, "DEBUG".toList⟩
/-- /repo/src/g3log/loglevels.hpp:90,97 -/
def INFO : Level := ⟨300, "INFO".toList⟩
/-- /repo/src/g3log/loglevels.hpp:91,98 -/
def WARNING : Level := ⟨500, "WARNING".toList⟩
/-- /repo/src/g3log/loglevels.hpp:92,99 -/
def FATAL : Level := ⟨1000, "FATAL".toList⟩
/-- /repo/src/g3log/loglevels.hpp:93,136 -/
def CONTRACT : Level := ⟨2000, "CONTRACT".toList⟩
/-- /repo/src/g3log/loglevels.hpp:137 -/
def FATAL_SIGNAL : Level := ⟨2000 + 1, "FATAL_SIGNAL".toList⟩
/-- /repo/src/g3log/loglevels.hpp:138 -/
def FATAL_EXCEPTION : Level := ⟨2000 + 2, "FATAL_EXCEPTION".toList⟩

/-- `internal::wasFatal`, /repo/src/loglevels.cpp:16-18. -/
def wasFatal (l : Level) : Bool := decide (l.value ≥ FATAL.value)

/-- `struct LoggingLevel`, /repo/src/g3log/loglevels.hpp:103-131. The atomic is modelled by its value:
each registry operation is atomic in this model (the header allows changes only in a single-threaded
context, loglevels.hpp:146). -/
structure LoggingLevel where
  status : Bool
  level : Level
deriving DecidableEq, Repr

/-- `LoggingLevel(const LEVELS&, bool)`, loglevels.hpp:117-119 (the level is copied by `LEVELS`'
copy constructor). -/
def LoggingLevel.mk' (l : Level) (enabled : Bool) : LoggingLevel := ⟨enabled, l.copy⟩

/-- `LoggingLevel()`, loglevels.hpp:108-110. -/
def LoggingLevel.default : LoggingLevel := ⟨false, INFO.copy⟩

/-- `std::map<int, LoggingLevel>`: association list kept in ascending key order. -/
abbrev Registry := List (Int × LoggingLevel)

/-- `std::map::find` ([associative.reqmts]). -/
def Registry.find? (k : Int) : Registry → Option LoggingLevel
  | [] => none
  | (k', v) :: r => if k = k' then some v else Registry.find? k r

/-- `map[k] = v` ([map.access]): overwrite or insert, keeping the keys ascending. -/
def Registry.insert (k : Int) (v : LoggingLevel) : Registry → Registry
  | [] => [(k, v)]
  | (k', v') :: r =>
    if k < k' then (k, v) :: (k', v') :: r
    else if k = k' then (k, v) :: r
    else (k', v') :: Registry.insert k v r

/-- `g_log_level_defaults`, /repo/src/loglevels.cpp:21-25 -/
def defaultLevels : Registry :=
  [(DEBUG.value, LoggingLevel.mk' DEBUG true), (INFO.value, LoggingLevel.mk' INFO true),
   (WARNING.value, LoggingLevel.mk' WARNING true), (FATAL.value, LoggingLevel.mk' FATAL true)]

/-- `addLogLevel(lvl, enabled)`, /repo/src/loglevels.cpp:34-37. -/
def addLogLevel (l : Level) (enabled : Bool) (r : Registry) : Registry :=
  r.insert l.value (LoggingLevel.mk' l enabled)

/-- `addLogLevel(level)`, /repo/src/loglevels.cpp:39-41. -/
def addLogLevel1 (l : Level) (r : Registry) : Registry := addLogLevel l true r

/-- `reset()`, /repo/src/loglevels.cpp:43-45. -/
def resetLevels (_ : Registry) : Registry := defaultLevels

/-- `log_levels::set`, /repo/src/loglevels.cpp:63-68. -/
def setLevel (l : Level) (enabled : Bool) (r : Registry) : Registry :=
  match r.find? l.value with
  | some _ => r.insert l.value (LoggingLevel.mk' l enabled)
  | none => r

/-- `log_levels::disable`, /repo/src/loglevels.cpp:70-72. -/
def disable (l : Level) (r : Registry) : Registry := setLevel l false r

/-- `log_levels::enable`, /repo/src/loglevels.cpp:74-76. -/
def enable (l : Level) (r : Registry) : Registry := setLevel l true r

/-- The loop of `setHighest`, /repo/src/loglevels.cpp:53-59. The C++ range-for walks the live map in key
order and reads the current `v.second.level` at each node; neither `set` nor the loop inserts or erases
nodes, so walking the list of keys and looking each one up in the current map is the same walk. -/
def setHighestLoop (t : Int) : List Int → Registry → Registry
  | [], r => r
  | k :: ks, r =>
    match r.find? k with
    | none => setHighestLoop t ks r
    | some v => setHighestLoop t ks (if k < t then disable v.level r else enable v.level r)

/-- `log_levels::setHighest`, /repo/src/loglevels.cpp:50-61. -/
def setHighest (l : Level) (r : Registry) : Registry :=
  match r.find? l.value with
  | some _ => setHighestLoop l.value (r.map Prod.fst) r
  | none => r

/-- `log_levels::disableAll`, /repo/src/loglevels.cpp:78-82. -/
def disableAll (r : Registry) : Registry := r.map fun p => (p.1, { p.2 with status := false })

/-- `log_levels::enableAll`, /repo/src/loglevels.cpp:84-88. -/
def enableAll (r : Registry) : Registry := r.map fun p => (p.1, { p.2 with status := true })

/-- `std::to_string(bool)`: `bool` promotes to `int`. -/
def decBool (b : Bool) : Str := if b then ['1'] else ['0']

/-- `log_levels::to_string(map)`, /repo/src/loglevels.cpp:90-96. -/
def levelsToString (r : Registry) : Str :=
  r.foldl (fun acc p => acc ++ ("name: ".toList ++ p.2.level.text ++ " level: ".toList ++ decInt p.1
    ++ " status: ".toList ++ decBool p.2.status ++ "\n".toList)) []

/-- `enum class status`, /repo/src/g3log/loglevels.hpp:185-187. -/
inductive LevelStatus | absent | enabled | disabled
deriving DecidableEq, Repr

/-- `log_levels::getStatus`, /repo/src/loglevels.cpp:107-114. -/
def getStatus (l : Level) (r : Registry) : LevelStatus :=
  match r.find? l.value with
  | none => .absent
  | some v => if v.status then .enabled else .disabled

/-- `g3::logLevel` with G3_DYNAMIC_LOGGING, /repo/src/loglevels.cpp:119-123: `operator[]` inserts a
default-constructed entry for an absent key. -/
def logLevel (l : Level) (r : Registry) : Bool × Registry :=
  match r.find? l.value with
  | some v => (v.status, r)
  | none => (LoggingLevel.default.status, r.insert l.value LoggingLevel.default)

/-- `g3::logLevel` without G3_DYNAMIC_LOGGING, /repo/src/loglevels.cpp:124-126. -/
def logLevelStatic (_ : Level) : Bool := true

/-- The calls a program can make on the level registry (API of loglevels.hpp:145-189 and `logLevel`). -/
inductive LevelOp
  | add (l : Level) (enabled : Bool)
  | add1 (l : Level)
  | reset
  | setHighest (l : Level)
  | set (l : Level) (enabled : Bool)
  | disable (l : Level)
  | enable (l : Level)
  | disableAll
  | enableAll
  | getStatus (l : Level)
  | logLevel (l : Level)
deriving DecidableEq, Repr

/-- What a registry call returns to its caller. -/
inductive LevelOut
  | unit
  | status (s : LevelStatus)
  | bool (b : Bool)
deriving DecidableEq, Repr

/-- Dispatch of one call to the functions above (/repo/src/loglevels.cpp:34-127). -/
def levelStep (r : Registry) : LevelOp → LevelOut × Registry
  | .add l b => (.unit, addLogLevel l b r)
  | .add1 l => (.unit, addLogLevel1 l r)
  | .reset => (.unit, resetLevels r)
  | .setHighest l => (.unit, G3.setHighest l r)
  | .set l b => (.unit, setLevel l b r)
  | .disable l => (.unit, G3.disable l r)
  | .enable l => (.unit, G3.enable l r)
  | .disableAll => (.unit, G3.disableAll r)
  | .enableAll => (.unit, G3.enableAll r)
  | .getStatus l => (.status (G3.getStatus l r), r)
  | .logLevel l => (.bool (G3.logLevel l r).1, (G3.logLevel l r).2)

/-- A history of calls; outputs in call order. -/
def levelRun (r : Registry) : List LevelOp → List LevelOut × Registry
  | [] => ([], r)
  | o :: os =>
    let (out, r') := levelStep r o
    let (outs, r'') := levelRun r' os
    (out :: outs, r'')

end G3
