import Verif.Model.Front
import Verif.Model.Levels
/-
LOG and the other functions of the front end called from constructors and destructors of static objects, before `main` and after it.

The library keeps objects with static storage duration that are initialised by code run before `main` ("dynamic initialisation") and destroyed
after it. C++ runs the dynamic initialisation of one source file in the order of definition, leaves the order of the source files to the
linker, and destroys the objects in the opposite order of their construction ([basic.start.dynamic], [basic.start.term]). Using an object
before its constructor has started or after its destructor has run is undefined behaviour ([class.cdtor]); in this model it is the outcome
`ub`. The objects, by source file:
  loglevels.cpp     the constants of /repo/src/g3log/loglevels.hpp:96-99 and :136-138 (`LEVELS` has a `std::string` and a constructor that is not
                    constexpr, loglevels.hpp:32-65; every source file has its own copies), and with G3_DYNAMIC_LOGGING the maps of
                    /repo/src/loglevels.cpp:21-27
  g3log.cpp         its copies of the constants, and the `std::function` objects of /repo/src/g3log.cpp:43-44 and :98
  logmessage.cpp    its copies of the constants, used by /repo/src/logmessage.cpp:87-99
  crashhandler      the maps of /repo/src/crashhandler_unix.cpp:42-51
The other globals of g3log.cpp:36-46 (flags, mutex, pointers, counter) are initialised before any code runs.

Simplifications: Unix; the static objects of the program are constructed by one thread, and what worker and sinks do with a message later is
left out; the streams of the standard library are usable (g3log.hpp does not include <iostream>, so the program has to); function-local
static variables of the library are alive; an exception is caught by the constructor, `main` or destructor that made the call, as in
Model/Front; what destructors do after a call of `exit` by `initializeLogging` itself is left out. Objects constructed while `main` runs
(function-local statics, `atexit`) are the last entries of the start-up list. The library is not unloaded.
-/
namespace G3

/-- The source files of the library with dynamically initialised objects. -/
inductive LibFile
  | loglevels
  | g3log
  | logmessage
  | crashhandler
deriving DecidableEq, Repr

/-- Life of the objects of one source file. -/
inductive Life
  | zero       -- memory only
  | alive
  | dead
deriving DecidableEq, Repr

/-- Parameters: is the library built with G3_DYNAMIC_LOGGING; environment, texts and depth of fatal events as in Model/Front. -/
structure SEnv where
  dyn : Bool
  env : Env
  src : Src
  depth : Nat

/-- State of the program as far as the library is concerned. -/
structure SState where
  life : LibFile → Life
  reg : Registry        -- g_log_levels
  front : Front

/-- Before any code has run. -/
def SState.start : SState := ⟨fun _ => .zero, [], Front.start⟩

/-- Calls of the program. -/
inductive SOp
  | log (m : LogMessage) (trace : Str) (signal : Int)   -- LOG(m.level) << ...
  | init (w : Option Nat)
  | shutdown
  | shutdownActive (warning : LogMessage) (w : Option Nat)
  | setHook (h : Hook)
  | setHandler (h : ExitHandler)
  | level (o : LevelOp)                                  -- functions of loglevels.hpp:145-189

/-- What happens, in order. -/
inductive SEvt
  | up (u : LibFile)      -- the objects of a source file are initialised
  | down (u : LibFile)    -- they are destroyed
  | call (o : SOp)

/-- Result of calls. -/
inductive SOut
  | ub
  | fin (s : SState) (e : List Eff) (st : Stat)

/-- Are the objects of `u` constructed and not destroyed? -/
def SState.alive (s : SState) (u : LibFile) : Bool := decide (s.life u = .alive)

/-- A call of the front end (Model/Front) in this state. -/
def SState.onFront (s : SState) (r : R) : SOut := .fin { s with front := r.1 } r.2.1 r.2.2

/-- Does this result end the process, on the way formatting a fatal message and restoring the signal handlers?
/repo/src/g3log.cpp:216-230, /repo/src/logworker.cpp:41-63 -/
def Stat.endsFatally : Stat → Bool
  | .exitSignal _ => true
  | .blocked => true
  | _ => false

/-- `~LogCapture` and before it the test of the constructor: `wasFatal` reads loglevels.cpp's own FATAL (/repo/src/loglevels.cpp:16-18,
/repo/src/logcapture.cpp:69-73); `saveMessage`, /repo/src/g3log.cpp:148-184, copies and calls the hook (g3log.cpp:44,98); the end of a
fatal event formats the message (/repo/src/logmessage.cpp:78-109) and walks the maps of crashhandler_unix.cpp:42-51 (:222-243). -/
def sCapture (c : SEnv) (s : SState) (m : LogMessage) (trace : Str) (signal : Int) : SOut :=
  if s.alive .loglevels then
    if wasFatal m.level then
      if s.alive .g3log then
        let r := saveFatalMessage c.env c.depth s.front m trace signal
        if r.2.2.endsFatally then if s.alive .logmessage && s.alive .crashhandler then s.onFront r else .ub
        else s.onFront r
      else .ub
    else s.onFront (pushMessageToLogger s.front m)
  else .ub

/-- `LOG(level)`: `logLevel` (/repo/src/loglevels.cpp:119-126), then the capture. -/
def sLog (c : SEnv) (s : SState) (m : LogMessage) (trace : Str) (signal : Int) : SOut :=
  if c.dyn then
    if s.alive .loglevels then
      let a := logLevel m.level s.reg
      if a.1 then sCapture c { s with reg := a.2 } m trace signal else .fin { s with reg := a.2 } [] .ok
    else .ub
  else if logLevelStatic m.level then sCapture c s m trace signal else .fin s [] .ok

/-- `initializeLogging`, /repo/src/g3log.cpp:55-83: the first call goes through the map of signals
(/repo/src/crashhandler_unix.cpp:98-107), a successful one copies one hook over the other (g3log.cpp:79). -/
def sInit (c : SEnv) (s : SState) (w : Option Nat) : SOut :=
  if !s.front.installed && !s.alive .crashhandler then .ub
  else
    let r := initializeLogging c.src s.front w
    if r.2.2 = .ok ∧ s.alive .g3log = false then .ub else s.onFront r

/-- `shutDownLoggingForActiveOnly`, /repo/src/g3log.cpp:129-139: the LOG(WARNING) in it uses g3log.cpp's own WARNING. -/
def sShutActive (c : SEnv) (s : SState) (m : LogMessage) (w : Option Nat) : SOut :=
  if s.front.inst.isSome ∧ w.isSome ∧ w ≠ s.front.inst then
    if s.alive .g3log then sLog c s m [] 6 else .ub
  else s.onFront (shutDownLogging s.front, [], .ok)

/-- One call. -/
def sCall (c : SEnv) (s : SState) : SOp → SOut
  | .log m t n => sLog c s m t n
  | .init w => sInit c s w
  | .shutdown => s.onFront (shutDownLogging s.front, [], .ok)
  | .shutdownActive m w => sShutActive c s m w
  | .setHook h => if s.alive .g3log then s.onFront (setFatalPreLoggingHook s.front (some h), [], .ok) else .ub
  | .setHandler h => if s.alive .g3log then s.onFront (setFatalExitHandler s.front h, [], .ok) else .ub
  | .level o =>
    if c.dyn then
      if s.alive .loglevels then .fin { s with reg := (levelStep s.reg o).2 } [] .ok else .ub
    else .fin s [] .ok

/-- Dynamic initialisation of a source file: /repo/src/loglevels.cpp:21-27 fills the registry, /repo/src/g3log.cpp:44 and :98 write an empty
hook and the library's exit handler. -/
def sUp (s : SState) (u : LibFile) : SState :=
  { life := fun v => if v = u then .alive else s.life v
    reg := if u = .loglevels then defaultLevels else s.reg
    front := if u = .g3log then { s.front with hook := none, handler := .default } else s.front }

/-- Destruction. -/
def sDown (s : SState) (u : LibFile) : SState := { s with life := fun v => if v = u then .dead else s.life v }

/-- One event. -/
def sEvt (c : SEnv) (s : SState) : SEvt → SOut
  | .up u => .fin (sUp s u) [] .ok
  | .down u => .fin (sDown s u) [] .ok
  | .call o => sCall c s o

/-- Events one after the other, up to the end of the program. -/
def sExec (c : SEnv) (s : SState) : List SEvt → SOut
  | [] => .fin s [] .ok
  | v :: r =>
    match sEvt c s v with
    | .ub => .ub
    | .fin s' e st =>
      if st.goesOn then
        match sExec c s' r with
        | .ub => .ub
        | .fin s'' e' st' => .fin s'' (e ++ e') st'
      else .fin s' e st

/-- An entry of the start-up list: a source file of the library, or a static object of the program with the calls of its constructor and
destructor. -/
inductive Start
  | lib (u : LibFile)
  | obj (ctor dtor : List SOp)

/-- A program: the order of construction, which the linker chooses, and the calls of `main`. -/
structure SProg where
  startup : List Start
  main : List SOp

/-- What construction of an entry does. -/
def Start.construct : Start → List SEvt
  | .lib u => [.up u]
  | .obj ctor _ => ctor.map .call

/-- What its destruction does. -/
def Start.destruct : Start → List SEvt
  | .lib u => [.down u]
  | .obj _ dtor => dtor.map .call

/-- Construction in order, `main`, destruction in the opposite order ([basic.start.term]). -/
def SProg.events (p : SProg) : List SEvt :=
  p.startup.flatMap Start.construct ++ p.main.map .call ++ p.startup.reverse.flatMap Start.destruct

/-- The whole program. -/
def SProg.run (c : SEnv) (p : SProg) : SOut := sExec c SState.start p.events

/-- LOG in a build without dynamic levels before the objects of loglevels.cpp and g3log.cpp are constructed, on an implementation where their memory
still holds the zeros it got before the program's start ([basic.start.static]) and an all-zero `std::function` is an empty one:
`FATAL.value` reads 0 (loglevels.cpp:16-18); the hook is empty (g3log.cpp:44). -/
def zeroLog (c : SEnv) (f : Front) (m : LogMessage) (trace : Str) (signal : Int) : R :=
  if m.level.value ≥ 0 then saveFatalMessage c.env c.depth { f with hook := none } m trace signal else pushMessageToLogger f m

end G3
