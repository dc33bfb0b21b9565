import Verif.Model.Capture
import Verif.Model.CrashText
/-
Model of /repo/src/g3log.cpp: the global state of the logger, `initializeLogging`, the shut-down functions,
`pushMessageToLogger` and the fatal path up to the hand-over to the worker; and of the text added by
`LogWorkerImpl::bgFatal` in /repo/src/logworker.cpp.

Here every call runs without interruption (the interleaving of LOG with shut-down is in
`Verif.Model.Race`). Workers are numbered; `none` stands for a null pointer.
-/
namespace G3

/-- What a pre-fatal hook does, step by step. Hooks that install further hooks are allowed. -/
inductive Act
  | log (m : LogMessage)                                -- LOG(...) at a non-fatal level
  | fatal (m : LogMessage) (trace : Str) (signal : Int) -- LOG(FATAL), CHECK, fatal signal
  | setHook (id : Nat) (acts : List Act)
  | throws                                              -- leaves by an exception

/-- `std::function<void()>` hooks: an identity and a behaviour. -/
structure Hook where
  id : Nat
  acts : List Act

/-- `g_pre_fatal_hook_that_does_nothing`, g3log.cpp:43; identity 0 is reserved for it. -/
def nothingHook : Hook := ⟨0, []⟩

/-- `g_fatal_to_g3logworker_function_ptr`, g3log.cpp:98: the library's function or a user's, which returns or
leaves by an exception (as in the unit tests). -/
inductive ExitHandler
  | default
  | custom (returns : Bool)
deriving DecidableEq, Repr

/-- Globals of g3log.cpp:36-46 and :98, and the function-local static of :166. -/
structure Front where
  installed : Bool                 -- g_initialize_flag has fired
  inst : Option Nat                -- g_logger_instance
  first : Option LogMessage        -- g_first_uninitialized_msg
  setOnce : Bool                   -- g_set_first_uninitialized_flag has fired
  saveOnce : Bool                  -- g_save_first_uninitialized_flag has fired
  hook : Option Hook               -- g_fatal_pre_logging_hook; none: empty std::function
  counter : Nat                    -- g_fatal_hook_recursive_counter
  firstTrace : Option Str          -- first_stack_trace
  handler : ExitHandler

/-- At program start. -/
def Front.start : Front :=
  { installed := false, inst := none, first := none, setOnce := false, saveOnce := false, hook := none, counter := 0,
    firstTrace := none, handler := .default }

/-- Visible effects, in order. -/
inductive Eff
  | install                                   -- installCrashHandler()
  | save (w : Nat) (m : LogMessage)           -- w->save(m)
  | fatal (w : Nat) (m : FatalMessage)        -- w->fatal(m)
  | hook (id : Nat)                           -- a hook is started
  | handler (m : FatalMessage)                -- the user's exit handler is called
  | err (text : Str)                          -- text on stderr

/-- How a call ends. -/
inductive Stat
  | ok
  | thrown                 -- an exception leaves the call
  | badCall                -- std::bad_function_call: the hook was never set
  | exitFailure            -- std::exit(EXIT_FAILURE)
  | exitSignal (n : Int)   -- exitWithDefaultSignalHandler(level, n), see `Verif.Model.Signals`
  | blocked                -- waits for the worker to end the process
  | fuel                   -- the model ran out of fuel (nesting deeper than allowed)
deriving DecidableEq, Repr

/-- Result of a call. -/
abbrev R := Front × List Eff × Stat

/-- `pushMessageToLogger`, g3log.cpp:193-209. -/
def pushMessageToLogger (f : Front) (m : LogMessage) : R :=
  match f.inst with
  | none =>
    if f.setOnce then (f, [], .ok)
    else
      let err := "LOGGER NOT INITIALIZED:\n\t\t".toList ++ m.message
      ({ f with setOnce := true, first := some { m with message := err } }, [.err (err ++ "\n".toList)], .ok)
  | some w => (f, [.save w m], .ok)

/-- Texts that depend on the build: `__FILE__` of g3log.cpp and the pretty name of a function. -/
structure Src where
  file : Str
  warnFunction : Str

/-- `true`/`false` as printed with `std::boolalpha`. -/
def alpha (b : Bool) : Str := if b then "true".toList else "false".toList

/-- The text printed by g3log.cpp:61-66. -/
def illegalInitText (src : Src) (f : Front) (w : Option Nat) : Str :=
  src.file ++ "->".toList ++ "initializeLogging".toList ++ ":62\n".toList ++
    "\tFatal exit due to illegal initialization of g3::LogWorker\n".toList ++
    "\t(due to multiple initializations? : ".toList ++ alpha f.inst.isSome ++
    ", due to nullptr == bgworker? : ".toList ++ alpha w.isNone ++ ")".toList ++ "\n".toList

/-- `initializeLogging`, g3log.cpp:55-83. -/
def initializeLogging (src : Src) (f0 : Front) (w : Option Nat) : R :=
  let e1 : List Eff := if f0.installed then [] else [.install]
  let f := { f0 with installed := true }
  match f.inst, w with
  | none, some w =>
    let e2 : List Eff := if f.saveOnce then [] else match f.first with | some m => [.save w m] | none => []
    let f1 := if f.saveOnce then f else { f with saveOnce := true, first := none }
    ({ f1 with inst := some w, hook := some nothingHook, counter := 0 }, e1 ++ e2, .ok)
  | _, _ => (f, e1 ++ [.err (illegalInitText src f w)], .exitFailure)

/-- `setFatalPreLoggingHook`, g3log.cpp:91-95. -/
def setFatalPreLoggingHook (f : Front) (h : Option Hook) : Front := { f with hook := h }

/-- `setFatalExitHandler`, g3log.cpp:104-106. -/
def setFatalExitHandler (f : Front) (h : ExitHandler) : Front := { f with handler := h }

/-- `isLoggingInitialized`, g3log.cpp:110-112. -/
def isLoggingInitialized (f : Front) : Bool := f.inst.isSome

/-- `shutDownLogging`, g3log.cpp:118-121. -/
def shutDownLogging (f : Front) : Front := { f with inst := none }

/-- The message logged by g3log.cpp:131-134, created at time `now` by thread `tid`. -/
def inactiveWarning (src : Src) (fullName : Bool) (now : Int) (tid : Nat) : LogMessage :=
  { LogMessage.new fullName now tid src.file 131 src.warnFunction WARNING.copy with
    message := "\n\t\tAttempted to shut down logging, but the ID of the Logger is not the one that is active.\n\t\tHaving multiple instances of the g3::LogWorker is likely a BUG\n\t\tEither way, this call to shutDownLogging was ignored\n\t\tTry g3::internal::shutDownLogging() instead".toList }

/-- `shutDownLoggingForActiveOnly`, g3log.cpp:129-139. `warn` is `logLevel(WARNING)` (false only if WARNING is
disabled in a build with dynamic levels); `m` is the message of `inactiveWarning`. The last component is
the returned value. -/
def shutDownLoggingForActiveOnly (warn : Bool) (m : LogMessage) (f : Front) (active : Option Nat) : R × Bool :=
  if f.inst.isSome ∧ active.isSome ∧ active ≠ f.inst then
    (if warn then pushMessageToLogger f m else (f, [], .ok), false)
  else ((shutDownLogging f, [], .ok), true)

/-- `FatalMessage::reason`, /repo/src/logmessage.cpp:189-191. -/
def FatalMessage.reason (m : FatalMessage) : Str := exitReasonName m.base.level m.signal

/-- `pushFatalMessageToLogger`, g3log.cpp:216-230. After the hand-over the caller waits until the worker ends
the process. -/
def pushFatalMessageToLogger (E : Env) (f : Front) (m : FatalMessage) : R :=
  match f.inst with
  | none => (f, [.err ("FATAL CALL but logger is NOT initialized\n".toList ++ "CAUSE: ".toList ++ m.reason ++
      "\nMessage: \n".toList ++ (toStringDefault E m.base).1)], .exitSignal m.signal)
  | some w => (f, [.fatal w m], .blocked)

/-- `fatalCall`, g3log.cpp:237-239. -/
def fatalCall (E : Env) (f : Front) (m : FatalMessage) : R :=
  match f.handler with
  | .default => pushFatalMessageToLogger E f m
  | .custom returns => (f, [.handler m], if returns then .ok else .thrown)

/-- The steps of a hook; `ev` is what a fatal event inside it does. Stops at the first step that does not
return normally. -/
def runActs (ev : Front → LogMessage → Str → Int → R) : Front → List Act → R
  | f, [] => (f, [], .ok)
  | f, .log m :: rest =>
    let r := pushMessageToLogger f m
    let r' := runActs ev r.1 rest
    (r'.1, r.2.1 ++ r'.2.1, r'.2.2)
  | f, .setHook id acts :: rest => runActs ev (setFatalPreLoggingHook f (some ⟨id, acts⟩)) rest
  | f, .throws :: _ => (f, [], .thrown)
  | f, .fatal m tr n :: rest =>
    let r := ev f m tr n
    if r.2.2 = .ok then
      let r' := runActs ev r.1 rest
      (r'.1, r.2.1 ++ r'.2.1, r'.2.2)
    else r

/-- The text added after a recursive crash, g3log.cpp:171-176. -/
def recursiveText (first : Str) : Str :=
  "\n\n\nWARNING\nA recursive crash detected. It is likely the hook set with 'setFatalPreLoggingHook(...)' is responsible\n\n".toList ++
    "---First crash stacktrace: ".toList ++ first ++ "\n---End of first stacktrace\n".toList

/-- `saveFatalMessage`, g3log.cpp:157-184. The first argument bounds the depth of fatal events within hooks. -/
def saveFatalMessage (E : Env) : Nat → Front → LogMessage → Str → Int → R
  | 0, f, _, _, _ => (f, [], .fuel)
  | depth + 1, f, m, trace, sig =>
    let fatalhook := f.hook
    let f1 := setFatalPreLoggingHook f (some nothingHook)
    let f2 := { f1 with counter := f1.counter + 1 }
    let first := match f2.firstTrace with | some t => t | none => trace
    let f3 := { f2 with firstTrace := some first }
    match fatalhook with
    | none => (f3, [], .badCall)
    | some h =>
      let r := runActs (saveFatalMessage E depth) f3 h.acts
      if r.2.2 = .ok then
        let m1 := { m with message := m.message ++ trace }
        let m2 := if r.1.counter > 1 then { m1 with message := m1.message ++ recursiveText first } else m1
        let r' := fatalCall E r.1 (FatalMessage.new m2 sig)
        (r'.1, .hook h.id :: r.2.1 ++ r'.2.1, r'.2.2)
      else (r.1, .hook h.id :: r.2.1, r.2.2)

/-- What a program does with the front end, one call after the other. -/
inductive FOp
  | log (m : LogMessage)
  | init (w : Option Nat)
  | shutdown
  | shutdownActive (warn : Bool) (warning : LogMessage) (w : Option Nat)
  | setHook (h : Hook)
  | setHandler (h : ExitHandler)
  | fatal (m : LogMessage) (trace : Str) (signal : Int)

/-- One call. -/
def fStep (E : Env) (src : Src) (depth : Nat) (f : Front) : FOp → R
  | .log m => pushMessageToLogger f m
  | .init w => initializeLogging src f w
  | .shutdown => (shutDownLogging f, [], .ok)
  | .shutdownActive warn m w => (shutDownLoggingForActiveOnly warn m f w).1
  | .setHook h => (setFatalPreLoggingHook f (some h), [], .ok)
  | .setHandler h => (setFatalExitHandler f h, [], .ok)
  | .fatal m t n => saveFatalMessage E depth f m t n

/-- Does the program go on after this? An exception is assumed to be caught. -/
def Stat.goesOn : Stat → Bool
  | .ok => true
  | .thrown => true
  | .badCall => true
  | _ => false

/-- A sequence of calls, up to the end of the program. -/
def fRun (E : Env) (src : Src) (depth : Nat) (f : Front) : List FOp → R
  | [] => (f, [], .ok)
  | op :: ops =>
    let r := fStep E src depth f op
    if r.2.2.goesOn then
      let r' := fRun E src depth r.1 ops
      (r'.1, r.2.1 ++ r'.2.1, r'.2.2)
    else r

/-- The message as changed by `LogWorkerImpl::bgFatal`, /repo/src/logworker.cpp:43-53. -/
def bgFatalMessage (m : FatalMessage) : LogMessage :=
  let reason := m.reason
  let b := m.base
  let b1 := { b with message := b.message ++ "\nExiting after fatal event  (".toList ++ b.level.text }
  let exiting := "Fatal type: ".toList
  { b1 with message := b1.message ++ "). ".toList ++ exiting ++ " ".toList ++ reason ++
      "\nLog content flushed successfully to sink\n\n".toList }

end G3
