/-
The global variables of the library and how its functions use them when several threads call them: /repo/src/g3log.cpp:35-239,
/repo/src/crashhandler_unix.cpp:40-110 and :222-328, /repo/src/logcapture.cpp:29-36 and :78-84, /repo/src/logworker.cpp:38-105. Every function is a program of single accesses, with
the mutexes and once-flags it takes. What the variables hold is modelled as far as it decides which accesses follow: whether there is a logger, whether an early
message is stored, whether the exit handler is the default one, whether a fatal message is in the queue. The level registry is in Verif.Model.LevelThreads.

Simplifications: loops over the signals are one read and one write; the text that goes to std::cerr and the user's code in hooks and handlers are left out; a function that
ends the process, or waits for its end, stops there; the hook's mutex and the mutex of overrideSetupSignals, which are function-local statics, exist from the start.
-/
namespace G3

/-- The functions. -/
inductive GApi
  | log              -- LOG, LOG_IF, a passed CHECK ... at a level that is not fatal
  | logf             -- LOGF ..., with G3_DYNAMIC_MAX_MESSAGE_SIZE
  | fatal            -- LOG(FATAL), a failed CHECK, a fatal signal
  | fatalWork        -- what the worker thread does with a fatal message
  | initialize       -- g3::initializeLogging
  | shutDown         -- g3::internal::shutDownLogging
  | destroy          -- ~LogWorker of the active worker, as far as shutDownLoggingForActiveOnly
  | setHook          -- g3::setFatalPreLoggingHook
  | setHandler       -- g3::setFatalExitHandler
  | setMax           -- g3::only_change_at_initialization::setMaxMessageSize
  | overrideSignals  -- g3::overrideSetupSignals, g3::internal::restoreFatalHandlingToDefault
  | restoreSignal    -- g3::restoreSignalHandler
deriving DecidableEq, Repr

/-- The variables that are not atomic. -/
inductive GVar
  | logger      -- g_logger_instance, g3log.cpp:37
  | first       -- g_first_uninitialized_msg, g3log.cpp:40
  | hook        -- g_fatal_pre_logging_hook, g3log.cpp:44
  | handler     -- g_fatal_to_g3logworker_function_ptr, g3log.cpp:98
  | signals     -- gSignals, crashhandler_unix.cpp:50
  | saved       -- gSavedSigActions, crashhandler_unix.cpp:51
  | maxSize     -- MaxMessageSize, logcapture.cpp:31
  | queue       -- the worker's queue, shared_queue.hpp:28
deriving DecidableEq, Repr

/-- The mutexes. -/
inductive GMutex
  | init        -- g_logging_init_mutex, g3log.cpp:38
  | hook        -- m, g3log.cpp:92
  | signal      -- signalLock, crashhandler_unix.cpp:312
  | queue       -- m_, shared_queue.hpp:29
deriving DecidableEq, Repr

/-- The once-flags. -/
inductive GFlag
  | initialize  -- g_initialize_flag, g3log.cpp:36
  | setFirst    -- g_set_first_uninitialized_flag, g3log.cpp:41
  | saveFirst   -- g_save_first_uninitialized_flag, g3log.cpp:42
  | trace       -- first_stack_trace, g3log.cpp:166
deriving DecidableEq, Repr

/-- A program of accesses. -/
inductive GCode
  | ret
  | stop                                            -- the process ends, or the thread waits for it
  | lock (m : GMutex) (next : GCode)
  | unlock (m : GMutex) (next : GCode)
  | once (f : GFlag) (body after : GCode)           -- call_once; the body ends with `leave`
  | leave (f : GFlag) (next : GCode)
  | read (x : GVar) (next : Bool → GCode)
  | write (x : GVar) (v : Option Bool) (next : GCode)
  | atomic (next : GCode)                           -- access to an atomic variable

/-- `LogWorker::save` and `LogWorker::fatal`, logworker.cpp:101-107, down to the queue, shared_queue.hpp:38-44. -/
def pushCode (fatal : Bool) (next : GCode) : GCode :=
  .lock .queue (.write .queue (if fatal then some true else none) (.unlock .queue next))

/-- `setFatalPreLoggingHook`, g3log.cpp:91-95. -/
def setHookCode (next : GCode) : GCode := .lock .hook (.write .hook none (.unlock .hook next))

/-- `installSignalHandler`, crashhandler_unix.cpp:89-110. -/
def installCode (next : GCode) : GCode := .read .signals fun _ => .write .saved none next

/-- `exitWithDefaultSignalHandler`, crashhandler_unix.cpp:222-243, with restoreSignalHandler, :292-307. -/
def exitCode : GCode := .read .signals fun _ => .write .saved none .stop

/-- `pushMessageToLogger`, g3log.cpp:193-209. -/
def pushMessageCode : GCode :=
  .read .logger fun b =>
    if b then .read .logger fun _ => pushCode false .ret                                                         -- :208
    else .once .setFirst (.write .first (some true) (.read .first fun _ => .leave .setFirst .ret)) .ret          -- :195-204

/-- `shutDownLogging`, g3log.cpp:118-121. -/
def shutDownCode (next : GCode) : GCode := .lock .init (.write .logger (some false) (.unlock .init next))

/-- The functions. -/
def gCode : GApi → GCode
  | .log => pushMessageCode
  | .logf => .read .maxSize fun _ => pushMessageCode                              -- logcapture.cpp:82-84
  | .fatal =>
    -- saveFatalMessage, g3log.cpp:157-184
    .read .hook fun _ => setHookCode (.atomic (.once .trace (.leave .trace (fatalRest)) fatalRest))
  | .fatalWork =>
    -- wait_and_pop, shared_queue.hpp:58-66; if it was the fatal message then bgFatal, logworker.cpp:38-67
    .lock .queue (.read .queue fun b => .write .queue (some false) (.unlock .queue (if b then shutDownCode exitCode else .ret)))
  | .initialize =>
    -- g3log.cpp:55-83
    .once .initialize (installCode (.leave .initialize initRest)) initRest
  | .shutDown => shutDownCode .ret
  | .destroy =>
    -- shutDownLoggingForActiveOnly, g3log.cpp:129-139, when the worker is the active one, or there is none
    .read .logger fun b => if b then .read .logger fun _ => shutDownCode .ret else shutDownCode .ret
  | .setHook => setHookCode .ret
  | .setHandler => .write .handler (some false) .ret                              -- g3log.cpp:104-106
  | .setMax => .write .maxSize none .ret                                          -- logcapture.cpp:33-35
  | .overrideSignals =>
    -- crashhandler_unix.cpp:311-320
    .lock .signal (.read .signals fun _ => .write .saved none (.write .signals none (installCode (.unlock .signal .ret))))
  | .restoreSignal => .write .saved none .ret                                     -- crashhandler_unix.cpp:292-307
where
  /-- g3log.cpp:167-183, then fatalCall, :237-239, and pushFatalMessageToLogger, :216-230 -/
  fatalRest : GCode :=
    .atomic (.read .handler fun d =>
      if d then .read .logger fun b => if b then .read .logger fun _ => pushCode true (.atomic .stop) else exitCode
      else .ret)
  /-- g3log.cpp:59-75 -/
  initRest : GCode :=
    .lock .init (.read .logger fun b =>
      if b then .stop
      else .once .saveFirst
        (.read .first fun m => if m then .write .first (some false) (pushCode false (.leave .saveFirst setLogger)) else .leave .saveFirst setLogger)
        setLogger)
  /-- g3log.cpp:77-82 -/
  setLogger : GCode := .write .logger (some true) (setHookCode (.atomic (.unlock .init .ret)))

/-- What a thread of a program does, as far as it matters here. -/
inductive GItem
  | call (a : GApi)
  | fork (t : Nat)       -- starts thread t
  | join (t : Nat)       -- waits for the end of thread t
deriving DecidableEq, Repr

/-- What happens. -/
inductive GOp
  | lock (m : GMutex)
  | unlock (m : GMutex)
  | enter (f : GFlag)
  | leave (f : GFlag)
  | passed (f : GFlag)      -- call_once returns without calling anything
  | read (x : GVar)
  | write (x : GVar)
  | atomic
  | fork (t : Nat)
  | join (t : Nat)
deriving DecidableEq, Repr

/-- It happens in a thread, in a call. -/
structure GEvent where
  thr : Nat
  api : Option GApi
  op : GOp
deriving DecidableEq, Repr

/-- The state of a once-flag. -/
inductive GOnce
  | free
  | running (t : Nat)
  | done (t : Nat)
deriving DecidableEq, Repr

/-- The state of the program; `tr` is a ghost. -/
structure GState where
  prog : Nat → List GItem                 -- what a thread has still to do
  cur : Nat → Option (GApi × GCode)       -- the rest of the call it is in
  started : Nat → Bool
  owner : GMutex → Option Nat
  flag : GFlag → GOnce
  val : GVar → Bool
  tr : List GEvent

/-- Replace one value of a function. -/
def gSet {A B : Type} [DecidableEq A] (f : A → B) (a : A) (b : B) : A → B := fun x => if x = a then b else f x

/-- Thread `t` makes the next access of the call `a`; `none` if it has to wait. -/
def gExec (s : GState) (t : Nat) (a : GApi) (c : GCode) : Option GState :=
  let go (s : GState) (c : GCode) (o : GOp) : Option GState := some { s with cur := gSet s.cur t (some (a, c)), tr := s.tr ++ [⟨t, some a, o⟩] }
  match c with
  | .ret => some { s with cur := gSet s.cur t none }
  | .stop => none
  | .lock m c => if s.owner m = none then go { s with owner := gSet s.owner m (some t) } c (.lock m) else none
  | .unlock m c => if s.owner m = some t then go { s with owner := gSet s.owner m none } c (.unlock m) else none
  | .once f b c =>
    match s.flag f with
    | .free => go { s with flag := gSet s.flag f (.running t) } b (.enter f)
    | .running _ => none
    | .done _ => go s c (.passed f)
  | .leave f c => if s.flag f = .running t then go { s with flag := gSet s.flag f (.done t) } c (.leave f) else none
  | .read x c => go s (c (s.val x)) (.read x)
  | .write x v c => go { s with val := gSet s.val x (v.getD (s.val x)) } c (.write x)
  | .atomic c => go s c .atomic

/-- Thread `t` makes a step. -/
def gStep (s : GState) (t : Nat) : Option GState :=
  if s.started t = false then none else
  match s.cur t with
  | some (a, c) => gExec s t a c
  | none =>
    match s.prog t with
    | [] => none
    | .call a :: r => some { s with cur := gSet s.cur t (some (a, gCode a)), prog := gSet s.prog t r }
    | .fork u :: r =>
      if s.started u then none
      else some { s with started := gSet s.started u true, prog := gSet s.prog t r, tr := s.tr ++ [⟨t, none, .fork u⟩] }
    | .join u :: r =>
      if s.started u = true ∧ s.prog u = [] ∧ s.cur u = none then
        some { s with prog := gSet s.prog t r, tr := s.tr ++ [⟨t, none, .join u⟩] }
      else none

/-- A schedule. -/
def gRun (s : GState) : List Nat → Option GState
  | [] => some s
  | t :: ts => (gStep s t).bind (gRun · ts)

/-- The program begins, in thread 0. -/
def gStart (p : Nat → List GItem) : GState :=
  { prog := p, cur := fun _ => none, started := fun t => t == 0, owner := fun _ => none, flag := fun _ => .free,
    val := fun x => x == .handler, tr := [] }

end G3
