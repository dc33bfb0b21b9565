import Verif.Model.Resources
import Verif.Model.Front
/-
Fatal statements and calls through a handle when requests for memory fail: /repo/src/logcapture.cpp:43-73, /repo/src/g3log.cpp:76-95, 143-184, 216-239, /repo/src/logworker.cpp:38-68 and 105-107,
/repo/src/g3log/sinkhandle.hpp:38-49, /repo/src/g3log/sink.hpp:70-73, /repo/src/g3log/future.hpp:43-59.

As in Model/Resources a request stands for everything one expression asks for, and one thread uses the library while the worker and the sinks deal with what they get at once. The hook of the client does not fail. The hook
that does nothing needs no memory (g3log.cpp:43), nor does `make_exception_ptr` (it is `noexcept`). A message is its text; `fmt` gives the text of `toString`. `exitWithDefaultSignalHandler` needs no memory. What the
program does with the exception is its own business; `initializeLogging` without memory is Model/InitRetry.
-/
namespace G3

/-- How something ends. -/
inductive FmOut
  | ok
  | threw (e : RErr)
  | terminated              -- std::terminate
  | ended (signal : Int)    -- by exitWithDefaultSignalHandler
deriving DecidableEq, Repr

/-- State. -/
structure FmState where
  sc : ScState
  inited : Bool                       -- `g_logger_instance` is set
  hook : Option Nat                   -- `g_fatal_pre_logging_hook`; none: the one that does nothing
  count : Nat                         -- `g_fatal_hook_recursive_counter`
  first : Option Str                  -- `first_stack_trace`, g3log.cpp:166
  hooked : List Nat                   -- hooks that have been called
  cerr : List Str                     -- reports on stderr
  calls : List (Nat × Str)            -- calls made on sinks
  futures : List (Option (Nat × Str)) -- what the futures returned by `call` hold: the result of a call, or `bad_weak_ptr`

/-- Nothing has happened yet. -/
def FmState.start : FmState := ⟨.start, false, none, 0, none, [], [], [], []⟩

/-- A fatal statement: the text streamed into it, the stack dump with its heading, the text of the level, the reason, the signal, the formatting of the message. -/
structure Deadly where
  text : Str
  trace : Str
  level : Str
  reason : Str
  signal : Int
  fmt : Str → Str

/-- Something that can fail. -/
abbrev Fm := Supply → FmState → FmOut × FmState

/-- One after the other. -/
def Fm.seq (x y : Fm) : Fm := fun σ s =>
  match x σ s with
  | (.ok, s') => y σ s'
  | r => r

@[inherit_doc] infixr:60 " ⨠ " => Fm.seq

/-- No failure possible. -/
def Fm.modify (f : FmState → FmState) : Fm := fun _ s => (.ok, f s)

/-- What Model/Resources describes. -/
def Fm.lift (x : Sc) : Fm := fun σ s =>
  match x σ s.sc with
  | (.ok, c) => (.ok, { s with sc := c })
  | (.threw e, c) => (.threw e, { s with sc := c })
  | (.terminated, c) => (.terminated, { s with sc := c })

/-- A request for memory. -/
def Fm.mem : Fm := Fm.lift Sc.mem

/-- `exitWithDefaultSignalHandler`. -/
def Fm.exit (n : Int) : Fm := fun _ s => (.ended n, s)

/-- The function of a thread. -/
def Fm.noexcept (x : Fm) : Fm := fun σ s =>
  match x σ s with
  | (.threw _, s') => (.terminated, s')
  | r => r

/-- An exception is on its way and `d` is done while the stack is unwound. -/
def Fm.during (e : RErr) (d : Fm) : Fm := fun σ s =>
  match d σ s with
  | (.ok, s') => (.threw e, s')
  | (.threw _, s') => (.terminated, s')
  | r => r

/-- `bgFatal`, logworker.cpp:38-68: logging is shut down; the reason, the text, `toString` for stderr; the message for each sink; the sinks are destroyed; the end. -/
def bgFatalR (d : Deadly) (t : Str) : Fm :=
  let t' := t ++ "\nExiting after fatal event  (".toList ++ d.level ++ "). ".toList ++ "Fatal type: ".toList ++ " ".toList ++ d.reason ++ "\nLog content flushed successfully to sink\n\n".toList
  (Fm.modify fun s => { s with inited := false }) ⨠                                  -- :41
    Fm.mem ⨠ Fm.mem ⨠ Fm.mem ⨠                                                       -- :43, :48-53, :55
    (Fm.modify fun s => { s with cerr := s.cerr ++ [d.fmt t'] }) ⨠
    (fun σ s => Fm.lift (sendAllR t' s.sc.att) σ s) ⨠                                -- :56-59
    (fun σ s => Fm.lift (clearSinks s.sc.att) σ s) ⨠                                 -- :63
    Fm.exit d.signal                                                                 -- :64

/-- The stream of g3log.cpp:218-223: what does not fit is lost. -/
def orphanText (σ : Supply) (s : FmState) (d : Deadly) (t : Str) : Str :=
  inserted σ s.sc ("FATAL CALL but logger is NOT initialized\nCAUSE: ".toList ++ d.reason ++ "\nMessage: \n".toList ++ d.fmt t)

/-- `pushFatalMessageToLogger`, g3log.cpp:216-230, with `LogWorker::fatal`, logworker.cpp:105-107: the calling thread sleeps until the worker has ended the process. -/
def pushFatalR (d : Deadly) (t : Str) : Fm := fun σ s =>
  if s.inited then (Fm.mem ⨠ (bgFatalR d t).noexcept) σ s
  else (Fm.mem ⨠ fun σ s =>                                                          -- `reason()` and `toString()`
    let e := orphanText σ s d t
    (Fm.mem ⨠ (Fm.modify fun s => { s with cerr := s.cerr ++ [e] }) ⨠ Fm.exit d.signal) σ { s with sc := { s.sc with req := s.sc.req + 1 } }) σ s

/-- `static const std::string first_stack_trace`, g3log.cpp:166: an initialisation that throws is tried again the next time. -/
def keepFirst (trace : Str) : Fm := fun σ s =>
  match s.first with
  | some _ => (.ok, s)
  | none => (Fm.mem ⨠ Fm.modify fun s => { s with first := some trace }) σ s

/-- `fatalhook()`, g3log.cpp:167. -/
def callHook (h : Option Nat) : Fm := Fm.modify fun s =>
  match h with
  | none => s
  | some i => { s with hooked := s.hooked ++ [i] }

/-- `saveFatalMessage`, g3log.cpp:157-184: the copy of the hook; the hook is replaced, the counter goes up; the first stack trace; the hook is called; the text; `FatalMessage`. -/
def saveFatalR (d : Deadly) (t : Str) : Fm := Fm.mem ⨠ fun σ s =>                     -- :158
  ((Fm.modify fun s => { s with hook := none, count := s.count + 1 }) ⨠              -- :161-162
    keepFirst d.trace ⨠ callHook s.hook ⨠                                             -- :166-167
    Fm.mem ⨠ fun σ s =>                                                               -- :168
      if s.count > 1 then
        (Fm.mem ⨠ Fm.mem ⨠ pushFatalR d (t ++ d.trace ++ recursiveText (s.first.getD []))) σ s  -- :170-177, :178, :183
      else (Fm.mem ⨠ pushFatalR d (t ++ d.trace)) σ s) σ s                            -- :178, :183

/-- `~LogCapture` with `saveMessage`, logcapture.cpp:43-47, g3log.cpp:143-155: the message, then what a fatal level asks for. -/
def saveDeadly (d : Deadly) (t : Str) : Fm := Fm.mem ⨠ saveFatalR d t

/-- `LOG(FATAL) << text` or a failed `CHECK`, possibly with an argument whose operator throws: the members of the `LogCapture` and its stack dump (logcapture.cpp:62-73), its stream, its destructor. -/
def fatalR (d : Deadly) (throws : Bool) : Fm := Fm.mem ⨠ Fm.mem ⨠ fun σ s =>
  let t := inserted σ s.sc d.text
  let s' := { s with sc := { s.sc with req := s.sc.req + 1 } }
  if throws then (saveDeadly d t).during .user σ s' else saveDeadly d t σ s'

/-- `SinkHandle::call`, sinkhandle.hpp:38-49, and waiting for the call: the task and its place in the queue of the sink; or, if there is no sink, a promise. -/
def callR (i : Nat) (a : Str) : Fm := fun σ s =>
  if i ∈ s.sc.live then
    (Fm.mem ⨠ Fm.mem ⨠ Fm.modify fun s => { s with calls := s.calls ++ [(i, a)], futures := s.futures ++ [some (i, a)] }) σ s
  else (Fm.mem ⨠ Fm.modify fun s => { s with futures := s.futures ++ [none] }) σ s

/-- `setFatalPreLoggingHook`, g3log.cpp:91-95. -/
def setHookR (h : Nat) : Fm := Fm.mem ⨠ Fm.modify fun s => { s with hook := some h }

/-- What a client can do. -/
inductive FmOp
  | base (o : ROp)
  | init
  | shutdown
  | setHook (h : Nat)
  | call (i : Nat) (a : Str)
  | fatal (d : Deadly) (throws : Bool)

/-- Is it possible now? The text of a LOG that is not fatal goes to the worker only if logging is initialised (else C10). -/
def FmOp.allowed (s : FmState) : FmOp → Bool
  | .base (.log t b) => s.inited && (ROp.log t b).allowed s.sc
  | .base o => o.allowed s.sc
  | .init => s.sc.worker && !s.inited
  | .call i _ => decide (i ∈ s.sc.handles)
  | _ => true

/-- One of them. `initializeLogging`: g3log.cpp:77-82; `~LogWorker` ends logging. -/
def FmOp.exec : FmOp → Fm
  | .base .destroy => Fm.lift destroyWorker ⨠ Fm.modify fun s => { s with inited := false }
  | .base o => Fm.lift o.exec
  | .init => Fm.modify fun s => { s with inited := true, hook := none, count := 0 }
  | .shutdown => Fm.modify fun s => { s with inited := false }
  | .setHook h => setHookR h
  | .call i a => callR i a
  | .fatal d b => fatalR d b

/-- Is this the end of the process? -/
def FmOut.over : FmOut → Bool
  | .terminated => true
  | .ended _ => true
  | _ => false

/-- A program that catches all exceptions; what is not allowed is not done. -/
def fmRun (σ : Supply) (s : FmState) : List FmOp → List FmOut × FmState
  | [] => ([], s)
  | o :: ops =>
    if o.allowed s then
      let r := o.exec σ s
      if r.1.over then ([r.1], r.2) else (r.1 :: (fmRun σ r.2 ops).1, (fmRun σ r.2 ops).2)
    else fmRun σ s ops

end G3
