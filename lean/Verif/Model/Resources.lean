import Verif.Model.Str
/-
Requests for memory and threads that fail: /repo/src/g3log/active.hpp:28-67, /repo/src/g3log/sink.hpp:43-69, /repo/src/g3log/logworker.hpp:89-131,
/repo/src/g3log/future.hpp:43-59, /repo/src/logworker.cpp:20-37 and 70-119, /repo/src/logcapture.cpp:43-73, /repo/src/g3log.cpp:143-155, 193-209.

A request stands for everything one expression asks for: if it fails, with `std::bad_alloc` or `std::system_error`, the expression has no effect. Exceptions unwind the
stack: objects that exist are destroyed; destructors do not throw (they are implicitly `noexcept`), an exception that would leave one, or the function of a thread, ends
the process by `std::terminate`. One thread uses the library; the worker thread and the threads of the sinks deal with what they get at once (calls that wait for them
are as if they ran on the calling thread, and the order of LOG is that of C02). Clients hold handles but no `shared_ptr` to a sink. Sinks of clients do not fail themselves.
What fails in the stream of a LOG is swallowed by the stream, which ignores everything from there on. The warning of `~LogWorker` for a worker that is not active is not modelled,
nor are the texts on stderr.
-/
namespace G3

/-- Exceptions. -/
inductive RErr
  | badAlloc
  | systemError
  | user            -- thrown by an argument of LOG
deriving DecidableEq, Repr

/-- How something ends. -/
inductive ROut
  | ok
  | threw (e : RErr)
  | terminated
deriving DecidableEq, Repr

/-- The system: does the n-th request succeed, and how much of a text fits before the request of its insertion fails. -/
structure Supply where
  ok : Nat → Bool
  cut : Nat → Nat

/-- State. -/
structure ScState where
  req : Nat                    -- requests made so far
  worker : Bool                -- there is a LogWorker
  threads : Nat                -- threads started by the library that run
  live : List Nat              -- sinks (logworker.hpp:91) that exist
  att : List Nat               -- `_sinks`
  handles : List Nat           -- handles that clients have
  made : Nat                   -- sinks of clients given to addSink so far
  gone : List Nat              -- sinks of clients that have been destroyed
  got : List (Nat × Str)       -- what the sinks have received

/-- Nothing has happened yet. -/
def ScState.start : ScState := ⟨0, false, 0, [], [], [], 0, [], []⟩

/-- Something that can fail. -/
abbrev Sc := Supply → ScState → ROut × ScState

/-- One after the other. -/
def Sc.seq (x y : Sc) : Sc := fun σ s =>
  match x σ s with
  | (.ok, s') => y σ s'
  | r => r

@[inherit_doc] infixr:60 " ⨟ " => Sc.seq

/-- No failure possible. -/
def Sc.modify (f : ScState → ScState) : Sc := fun _ s => (.ok, f s)

/-- `throw`. -/
def Sc.raise (e : RErr) : Sc := fun _ s => (.threw e, s)

/-- A request for memory. -/
def Sc.mem : Sc := fun σ s => if σ.ok s.req then (.ok, { s with req := s.req + 1 }) else (.threw .badAlloc, { s with req := s.req + 1 })

/-- `std::thread`. -/
def Sc.newThread : Sc := fun σ s =>
  if σ.ok s.req then (.ok, { s with req := s.req + 1, threads := s.threads + 1 }) else (.threw .systemError, { s with req := s.req + 1 })

/-- A destructor, or the function of a thread. -/
def Sc.noexcept (x : Sc) : Sc := fun σ s =>
  match x σ s with
  | (.threw _, s') => (.terminated, s')
  | r => r

/-- If `x` throws, `d` is done while the stack is unwound. -/
def Sc.unwind (x d : Sc) : Sc := fun σ s =>
  match x σ s with
  | (.threw e, s') =>
    match d σ s' with
    | (.ok, s'') => (.threw e, s'')
    | (_, s'') => (.terminated, s'')
  | r => r

/-- A local object: `d` is done at the end in any case. -/
def Sc.scope (x d : Sc) : Sc := x.unwind d ⨟ d

/-- What `std::packaged_task` does with an exception: it goes into the future. -/
def Sc.packaged (x : Sc) : Sc := fun σ s =>
  match x σ s with
  | (.threw _, s') => (.ok, s')
  | r => r

/-- `~Active`, active.hpp:50-53; `join` of a thread that was never started throws. -/
def activeDtor (started : Bool) : Sc :=
  (Sc.mem ⨟ if started then Sc.modify fun s => { s with threads := s.threads - 1 } else Sc.raise .systemError).noexcept

/-- `createActive`, active.hpp:60-64: when the thread cannot be started the `unique_ptr` destroys the object. -/
def createActive : Sc := Sc.mem ⨟ Sc.newThread.unwind (activeDtor false)

/-- The constructors of `Sink`, sink.hpp:43-58: if the last member cannot be made the active object is destroyed. -/
def sinkCtor : Sc := createActive ⨟ Sc.mem.unwind (activeDtor true)

/-- The sink of the client is destroyed with its `unique_ptr`. -/
def destroyReal (i : Nat) : Sc := Sc.modify fun s => { s with gone := s.gone ++ [i] }

/-- `~Sink`, sink.hpp:60-62. -/
def sinkDtor (i : Nat) : Sc := activeDtor true ⨟ Sc.modify fun s => { s with live := s.live.erase i, gone := s.gone ++ [i] }

/-- A `shared_ptr` to sink `i` that is not in `_sinks` goes out of scope. -/
def dropSink (i : Nat) : Sc := fun σ s => if i ∈ s.att then (.ok, s) else sinkDtor i σ s

/-- `spawn_task`, future.hpp:43-59, and waiting for it: the task, then its place in the queue. -/
def spawnTask (body : Sc) : Sc := Sc.mem ⨟ Sc.mem ⨟ body.packaged

/-- `createLogWorker`, logworker.cpp:20-21 and 117-119. -/
def createWorker : Sc := Sc.mem ⨟ createActive ⨟ Sc.modify fun s => { s with worker := true }

/-- `addSink`, logworker.hpp:89-95, with `addWrappedSink`, logworker.cpp:109-115. -/
def addSinkR : Sc := fun σ s =>
  let i := s.made
  ((Sc.modify fun s => { s with made := s.made + 1 }) ⨟
    (Sc.mem ⨟ sinkCtor).unwind (destroyReal i) ⨟                                                       -- logworker.hpp:92
    (Sc.modify fun s => { s with live := s.live ++ [i] }) ⨟
    (spawnTask (Sc.mem ⨟ Sc.modify fun s => { s with att := s.att ++ [i] }) ⨟                            -- :93
      Sc.mem ⨟ Sc.modify fun s => { s with handles := s.handles ++ [i] }).scope (dropSink i)) σ s        -- :94

/-- `removeSink`, logworker.hpp:101-122: the handle is destroyed with the parameter. -/
def removeSinkR (i : Nat) : Sc :=
  (spawnTask fun σ s => if i ∈ s.att then ((Sc.modify fun s => { s with att := s.att.erase i }) ⨟ dropSink i) σ s else (.ok, s)).scope
    (Sc.modify fun s => { s with handles := s.handles.erase i })

/-- `_sinks.clear()`. -/
def clearSinks : List Nat → Sc
  | [] => Sc.modify id
  | i :: r => (Sc.modify fun s => { s with att := r }) ⨟ sinkDtor i ⨟ clearSinks r

/-- `removeAllSinks`, logworker.hpp:125-131. -/
def removeAllR : Sc := spawnTask fun σ s => clearSinks s.att σ s

/-- `~LogWorker`, logworker.cpp:70-99. -/
def destroyWorker : Sc := (removeAllR ⨟ activeDtor true).noexcept ⨟ Sc.modify fun s => { s with worker := false }

/-- The message for one sink: its copy, logworker.cpp:27, its place in the queue of the sink, :28 with sink.hpp:64-68; then the thread of the sink calls the sink. -/
def sendOne (t : Str) (i : Nat) : Sc := Sc.mem ⨟ Sc.mem ⨟ (Sc.mem ⨟ Sc.modify fun s => { s with got := s.got ++ [(i, t)] }).noexcept

/-- The loop of logworker.cpp:26-29. -/
def sendAllR (t : Str) : List Nat → Sc
  | [] => Sc.modify id
  | i :: r => sendOne t i ⨟ sendAllR t r

/-- `bgSave`, logworker.cpp:23-37; without sinks there is a text for stderr. -/
def bgSaveR (t : Str) : Sc := fun σ s => if s.att = [] then Sc.mem σ s else sendAllR t s.att σ s

/-- `~LogCapture` with `saveMessage` and `save`, logcapture.cpp:43-47, g3log.cpp:143-155 and 208, logworker.cpp:101-103: the message, its place in the queue of the worker; then the worker thread. -/
def saveR (t : Str) : Sc := Sc.mem ⨟ Sc.mem ⨟ (bgSaveR t).noexcept

/-- The text goes into the stream of the `LogCapture`; a failure there is not reported (`exceptions()` of the stream is `goodbit`). -/
def inserted (σ : Supply) (s : ScState) (t : Str) : Str := if σ.ok s.req then t else t.take (σ.cut s.req)

/-- `LOG(level) << text`, level not fatal, and possibly `<< argument` whose operator throws: the `LogCapture`, its stream, its destructor. -/
def logR (t : Str) (throws : Bool) : Sc := Sc.mem ⨟ fun σ s =>
  let t' := inserted σ s t
  let s' := { s with req := s.req + 1 }
  if throws then (Sc.raise .user).unwind (saveR t') σ s' else saveR t' σ s'

/-- What a client can do. -/
inductive ROp
  | create
  | add
  | remove (i : Nat)
  | removeAll
  | destroy
  | log (t : Str) (throws : Bool)
deriving DecidableEq, Repr

/-- Is it possible now? A worker at a time; a handle for `removeSink`. -/
def ROp.allowed (s : ScState) : ROp → Bool
  | .create => !s.worker
  | .remove i => s.worker && decide (i ∈ s.handles)
  | _ => s.worker

/-- One of them. -/
def ROp.exec : ROp → Sc
  | .create => createWorker
  | .add => addSinkR
  | .remove i => removeSinkR i
  | .removeAll => removeAllR
  | .destroy => destroyWorker
  | .log t b => logR t b

/-- A program that catches all exceptions; what is not allowed is not done. -/
def scRun (σ : Supply) (s : ScState) : List ROp → List ROut × ScState
  | [] => ([], s)
  | o :: ops =>
    if o.allowed s then
      match o.exec σ s with
      | (.terminated, s') => ([.terminated], s')
      | (r, s') => (r :: (scRun σ s' ops).1, (scRun σ s' ops).2)
    else scRun σ s ops

end G3
