import Verif.Model.Front
/-
Fatal signals and pre-fatal hooks: what happens on one thread when a hook itself crashes. /repo/src/crashhandler_unix.cpp:53-105 (signal handler and
its installation) around /repo/src/g3log.cpp:157-184 (`saveFatalMessage`, as in Model/Front).

Of the kernel and the C library this is modelled (POSIX): a signal is blocked in the thread while its handler runs (`sa_mask` is empty and `SA_NODEFER`
is not set, crashhandler_unix.cpp:92-95); an instruction that causes a blocked signal ends the process by this signal; a blocked signal that is
raised stays pending; `abort` unblocks SIGABRT, raises it, and ends the process by it if the handler returns.
Simplifications: a signal without g3log's handler has its default action, which ends the process; signals are numbered; what the handler captures
(text and stack dump of the event) is given with each signal.
-/
namespace G3

/-- What a hook does, step by step. -/
inductive HAct
  | log (m : LogMessage)                              -- LOG(...) at a non-fatal level
  | stmt (m : LogMessage) (trace : Str) (sig : Int)   -- LOG(FATAL), CHECK
  | crash (sig : Int) (m : LogMessage) (trace : Str)  -- an instruction that causes a signal: SIGSEGV, SIGFPE, SIGILL, ...
  | raise (sig : Int) (m : LogMessage) (trace : Str)  -- raise(sig)
  | abort (m : LogMessage) (trace : Str)              -- abort()
  | throws                                            -- leaves by an exception
  | setHook (id : Nat) (acts : List HAct)             -- setFatalPreLoggingHook

/-- A hook. -/
structure HHook where
  id : Nat
  acts : List HAct

/-- `g_pre_fatal_hook_that_does_nothing`, g3log.cpp:43. -/
def HHook.nothing : HHook := ⟨0, []⟩

/-- The process as seen by one thread: the globals of g3log.cpp (the hook apart, so that it may be one of the above), the counter of
`shouldDoExit`, the signals g3log handles, the signals blocked in this thread and those pending. -/
structure HCState where
  front : Front
  hook : Option HHook
  entered : Nat             -- firstExit, crashhandler_unix.cpp:54
  handled : List Int        -- signals with g3log's handler
  mask : List Int
  pending : List Int

/-- How something ends on this thread. -/
inductive HCStat
  | ok
  | thrown
  | badCall
  | exitFailure
  | exitSignal (n : Int)
  | blocked                 -- the message is with the worker, which ends the process
  | killed (n : Int)        -- ended by the kernel, at once
  | sleeps                  -- in the loop of crashhandler_unix.cpp:68-70
  | undefined               -- an exception leaves the signal handler
  | fuel
deriving DecidableEq, Repr

/-- As far as Model/Front has an outcome, it is the same. -/
def Stat.toHC : Stat → HCStat
  | .ok => .ok
  | .thrown => .thrown
  | .badCall => .badCall
  | .exitFailure => .exitFailure
  | .exitSignal n => .exitSignal n
  | .blocked => .blocked
  | .fuel => .fuel

/-- Result of a step. -/
abbrev HCR := HCState × List Eff × HCStat

/-- `signalHandler`, crashhandler_unix.cpp:62-85; `ev` is the fatal event of lines 73-83. When it returns, the signal is unblocked again, and
delivered again if it is pending. -/
def hcSignal (ev : HCState → LogMessage → Str → Int → HCR) (s : HCState) (sig : Int) (m : LogMessage) (trace : Str) : HCR :=
  let s1 := { s with mask := sig :: s.mask, entered := s.entered + 1 }
  if s.entered ≠ 0 then (s1, [], .sleeps)
  else
    let r := ev s1 m trace sig
    if r.2.2 = .thrown then (r.1, r.2.1, .undefined)
    else if r.2.2 = .ok then
      if sig ∈ r.1.pending then ({ r.1 with entered := r.1.entered + 1 }, r.2.1, .sleeps)
      else ({ r.1 with mask := s.mask }, r.2.1, .ok)
    else r

/-- One step of a hook, other than LOG and setFatalPreLoggingHook. -/
def hcFatalAct (ev : HCState → LogMessage → Str → Int → HCR) (s : HCState) : HAct → HCR
  | .stmt m t n => ev s m t n
  | .crash sig m t =>
    if sig ∈ s.mask ∨ sig ∉ s.handled then (s, [], .killed sig)
    else
      let r := hcSignal ev s sig m t
      -- the instruction is executed again, with the same effect
      if r.2.2 = .ok then ({ r.1 with entered := r.1.entered + 1 }, r.2.1, .sleeps) else r
  | .raise sig m t =>
    if sig ∈ s.mask then ({ s with pending := sig :: s.pending }, [], .ok)
    else if sig ∉ s.handled then (s, [], .killed sig)
    else hcSignal ev s sig m t
  | .abort m t =>
    if SIGABRT ∉ s.handled then (s, [], .killed SIGABRT)
    else
      let r := hcSignal ev s SIGABRT m t
      if r.2.2 = .ok then (r.1, r.2.1, .killed SIGABRT) else r
  | .throws => (s, [], .thrown)
  | _ => (s, [], .ok)

/-- The steps of a hook, up to the first one that does not return. -/
def hcActs (ev : HCState → LogMessage → Str → Int → HCR) : HCState → List HAct → HCR
  | s, [] => (s, [], .ok)
  | s, .log m :: rest =>
    let r := pushMessageToLogger s.front m
    let r' := hcActs ev { s with front := r.1 } rest
    (r'.1, r.2.1 ++ r'.2.1, r'.2.2)
  | s, .setHook id acts :: rest => hcActs ev { s with hook := some ⟨id, acts⟩ } rest
  | s, a :: rest =>
    let r := hcFatalAct ev s a
    if r.2.2 = .ok then
      let r' := hcActs ev r.1 rest
      (r'.1, r.2.1 ++ r'.2.1, r'.2.2)
    else r

/-- `saveFatalMessage`, g3log.cpp:157-184, and `fatalCall`. The first argument bounds the nesting. -/
def hcEvent (E : Env) : Nat → HCState → LogMessage → Str → Int → HCR
  | 0, s, _, _, _ => (s, [], .fuel)
  | depth + 1, s, m, trace, sig =>
    let first := match s.front.firstTrace with | some t => t | none => trace
    let s1 := { s with hook := some HHook.nothing, front := { s.front with counter := s.front.counter + 1, firstTrace := some first } }
    match s.hook with
    | none => (s1, [], .badCall)
    | some h =>
      let r := hcActs (hcEvent E depth) s1 h.acts
      if r.2.2 = .ok then
        let m1 := { m with message := m.message ++ trace }
        let m2 := if r.1.front.counter > 1 then { m1 with message := m1.message ++ recursiveText first } else m1
        let r' := fatalCall E r.1.front (FatalMessage.new m2 sig)
        ({ r.1 with front := r'.1 }, .hook h.id :: r.2.1 ++ r'.2.1, r'.2.2.toHC)
      else (r.1, .hook h.id :: r.2.1, r.2.2)

end G3
