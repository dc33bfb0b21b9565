import Verif.Model.Signals
/-
`initializeLogging` when memory runs out and it is called again: /repo/src/g3log.cpp:55-83, /repo/src/crashhandler_unix.cpp:89-110, /repo/src/logworker.cpp:101-103.

An exception that leaves the function given to `std::call_once` leaves the flag as it was, so that the next call runs the function again. A request for memory is made by the text for `perror`
(crashhandler_unix.cpp:103), by a new entry of the map `gSavedSigActions` (:106) and, twice, by `save` (the task and its place in the queue). Hook and counter (g3log.cpp:78-82) need no memory and are left out, and so is the
test for illegal initialisations (:60-68, Model/Front): the calls here are those of a program that calls again because the call before has thrown. Requests are numbered over all calls.
-/
namespace G3

/-- The loop of `installSignalHandler`, crashhandler_unix.cpp:98-108, over the rest of `gSignals`; `k` is the number of requests so far. `false`: it throws. -/
def installTry (e : SigEnv) (ok : Nat → Bool) : List Int → SigState → Nat → Bool × SigState × Nat
  | [], s, k => (true, s, k)
  | n :: r, s, k =>
    if e.accepts n then                                                                                       -- :102, and the handler is installed
      match s.saved n with
      | some _ => installTry e ok r { s with disp := setAt s.disp n .g3log, saved := setAt s.saved n (some (s.disp n)) } k
      | none =>
        if ok k then installTry e ok r { s with disp := setAt s.disp n .g3log, saved := setAt s.saved n (some (s.disp n)) } (k + 1)
        else (false, { s with disp := setAt s.disp n .g3log }, k + 1)
    else if ok k then installTry e ok r s (k + 1) else (false, s, k + 1)

/-- The globals of g3log.cpp:36-42 and what the worker has been given. -/
structure InitState where
  sig : SigState
  installed : Bool            -- `g_initialize_flag`
  first : Option Str          -- `g_first_uninitialized_msg`
  firstDone : Bool            -- `g_save_first_uninitialized_flag`
  inst : Option Nat           -- `g_logger_instance`
  handed : List Str           -- first messages handed to a worker

/-- `call_once(g_initialize_flag, installCrashHandler)`, g3log.cpp:56-58. -/
def initInstall (e : SigEnv) (ok : Nat → Bool) (s : InitState) (k : Nat) : Bool × InitState × Nat :=
  if s.installed then (true, s, k)
  else if e.off then (true, { s with installed := true }, k)
  else
    let r := installTry e ok s.sig.gSignals s.sig k
    (r.1, { s with sig := r.2.1, installed := r.1 }, r.2.2)

/-- `call_once(g_save_first_uninitialized_flag, …)`, g3log.cpp:71-75: the message is moved out of the global variable before `save` asks for memory. -/
def initFirst (ok : Nat → Bool) (s : InitState) (k : Nat) : Bool × InitState × Nat :=
  if s.firstDone then (true, s, k)
  else
    match s.first with
    | none => (true, { s with firstDone := true }, k)
    | some m =>
      if ok k then
        if ok (k + 1) then (true, { s with first := none, firstDone := true, handed := s.handed ++ [m] }, k + 2)
        else (false, { s with first := none }, k + 2)
      else (false, { s with first := none }, k + 1)

/-- `initializeLogging`. -/
def initTry (e : SigEnv) (ok : Nat → Bool) (w : Nat) (s : InitState) (k : Nat) : Bool × InitState × Nat :=
  let a := initInstall e ok s k
  if a.1 then
    let b := initFirst ok a.2.1 a.2.2
    if b.1 then (true, { b.2.1 with inst := some w }, b.2.2) else b
  else a

/-- It is called up to `c` times, until it does not throw. -/
def initCalls (e : SigEnv) (ok : Nat → Bool) (w : Nat) : Nat → InitState → Nat → Bool × InitState × Nat
  | 0, s, k => (false, s, k)
  | c + 1, s, k =>
    let a := initTry e ok w s k
    if a.1 then a else initCalls e ok w c a.2.1 a.2.2

/-- Before the first call: the dispositions `d0`, the set of signals `l`, the first message. -/
def InitState.start (d0 : Int → Disp) (l : List Int) (m : Option Str) : InitState := ⟨⟨d0, fun _ => none, l⟩, false, m, false, none, []⟩

end G3
