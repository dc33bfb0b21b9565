import Verif.Model.SinkDtor
/-
A pre-fatal hook that uses the library: it logs, adds or removes sinks, shuts logging down, or destroys the worker ("enforce important shutdown cleanup even in the event of a fatal crash", /repo/docs/API.md:287-291;
/repo/src/g3log/g3log.hpp:65-80). The hook runs on the thread of the event, in `saveFatalMessage` before the report is handed over (/repo/src/g3log.cpp:157-184), while all other threads go on.

Simplifications: the event is on the thread of a client (on the worker thread or on the thread of a sink the process hangs with any hook: Verif.Model.WorkerSignal, C62); the hook returns by itself, does not throw and raises no event
(Verif.Model.Front); its steps are listed in advance. `initializeLogging` is not called again, so later events find the hook that does nothing (g3log.cpp:160-161). Whole accesses to `g_logger_instance` interleave (the race is Verif.Model.Race). A handle
that does not exist yet cannot be given to `removeSink`: such a step does nothing. The destructors of sinks do not use the library (Verif.Model.SinkDtor).
-/
namespace G3

variable {M : Type}

/-- What a hook may do. -/
inductive HkAct (M : Type)
  | log (m : M)          -- LOG, g3log.cpp:194-210
  | sync (c : DtSync)    -- addSink, removeSink, removeAllSinks: logworker.hpp:89-130
  | shutdown             -- internal::shutDownLogging, g3log.cpp:116-119
  | destroy              -- ~LogWorker, logworker.cpp:70-99
deriving DecidableEq, Repr

/-- Where the thread of the event is. `m` is the report, `r` what the hook has still to do. -/
inductive HkPc (M : Type)
  | calm                                           -- no event yet
  | inside (m : M) (r : List (HkAct M))            -- in the hook, g3log.cpp:168
  | waiting (k : Nat) (m : M) (r : List (HkAct M)) -- in the hook, in the synchronous call k
  | destroying (m : M) (r : List (HkAct M))        -- in the hook, in ~LogWorker
  | asleep                                         -- the report is handed over, g3log.cpp:226-229
  | over                                           -- the process has been ended by this thread, g3log.cpp:217-225
deriving DecidableEq, Repr

/-- No event has happened. -/
def HkPc.isCalm : HkPc M → Bool
  | .calm => true
  | _ => false

/-- This thread has ended the process. -/
def HkPc.isOver : HkPc M → Bool
  | .over => true
  | _ => false

/-- The synchronous call that the hook waits for. -/
def HkPc.waitsFor : HkPc M → Option Nat
  | .waiting k _ _ => some k
  | _ => none

/-- The worker with its sinks, and the thread of the event. -/
structure HkState (M : Type) where
  w : WState M
  active : Bool            -- `g_logger_instance` is this worker
  unlogged : List M        -- what was given to LOG when it was null
  reports : List M         -- reports that went to stderr only: g3log.cpp:217-225
  pc : HkPc M

/-- After `initializeLogging` and `setFatalPreLoggingHook`, g3log.cpp:55-97. -/
def HkState.start : HkState M := ⟨.start, true, [], [], .calm⟩

/-- Steps. -/
inductive HkLabel (M : Type)
  | base (l : WLabel M)                        -- any thread, anything but LOG
  | log (m : M)                                -- LOG by another thread
  | crash (m : M) (r : List (HkAct M))         -- the first fatal event; the hook will do `r`
  | act (a : HkAct M)                          -- the hook takes its next step
  | back                                       -- its synchronous call returns
  | gone                                       -- its ~LogWorker returns
  | finish (m : M)                             -- the hook has returned: fatalCall, g3log.cpp:183
deriving DecidableEq, Repr

/-- Is the step possible? Events of others come later than the one with the hook, and need an initialised logger (else the process ends at once, g3log.cpp:217-225). -/
def hkOk (s : HkState M) : WLabel M → Bool
  | .save _ => false
  | .fatal _ => s.active && !s.pc.isCalm
  | .sinkFatal _ _ => s.active && !s.pc.isCalm
  | .ret k => decide (s.pc.waitsFor ≠ some k)
  | _ => true

/-- `g_logger_instance` afterwards: logworker.cpp:71 and 41. -/
def hkActive (s : HkState M) : WLabel M → Bool
  | .dtor => false
  | .work => s.active && !takesFatal s.w
  | _ => s.active

/-- LOG: `pushMessageToLogger`, g3log.cpp:194-210. -/
def hkLog (s : HkState M) (m : M) : Option (HkState M) :=
  if s.active then (wStep s.w (.save m)).map fun w => { s with w := w }
  else some { s with unlogged := s.unlogged ++ [m] }

/-- The synchronous call can be made. -/
def hkCan (w : WState M) : DtSync → Bool
  | .remove j => decide (j < w.n)
  | _ => true

/-- A step of the hook, with what is left to do afterwards. -/
def hkAct (s : HkState M) (m : M) (r : List (HkAct M)) : HkAct M → Option (HkState M)
  | .log x => (hkLog s x).map fun t => { t with pc := .inside m r }
  | .sync c =>
    if hkCan s.w c then (wStep s.w c.label).map fun w => { s with w := w, pc := .waiting s.w.calls.length m r }
    else some { s with pc := .inside m r }
  | .shutdown => some { s with active := false, pc := .inside m r }
  | .destroy =>
    if s.w.phase = .notStarted then (wStep s.w .dtor).map fun w => { s with w := w, active := false, pc := .destroying m r }
    else some { s with w := { s.w with ub := true } }                                   -- destroyed twice

/-- The report: `pushFatalMessageToLogger`, g3log.cpp:216-230. -/
def hkReport (s : HkState M) (m : M) : Option (HkState M) :=
  if s.active then (wStep s.w (.fatal m)).map fun w => { s with w := w, pc := .asleep }
  else some { s with reports := s.reports ++ [m], pc := .over }

/-- One step. Nothing happens after the end of the process or after undefined behaviour. -/
def hkStep [DecidableEq M] (s : HkState M) (l : HkLabel M) : Option (HkState M) :=
  if s.w.ub || s.w.wpc.isDead || s.pc.isOver then none
  else match l with
  | .base l => if hkOk s l then (wStep s.w l).map fun w => { s with w := w, active := hkActive s l } else none
  | .log m => hkLog s m
  | .crash m r => if s.pc.isCalm then some { s with pc := .inside m r } else none
  | .act a =>
    match s.pc with
    | .inside m (b :: r) => if a = b then hkAct s m r a else none
    | _ => none
  | .back =>
    match s.pc with
    | .waiting k m r => (wStep s.w (.ret k)).map fun w => { s with w := w, pc := .inside m r }
    | _ => none
  | .gone =>
    match s.pc with
    | .destroying m r => if s.w.phase = .returned then some { s with pc := .inside m r } else none
    | _ => none
  | .finish m =>
    match s.pc with
    | .inside m' [] => if m = m' then hkReport s m else none
    | _ => none

/-- A schedule. -/
def hkRun [DecidableEq M] (s : HkState M) : List (HkLabel M) → Option (HkState M)
  | [] => some s
  | l :: ls => (hkStep s l).bind (hkRun · ls)

end G3
