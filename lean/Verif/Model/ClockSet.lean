import Verif.Model.Time
/-
Time stamps while the system clock is set: /repo/src/g3log/time.hpp:62-77 (to_system_time with its two static variables),
/repo/src/logmessage.cpp:110-112 (timestamp), 121-137 (the time of a message is read when it is made).

`high_resolution_clock` is the system clock (libstdc++) or a steady clock (libc++, MSVC): parameter `system`. The system clock runs with
the steady clock except when it is set, by a person, by a time service, or after the computer slept while the steady clock stood still.

Simplifications: both clocks run at the same rate; the statics are initialised by the first thread that formats a stamp, in two
readings between which anything can happen, other threads that format wait meanwhile (C++11, [stmt.dcl]); there is one copy of the statics
in the process; times are unbounded integers.
-/
namespace G3

/-- The state. -/
structure ClkState where
  steady : Int                  -- the steady clock
  sys : Int                     -- the system clock
  hrs : Option Int              -- hrs_now, time.hpp:73
  base : Option ClockBase       -- both statics, time.hpp:73-74
  made : List Int               -- _timestamp of the messages, logmessage.cpp:124, in the order of their making
  shown : List (Nat × Int)      -- the stamps made: number of the message and system time

/-- The steps. -/
inductive ClkLabel
  | pass (d : Nat)      -- time passes
  | set (a : Int)       -- the system clock is set forward by a (back, if a is negative)
  | log                 -- a logging statement makes its message
  | readH               -- first stamp of the process: hrs_now is initialised
  | readS               -- then sys_now
  | format (i : Nat)      -- a sink formats the stamp of message i
deriving DecidableEq, Repr

/-- `high_resolution_clock::now()`. -/
def ClkState.hrc (system : Bool) (s : ClkState) : Int := if system then s.sys else s.steady

/-- One step; `tick` is the period of the system clock. -/
def clkStep (system : Bool) (tick : Int) (s : ClkState) : ClkLabel → Option ClkState
  | .pass d => some { s with steady := s.steady + d, sys := s.sys + d }
  | .set a => some { s with sys := s.sys + a }
  | .log => some { s with made := s.made ++ [s.hrc system] }
  | .readH => if s.hrs = none ∧ s.made ≠ [] then some { s with hrs := some (s.hrc system) } else none
  | .readS =>
    match s.hrs, s.base with
    | some h, none => some { s with base := some { hrs := h, sys := s.sys } }
    | _, _ => none
  | .format i =>
    match s.base, s.made[i]? with
    | some b, some ts => some { s with shown := s.shown ++ [(i, (toSystemTime tick 0 0 (some b) ts).1)] }
    | _, _ => none

/-- A schedule. -/
def clkRun (system : Bool) (tick : Int) (s : ClkState) : List ClkLabel → Option ClkState
  | [] => some s
  | l :: ls => (clkStep system tick s l).bind (clkRun system tick · ls)

/-- The process begins when the clocks show h and c. -/
def ClkState.start (h c : Int) : ClkState := { steady := h, sys := c, hrs := none, base := none, made := [], shown := [] }

end G3
