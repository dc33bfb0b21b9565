import Verif.Model.Time
/-
Time stamps while the program changes its time zone: /repo/src/logmessage.cpp:110-112 (timestamp), 121-137 (the time is read when the
message is made), /repo/src/time.cpp:135-150 (localtime with localtime_r, localtime_formatted), 109-132 (put_time with strftime). The
text of a stamp is made when a sink formats the message (/repo/src/filesink.cpp:57-70, or a sink of the program), on the thread of that sink.

External: POSIX `localtime_r` uses the rules of the zone that the C library has loaded. `strftime` loads the zone that the variable TZ
names, as if by `tzset`. Whether `localtime_r` looks at TZ too is left open by POSIX (glibc does so at its first use only): parameter `look`.

Simplifications: the steps are atomic (changing the environment while another thread reads it is a data race by POSIX already); each
statement reaches the queues of all sinks at once (C01, C02 for the way there); the clock reading comes with the statement, after
`to_system_time` (C34); formatting that leaves by an exception has no step (C33); an outcome `assertFailed` is only recorded (C76).
Only the POSIX branch is modelled.
-/
namespace G3

/-- The C library and the sinks of a program. -/
structure ZoneLib where
  rules : Str → Int → TM            -- local time in the zone that a value of TZ names
  look : Bool                       -- localtime_r looks at TZ
  other : Char → TM → Str           -- further conversions of strftime
  ndebug : Bool
  sinks : Nat                       -- number of sinks
  format : Nat → Str                -- the time format of each sink

/-- A stamp that a sink has written: of the statement with this number. -/
structure ZoneLine where
  sink : Nat
  stmt : Nat
  stamp : PutTime
deriving DecidableEq, Repr

/-- The state. -/
structure ZoneState where
  tz : Str                            -- the variable TZ
  loaded : Option Str                 -- the zone that the C library has loaded
  next : Nat                          -- number of statements so far
  queue : Nat → List (Nat × Int)      -- per sink: number and time of the messages that wait
  lines : List ZoneLine               -- what has been written, by all sinks

/-- The steps. -/
inductive ZoneLabel
  | setTZ (z : Str)       -- the program sets TZ
  | tzset                 -- the program calls tzset, localtime, mktime or strftime, or a file sink makes a file name or a header
  | log (t : Int)         -- a logging statement at time t (nanoseconds since the epoch)
  | write (k : Nat)       -- sink k formats its next message
deriving DecidableEq, Repr

/-- The zone that `localtime_r` uses, time.cpp:140. -/
def ZoneState.zoneUsed (E : ZoneLib) (s : ZoneState) : Str :=
  if E.look then s.tz else s.loaded.getD s.tz

/-- `LogMessage::timestamp`, logmessage.cpp:110-112, of a message of time t in sink k. -/
def ZoneState.stampOf (E : ZoneLib) (s : ZoneState) (k : Nat) (t : Int) : Option (Except TimeErr PutTime) :=
  localtimeFormatted E.other (E.rules (s.zoneUsed E)) E.ndebug t (E.format k)

/-- One step. -/
def zoneStep (E : ZoneLib) (s : ZoneState) : ZoneLabel → Option ZoneState
  | .setTZ z => some { s with tz := z }
  | .tzset => some { s with loaded := some s.tz }
  | .log t => some { s with next := s.next + 1, queue := fun k => if k < E.sinks then s.queue k ++ [(s.next, t)] else s.queue k }
  | .write k =>
    match s.queue k with
    | [] => none
    | (i, t) :: q =>
      match s.stampOf E k t with
      | some (.ok x) =>
        -- time.cpp:121: strftime has loaded the zone
        some { s with loaded := some s.tz, queue := fun j => if j = k then q else s.queue j, lines := s.lines ++ [⟨k, i, x⟩] }
      | _ => none

/-- A schedule. -/
def zoneRun (E : ZoneLib) (s : ZoneState) : List ZoneLabel → Option ZoneState
  | [] => some s
  | l :: ls => (zoneStep E s l).bind (zoneRun E · ls)

/-- The program begins with this value of TZ. -/
def ZoneState.start (z : Str) : ZoneState := { tz := z, loaded := none, next := 0, queue := fun _ => [], lines := [] }

end G3
