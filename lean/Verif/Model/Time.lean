import Verif.Model.Str
/-
Model of /repo/src/time.cpp and /repo/src/g3log/time.hpp.

A `system_time_point` is an `Int`: nanoseconds since the epoch (libstdc++'s `system_clock::duration`);
the 64-bit representation limit is not modelled. `strftime` and `localtime_r` are libc functions and
enter as parameters.
-/
namespace G3

/-- Ways in which the formatting code leaves by an exception. -/
inductive TimeErr
  /-- `std::length_error` from `std::string(size_t, char)` -/
  | lengthError
deriving DecidableEq, Repr

/-- `enum class Fractional`, /repo/src/g3log/time.hpp:31-34. -/
inductive Fractional | millisecond | microsecond | nanosecond | nanosecondDefault
deriving DecidableEq, Repr

/-- `internal::getFractional`, /repo/src/time.cpp:27-45. -/
def getFractional (fmt : Str) (pos : Nat) : Fractional :=
  let ch := if fmt.length > pos + 2 then fmt.getD (pos + 2) (Char.ofNat 0) else Char.ofNat 0
  if ch = '3' then .millisecond
  else if ch = '6' then .microsecond
  else if ch = '9' then .nanosecond
  else .nanosecondDefault

/-- `zeroes`, /repo/src/time.cpp:57-75. -/
def Fractional.zeroes : Fractional → Nat
  | .millisecond => 3
  | .microsecond => 6
  | .nanosecond => 9
  | .nanosecondDefault => 9

/-- `digitsToCut`, /repo/src/time.cpp:58-75. -/
def Fractional.cut : Fractional → Int
  | .millisecond => 1000000
  | .microsecond => 1000
  | .nanosecond => 1
  | .nanosecondDefault => 1

/-- `internal::to_string`, /repo/src/time.cpp:51-80. `duration_cast` truncates toward zero (`Int.tdiv`).
`zeroes - value.size()` is computed in `size_t`; when it wraps, the string constructor throws. -/
def fracToString (ts : Int) (f : Fractional) : Except TimeErr Str :=
  let sec := ts.tdiv 1000000000
  let ns := ts - sec * 1000000000
  let v := decInt (ns.tdiv f.cut)
  if v.length ≤ f.zeroes then .ok (List.replicate (f.zeroes - v.length) '0' ++ v)
  else .error .lengthError

/-- `padding`, /repo/src/time.cpp:91-94. -/
def Fractional.padding (f : Fractional) : Nat := if f ≠ .nanosecondDefault then 1 else 0

/-- The loop of `localtime_formatted_fractions`, /repo/src/time.cpp:85-98, with an iteration bound
(`none` = bound exhausted; `C32_terminates` shows this never happens with the bound used below). -/
def fractionsLoop (ts : Int) : Nat → Nat → Str → Option (Except TimeErr Str)
  | 0, _, _ => none
  | fuel + 1, pos, buf =>
    match find ['%', 'f'] pos buf with
    | none => some (.ok buf)
    | some p =>
      let type := getFractional buf p
      match fracToString ts type with
      | .error e => some (.error e)
      | .ok value => fractionsLoop ts fuel (p + 2 + 0) (replaceAt buf p (2 + type.padding) value)

/-- `internal::localtime_formatted_fractions`, /repo/src/time.cpp:82-100. -/
def formattedFractions (ts : Int) (fmt : Str) : Option (Except TimeErr Str) :=
  fractionsLoop ts (fmt.length + 1) 0 fmt

/-- The fields of `struct tm` used by g3log's own formats. `year` is the full year (`tm_year + 1900`),
`mon` is 1-based (`tm_mon + 1`). -/
structure TM where
  year : Nat
  mon : Nat
  mday : Nat
  hour : Nat
  min : Nat
  sec : Nat
deriving DecidableEq, Repr

/-- Two-digit field of `strftime` (`%m %d %H %M %S`). -/
def pad2 (n : Nat) : Str := if n < 10 then '0' :: decNat n else decNat n

/-- The text `strftime` produces for a format, ISO C 7.27.3.5, for the conversions g3log's formats use
(`%Y %m %d %H %M %S %%`); all other conversions are given by the parameter `other`. -/
def strftimeText (other : Char → TM → Str) (t : TM) : Str → Str
  | [] => []
  | [c] => [c]
  | c :: d :: r =>
    if c = '%' then
      (if d = 'Y' then decNat t.year
       else if d = 'm' then pad2 t.mon
       else if d = 'd' then pad2 t.mday
       else if d = 'H' then pad2 t.hour
       else if d = 'M' then pad2 t.min
       else if d = 'S' then pad2 t.sec
       else if d = '%' then ['%']
       else other d t) ++ strftimeText other t r
    else c :: strftimeText other t (d :: r)

/-- Outcome of `put_time`: text, or (debug builds) the assertion on time.cpp:128 fires. -/
inductive PutTime
  | text (s : Str)
  | assertFailed
deriving DecidableEq, Repr

/-- `g3::put_time` (POSIX branch), /repo/src/time.cpp:116-131. `strftime` returns 0 when the text with its
terminating NUL does not fit the 1024 byte buffer (and when the text is empty). `ndebug` selects whether
`assert` is compiled out. The buffer is returned as a C string. -/
def putTime (strftime : Str → Str) (ndebug : Bool) (fmt : Str) : PutTime :=
  let full := strftime fmt
  let success := if full.length + 1 ≤ 1024 then full.length else 0
  if 0 = success then (if ndebug then .text fmt else .assertFailed)
  else .text (cstr full)

/-- `g3::localtime_formatted`, /repo/src/time.cpp:145-150. `localtime` maps seconds since the epoch to the
broken-down local time; `to_time_t` truncates toward zero (libstdc++). -/
def localtimeFormatted (other : Char → TM → Str) (localtime : Int → TM) (ndebug : Bool) (ts : Int) (fmt : Str) :
    Option (Except TimeErr PutTime) :=
  match formattedFractions ts fmt with
  | none => none
  | some (.error e) => some (.error e)
  | some (.ok buf) =>
    let t := localtime (ts.tdiv 1000000000)
    some (.ok (putTime (strftimeText other t) ndebug (cstr buf)))

/-- `internal::date_formatted + " " + internal::time_formatted`, /repo/src/g3log/time.hpp:38,43 and
/repo/src/g3log/logmessage.hpp:50. -/
def defaultTimeFormat : Str := "%Y/%m/%d".toList ++ " ".toList ++ "%H:%M:%S %f6".toList

/-- The two function-local statics of `to_system_time`, /repo/src/g3log/time.hpp:73-74: the first call
fixes them to the clock readings at that moment. -/
structure ClockBase where
  hrs : Int
  sys : Int
deriving DecidableEq, Repr

/-- `to_system_time`, /repo/src/g3log/time.hpp:62-77. `tick` is `system_clock`'s period in nanoseconds
(1 on libstdc++, 100 on Windows); `time_point_cast` truncates toward zero. `nowH`, `nowS` are the clock
readings during this call; they matter only in the first call. -/
def toSystemTime (tick : Int) (nowH nowS : Int) (base : Option ClockBase) (ts : Int) : Int × Option ClockBase :=
  let b := match base with
    | some b => b
    | none => { hrs := nowH, sys := nowS }
  (((b.sys + (ts - b.hrs)).tdiv tick) * tick, some b)

end G3
