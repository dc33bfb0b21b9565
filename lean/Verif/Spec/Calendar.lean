import Verif.Model.Time
/- C116: the calendar, clocks on the wall, and time zones. -/
namespace G3.Spec
open G3

def leapYear (y : Nat) : Bool := decide (y % 4 = 0) && (decide (y % 100 ≠ 0) || decide (y % 400 = 0))

def monthLength (y m : Nat) : Nat :=
  if m = 2 then (if leapYear y then 29 else 28) else if m = 4 ∨ m = 6 ∨ m = 9 ∨ m = 11 then 30 else 31

/-- Midnight of the following day. -/
def nextDay (t : TM) : TM :=
  if t.mday < monthLength t.year t.mon then ⟨t.year, t.mon, t.mday + 1, 0, 0, 0⟩
  else if t.mon < 12 then ⟨t.year, t.mon + 1, 1, 0, 0, 0⟩
  else ⟨t.year + 1, 1, 1, 0, 0, 0⟩

/-- The clock goes on by one second. -/
def nextSecond (t : TM) : TM :=
  if t.sec < 59 then { t with sec := t.sec + 1 }
  else if t.min < 59 then { t with min := t.min + 1, sec := 0 }
  else if t.hour < 23 then { t with hour := t.hour + 1, min := 0, sec := 0 }
  else nextDay t

/-- What a clock on the wall shows n seconds after it showed the beginning of 1970. -/
def wallClock : Nat → TM
  | 0 => ⟨1970, 1, 1, 0, 0, 0⟩
  | n + 1 => nextSecond (wallClock n)

/-- `localtime` in a time zone: at the time t (seconds since 1970, UTC) the clocks there are `off t` seconds ahead. -/
def InZone (localtime : Int → TM) (off : Int → Int) : Prop :=
  ∀ t : Int, 0 ≤ t + off t → localtime t = wallClock (t + off t).toNat

/-- The second that the clocks show at the time n (nanoseconds since 1970, UTC). -/
def wallSecond (off : Int → Int) (n : Nat) : Int := (n / 1000000000 : Nat) + off (n / 1000000000 : Nat)

/-- The microsecond that the clocks show. -/
def wallMicro (off : Int → Int) (n : Nat) : Int := wallSecond off n * 1000000 + (n % 1000000000 / 1000 : Nat)

/-- The clocks show a time in the years 1970 to 9999. -/
def InYears (off : Int → Int) (n : Nat) : Prop := 0 ≤ wallSecond off n ∧ wallSecond off n < 253402300800

/-- At the time T (seconds) the clocks are put back by d seconds: before it (for at least d seconds) they are a seconds ahead, afterwards a - d. -/
def PutBack (off : Int → Int) (T d a : Int) : Prop :=
  0 < d ∧ (∀ t, T - d ≤ t → t < T → off t = a) ∧ ∀ t, T ≤ t → t < T + d → off t = a - d

/-- "Seconds since the Epoch" of a broken-down time, POSIX.1-2017, 4.16; `tm_yday` spelled out. -/
def posixSeconds (t : TM) : Int :=
  let before : Int := if t.mon = 1 then 0 else if t.mon = 2 then 31 else if t.mon = 3 then 59 else if t.mon = 4 then 90 else if t.mon = 5 then 120
    else if t.mon = 6 then 151 else if t.mon = 7 then 181 else if t.mon = 8 then 212 else if t.mon = 9 then 243 else if t.mon = 10 then 273
    else if t.mon = 11 then 304 else 334
  let yday : Int := before + (if leapYear t.year = true ∧ 2 < t.mon then 1 else 0) + t.mday - 1
  let tm_year : Int := (t.year : Int) - 1900
  t.sec + t.min * 60 + t.hour * 3600 + yday * 86400 + (tm_year - 70) * 31536000 + ((tm_year - 69) / 4) * 86400 -
    ((tm_year - 1) / 100) * 86400 + ((tm_year + 299) / 400) * 86400

end G3.Spec
