import Verif.Model.Time
/-
Time stamps on Windows with Microsoft's library: /repo/src/time.cpp:108-115, 132-150.

`std::put_time` goes through the format itself (`time_put::put`): characters are copied, and each conversion - a percent sign, an optional qualifier
and a character - is handed to `time_put::do_put` alone. There is no buffer of fixed size.

Assumptions about that library, which is not part of the repository: `do_put` is the parameter `conv`, without a result for conversions
that the run-time system does not know, for which it ends the process (invalid parameter handler); the qualifiers are the
parameter `quals`; a percent sign at the end of the format, with or without a qualifier, is copied. `localtime_s` succeeds (the fields of the result are what
the parameter says).
-/
namespace G3

/-- Outcome of `put_time` on Windows. -/
inductive PutTimeWin
  | text (s : Str)
  | invalidParameter
deriving DecidableEq, Repr

/-- A piece of text before the rest. -/
def PutTimeWin.after (a : Str) : PutTimeWin → PutTimeWin
  | .text s => .text (a ++ s)
  | .invalidParameter => .invalidParameter

/-- `g3::put_time`, /repo/src/time.cpp:108-115. -/
def putTimeWin (conv : Option Char → Char → TM → Option Str) (quals : List Char) (t : TM) : Str → PutTimeWin
  | [] => .text []
  | c :: r =>
    if c ≠ '%' then (putTimeWin conv quals t r).after [c]
    else match r with
      | [] => .text ['%']
      | q :: r =>
        if q ∈ quals then
          match r with
          | [] => .text ['%', q]
          | d :: r =>
            match conv (some q) d t with
            | some x => (putTimeWin conv quals t r).after x
            | none => .invalidParameter
        else
          match conv none q t with
          | some x => (putTimeWin conv quals t r).after x
          | none => .invalidParameter

/-- `g3::localtime_formatted`, /repo/src/time.cpp:132-150. -/
def localtimeFormattedWin (conv : Option Char → Char → TM → Option Str) (quals : List Char) (localtime : Int → TM) (ts : Int) (fmt : Str) :
    Option (Except TimeErr PutTimeWin) :=
  match formattedFractions ts fmt with
  | none => none
  | some (.error e) => some (.error e)
  | some (.ok buf) => some (.ok (putTimeWin conv quals (localtime (ts.tdiv 1000000000)) (cstr buf)))

end G3
