import Verif.Model.CrashText
import Verif.Model.LogMessage
import Verif.Model.Time
/-
What the global `std::locale` of the program changes in the text that g3log produces itself. A `std::ostringstream` has the locale that is global when it is constructed
([ios.base.locales]); numbers streamed into it are punctuated by the `numpunct` facet ([facet.num.put.virtuals]). `std::to_string` does not look at it ([string.conversions]).
`std::cerr` keeps the classic locale. The names that `std::strftime` uses come from the C locale; they are the parameter `other` of Verif.Model.Time.
-/
namespace G3

/-- `CHAR_MAX` where `char` is signed; in a grouping it means, like a number that is not positive, "no further groups" ([locale.numpunct.virtuals]). -/
def charMax : Int := 127

/-- `std::numpunct<char>`: `thousands_sep()` and `grouping()`. -/
structure NumPunct where
  sep : Char
  grouping : List Int

/-- `std::locale::classic()`. -/
def NumPunct.classic : NumPunct := ⟨',', []⟩

/-- Punctuation of the digits `ds`, the last digit first: `std::__add_grouping` of libstdc++. The last number of the grouping is repeated. `fuel` bounds the number of groups. -/
def groupRev (sep : Char) : Nat → List Int → Str → Str
  | 0, _, ds => ds
  | _ + 1, [], ds => ds
  | fuel + 1, g :: gs, ds =>
    if g ≤ 0 ∨ g = charMax ∨ ds.length ≤ g.toNat then ds
    else ds.take g.toNat ++ sep :: groupRev sep fuel (if gs = [] then [g] else gs) (ds.drop g.toNat)

/-- `std::ostream << n` for an unsigned number, [facet.num.put.virtuals]. -/
def putNat (p : NumPunct) (n : Nat) : Str := (groupRev p.sep (decNat n).length p.grouping (decNat n).reverse).reverse

/-- `std::ostream << i`; the sign is no digit. -/
def putInt (p : NumPunct) (i : Int) : Str := if i < 0 then '-' :: putNat p i.natAbs else putNat p i.natAbs

/-- `LogMessage::threadID`, /repo/src/logmessage.cpp:171-175, with the locale at the time of the call. The id is that of a running thread, a number in libstdc++. The other parts of
the details are `std::string`s (logmessage.cpp:53-63; the line number by `std::to_string`, logmessage.hpp:38-40). -/
def Env.inLocale (E : Env) (p : NumPunct) : Env := { E with thread := putNat p }

/-- `exitReasonName`, /repo/src/crashhandler_unix.cpp:193-217. -/
def exitReasonNameIn (p : NumPunct) (level : Level) (n : Int) : Str :=
  if n = SIGABRT then "SIGABRT".toList
  else if n = SIGFPE then "SIGFPE".toList
  else if n = SIGSEGV then "SIGSEGV".toList
  else if n = SIGILL then "SIGILL".toList
  else if n = SIGTERM then "SIGTERM".toList
  else "UNKNOWN SIGNAL(".toList ++ putInt p n ++ ") for ".toList ++ level.text

/-- Text streamed by `signalHandler`, /repo/src/crashhandler_unix.cpp:75-81. -/
def signalTextIn (p : NumPunct) (n pid errno code : Int) : Str :=
  let fatal_reason := exitReasonNameIn p FATAL_SIGNAL n
  "Received fatal signal: ".toList ++ fatal_reason ++
  ("(".toList ++ putInt p n ++ ")\tPID: ".toList ++ putInt p pid ++ "\n".toList) ++
  ("\n***** SIGNAL ".toList ++ fatal_reason ++ "(signo= ".toList ++ putInt p n ++ " si_errno= ".toList ++ putInt p errno ++
    " si_code = ".toList ++ putInt p code ++ ")".toList ++ "\n".toList)

/-- One line of the dump, /repo/src/crashhandler_unix.cpp:171-186. -/
def frameTextIn (p : NumPunct) (dem : Str → Option Str) (idx : Nat) (s : Str) : Except DumpErr Str :=
  match parseFrame s with
  | .error e => .error e
  | .ok (mangled, offset) =>
    if mangled ≠ [] ∧ offset ≠ [] then
      match dem (cstr mangled) with
      | some real => .ok ("\tstack dump [".toList ++ putNat p idx ++ "]  ".toList ++ real ++ " + ".toList ++ offset ++ ['\n'])
      | none => .ok ("\tstack dump [".toList ++ putNat p idx ++ "]  ".toList ++ mangled ++ " + ".toList ++ offset ++ ['\n'])
    else .ok ("\tstack dump [".toList ++ putNat p idx ++ "]  ".toList ++ s ++ ['\n'])

/-- The loop of `stackdump`, /repo/src/crashhandler_unix.cpp:147-187, from index `idx` on. -/
def dumpLoopIn (p : NumPunct) (dem : Str → Option Str) (idx : Nat) : List Str → Except DumpErr Str
  | [] => .ok []
  | s :: rest =>
    match frameTextIn p dem idx s with
    | .error e => .error e
    | .ok t =>
      match dumpLoopIn p dem (idx + 1) rest with
      | .error e => .error e
      | .ok ts => .ok (t ++ ts)

/-- A program with one sink, as far as the locale is concerned: the queue of entries that are not written yet, and what has been written. -/
structure LocaleState where
  punct : NumPunct
  queue : List LogMessage
  written : List Str

def LocaleState.start : LocaleState := ⟨.classic, [], []⟩

inductive LocaleLabel
  /-- The program calls `std::locale::global`. -/
  | setLocale (p : NumPunct)
  /-- A statement logs a message. -/
  | log (m : LogMessage)
  /-- The thread of the sink writes the oldest entry that is not written yet, e.g. `FileSink::fileWrite`, /repo/src/filesink.cpp:56-69. -/
  | write

/-- The message is formatted where it is written (/repo/src/filesink.cpp:62), so with the locale of that time. -/
def localeStep (E : Env) (f : DetailsFn) (s : LocaleState) : LocaleLabel → Option LocaleState
  | .setLocale p => some { s with punct := p }
  | .log m => some { s with queue := s.queue ++ [m] }
  | .write =>
    match s.queue with
    | [] => none
    | m :: q => some { s with queue := q, written := s.written ++ [(toString (E.inLocale s.punct) m f).1] }

def localeRun (E : Env) (f : DetailsFn) (s : LocaleState) : List LocaleLabel → Option LocaleState
  | [] => some s
  | l :: ls => (localeStep E f s l).bind (localeRun E f · ls)

end G3
