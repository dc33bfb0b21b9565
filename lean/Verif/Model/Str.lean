/-
Model of the parts of `std::string` that g3log uses.

These are library functions, not g3log code; they are transcriptions of the C++ standard's
definitions ([string.find], [string.substr], [string.replace], [string.conversions]).
One `Char` stands for one C++ `char`.
-/
namespace G3

/-- `std::string`; one element is one C++ `char` (used everywhere in /repo/src). -/
abbrev Str := List Char

/-- `std::string::find(pat, pos)` ([string.find]): smallest index `>= pos` at which `pat` occurs.
Used in /repo/src/time.cpp:86, /repo/src/filesinkhelper.ipp:59. `none` is `npos`. -/
def findAux (pat : Str) : Nat → Str → Option Nat
  | i, [] => if pat = [] then some i else none
  | i, c :: cs => if pat.isPrefixOf (c :: cs) then some i else findAux pat (i + 1) cs

/-- `std::string::find(pat, pos)`; `none` is `npos`. -/
def find (pat : Str) (pos : Nat) (s : Str) : Option Nat :=
  if pos ≤ s.length then findAux pat pos (s.drop pos) else none

/-- `std::string::find_first_of(set)` ([string.find.first.of]).
Used in /repo/src/filesinkhelper.ipp:28, /repo/src/crashhandler_unix.cpp:149-153. -/
def findFirstOf (set : Str) : Str → Option Nat
  | [] => none
  | c :: cs => if c ∈ set then some 0 else (findFirstOf set cs).map (· + 1)

/-- `std::string::find_last_of(set)` ([string.find.last.of]).
Used in /repo/src/logmessage.cpp:18, /repo/src/filesinkhelper.ipp:64. -/
def findLastOf (set : Str) : Str → Option Nat
  | [] => none
  | c :: cs =>
    match findLastOf set cs with
    | some i => some (i + 1)
    | none => if c ∈ set then some 0 else none

/-- `pos + 1` for a `size_t` position, where `npos + 1` wraps to 0. -/
def succNpos : Option Nat → Nat
  | none => 0
  | some i => i + 1

/-- `s.replace(pos, n, v)` for `pos <= s.size()` ([string.replace]). -/
def replaceAt (s : Str) (pos n : Nat) (v : Str) : Str :=
  s.take pos ++ v ++ s.drop (pos + n)

/-- What is left of a `std::string` after a trip through `c_str()`: the part before the first NUL.
Used in /repo/src/g3log/loglevels.hpp:38, /repo/src/logcapture.cpp:46, /repo/src/time.cpp:149. -/
def cstr (s : Str) : Str := s.takeWhile (fun c => c ≠ Char.ofNat 0)

/-- One decimal digit. -/
def digit (n : Nat) : Char := Char.ofNat (48 + n % 10)

/-- `std::to_string` of a non-negative integer ([string.conversions]). -/
def decNat (n : Nat) : Str :=
  if n < 10 then [digit n] else decNat (n / 10) ++ [digit n]
termination_by n
decreasing_by omega

/-- `std::to_string` of a signed integer ([string.conversions]). -/
def decInt (i : Int) : Str :=
  if i < 0 then '-' :: decNat i.natAbs else decNat i.natAbs

end G3
