import Verif.Spec.Time
/- Specification of the `%f` conversions in formats with escaped percent signs. -/
namespace G3.Spec
open G3

/-- What a format is meant to become before `strftime` reads it: from left to right, `%%` stays as it is, `%f3`, `%f6`, `%f9` and
`%f` become digits, every other character stays. -/
def readFractions (d3 d6 d9 : Str) : Str → Str
  | [] => []
  | '%' :: '%' :: r => '%' :: '%' :: readFractions d3 d6 d9 r
  | '%' :: 'f' :: '3' :: r => d3 ++ readFractions d3 d6 d9 r
  | '%' :: 'f' :: '6' :: r => d6 ++ readFractions d3 d6 d9 r
  | '%' :: 'f' :: '9' :: r => d9 ++ readFractions d3 d6 d9 r
  | '%' :: 'f' :: r => d9 ++ readFractions d3 d6 d9 r
  | c :: r => c :: readFractions d3 d6 d9 r

/-- Read from left to right, the format has an escaped percent sign (`%%`) directly before the letter f. -/
inductive EscapedBeforeF : Str → Prop
  | here (r : Str) : EscapedBeforeF ('%' :: '%' :: 'f' :: r)
  | escape (r : Str) : EscapedBeforeF r → EscapedBeforeF ('%' :: '%' :: r)
  | conversion (c : Char) (r : Str) : c ≠ '%' → EscapedBeforeF r → EscapedBeforeF ('%' :: c :: r)
  | plain (c : Char) (r : Str) : c ≠ '%' → EscapedBeforeF r → EscapedBeforeF (c :: r)

end G3.Spec
