import Verif.Spec.Decimal
import Verif.Model.Time
/- Specification of fraction formatting and of the `%f` substitution. -/
namespace G3.Spec
open G3

/-- `s` is the `w`-digit decimal numeral of `n`. -/
def IsFixedWidth (w n : Nat) (s : Str) : Prop := s.length = w ∧ (∀ c ∈ s, isDig c) ∧ numVal s = n

/-- What an `%f`-style conversion stands for: number of digits. -/
def unitDigits : Fractional → Nat
  | .millisecond => 3
  | .microsecond => 6
  | .nanosecond | .nanosecondDefault => 9

/-- Replace every `%f3`, `%f6`, `%f9`, `%f` in a format by milli-, micro-, nano-, nanosecond digits. -/
def substFractions (d3 d6 d9 : Str) : Str → Str
  | [] => []
  | '%' :: 'f' :: '3' :: r => d3 ++ substFractions d3 d6 d9 r
  | '%' :: 'f' :: '6' :: r => d6 ++ substFractions d3 d6 d9 r
  | '%' :: 'f' :: '9' :: r => d9 ++ substFractions d3 d6 d9 r
  | '%' :: 'f' :: r => d9 ++ substFractions d3 d6 d9 r
  | c :: r => c :: substFractions d3 d6 d9 r

/-- Chronological (field by field) order of broken-down times with microseconds. -/
def tmLt (a : TM) (ua : Nat) (b : TM) (ub : Nat) : Prop :=
  a.year < b.year ∨ (a.year = b.year ∧ (a.mon < b.mon ∨ (a.mon = b.mon ∧
    (a.mday < b.mday ∨ (a.mday = b.mday ∧ (a.hour < b.hour ∨ (a.hour = b.hour ∧
      (a.min < b.min ∨ (a.min = b.min ∧ (a.sec < b.sec ∨ (a.sec = b.sec ∧ ua < ub)))))))))))

/-- Fields in the ranges `localtime` produces, with a four-digit year. -/
def tmValid (t : TM) : Prop :=
  1000 ≤ t.year ∧ t.year ≤ 9999 ∧ 1 ≤ t.mon ∧ t.mon ≤ 12 ∧ 1 ≤ t.mday ∧ t.mday ≤ 31 ∧
  t.hour ≤ 23 ∧ t.min ≤ 59 ∧ t.sec ≤ 60

/-- Lexicographic order of character strings (byte order). -/
def lexLt : Str → Str → Prop
  | [], [] => False
  | [], _ :: _ => True
  | _ :: _, [] => False
  | a :: s, b :: t => a.toNat < b.toNat ∨ (a = b ∧ lexLt s t)

/-- `o` is the expansion of a time format for the broken-down time `t` (ISO C 7.27.3.5). Conversions other than those in g3log's own formats
are given by `other`. -/
inductive Expands (other : Char → TM → Str) (t : TM) : Str → Str → Prop
  | done : Expands other t [] []
  | plain (c : Char) (r o : Str) : c ≠ '%' → Expands other t r o → Expands other t (c :: r) (c :: o)
  | year (w r o : Str) : IsFixedWidth 4 t.year w → Expands other t r o → Expands other t ('%' :: 'Y' :: r) (w ++ o)
  | month (w r o : Str) : IsFixedWidth 2 t.mon w → Expands other t r o → Expands other t ('%' :: 'm' :: r) (w ++ o)
  | day (w r o : Str) : IsFixedWidth 2 t.mday w → Expands other t r o → Expands other t ('%' :: 'd' :: r) (w ++ o)
  | hour (w r o : Str) : IsFixedWidth 2 t.hour w → Expands other t r o → Expands other t ('%' :: 'H' :: r) (w ++ o)
  | minute (w r o : Str) : IsFixedWidth 2 t.min w → Expands other t r o → Expands other t ('%' :: 'M' :: r) (w ++ o)
  | second (w r o : Str) : IsFixedWidth 2 t.sec w → Expands other t r o → Expands other t ('%' :: 'S' :: r) (w ++ o)
  | percent (r o : Str) : Expands other t r o → Expands other t ('%' :: '%' :: r) ('%' :: o)
  | rest (c : Char) (r o : Str) : c ∉ ['Y', 'm', 'd', 'H', 'M', 'S', '%'] → Expands other t r o →
      Expands other t ('%' :: c :: r) (other c t ++ o)

end G3.Spec
