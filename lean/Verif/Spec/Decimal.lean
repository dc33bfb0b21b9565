import Verif.Model.Str
/- Independent reading of decimal numerals (specification side). -/
namespace G3.Spec
open G3

/-- Value of one decimal digit character. -/
def digitVal (c : Char) : Nat := c.toNat - 48

/-- A character is one of `0`..`9`. -/
def isDig (c : Char) : Prop := 48 ≤ c.toNat ∧ c.toNat ≤ 57

/-- Value of a string of decimal digits, most significant first. -/
def numVal (s : Str) : Nat := s.foldl (fun a c => 10 * a + digitVal c) 0

end G3.Spec
