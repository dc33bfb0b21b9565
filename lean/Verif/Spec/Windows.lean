import Verif.Model.Str
/-
The exceptions that g3log reports on Windows, by code.
-/
namespace G3.Spec
open G3

/-- Code and name. -/
def fatalExceptions : List (Nat × Str) :=
  [(2147483650, "EXCEPTION_DATATYPE_MISALIGNMENT".toList),
   (2147483651, "EXCEPTION_BREAKPOINT".toList),
   (2147483652, "EXCEPTION_SINGLE_STEP".toList),
   (3221225477, "EXCEPTION_ACCESS_VIOLATION".toList),
   (3221225478, "EXCEPTION_IN_PAGE_ERROR".toList),
   (3221225501, "EXCEPTION_ILLEGAL_INSTRUCTION".toList),
   (3221225509, "EXCEPTION_NONCONTINUABLE_EXCEPTION".toList),
   (3221225510, "EXCEPTION_INVALID_DISPOSITION".toList),
   (3221225612, "EXCEPTION_ARRAY_BOUNDS_EXCEEDED".toList),
   (3221225613, "EXCEPTION_FLT_DENORMAL_OPERAND".toList),
   (3221225614, "EXCEPTION_FLT_DIVIDE_BY_ZERO".toList),
   (3221225615, "EXCEPTION_FLT_INEXACT_RESULT".toList),
   (3221225616, "EXCEPTION_FLT_INVALID_OPERATION".toList),
   (3221225617, "EXCEPTION_FLT_OVERFLOW".toList),
   (3221225618, "EXCEPTION_FLT_STACK_CHECK".toList),
   (3221225619, "EXCEPTION_FLT_UNDERFLOW".toList),
   (3221225620, "EXCEPTION_INT_DIVIDE_BY_ZERO".toList),
   (3221225621, "EXCEPTION_INT_OVERFLOW".toList),
   (3221225622, "EXCEPTION_PRIV_INSTRUCTION".toList),
   (3221225725, "EXCEPTION_STACK_OVERFLOW".toList)]

/-- The lines of a stack dump: numbered from `k` on. -/
def dumpLines (describe : Nat → Str) (k : Nat) : List Nat → List Str
  | [] => []
  | a :: r => ("stack dump [".toList ++ decNat k ++ "]\t".toList ++ describe a ++ "\n".toList) :: dumpLines describe (k + 1) r

end G3.Spec
