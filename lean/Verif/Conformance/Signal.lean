import Verif.Model.SignalDiag
/-
The expectations of /repo/test_unit/test_signal.cpp, replayed on the model (not proofs of properties, see Conformance/Message).
-/
namespace G3.Conformance
open G3

/-- A stderr that takes everything. -/
def openErr : SigSys := ⟨false, fun _ _ => true, fun _ => [], fun _ => none, fun t => some t.length⟩

/-- `WriteErrorMessage_WritesToStderr`, test_signal.cpp:49-54. -/
example : (writeErrorMessage openErr (some "Test error message".toList)).2 = "Test error message".toList := by decide +kernel

/-- `WriteErrorMessage_Nullptr_DoesNotWriteToStderr`, test_signal.cpp:56-60. -/
example : (writeErrorMessage openErr none).2 = [] := rfl

end G3.Conformance
