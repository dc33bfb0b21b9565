import Verif.Model.Worker
import Verif.Model.Front
/-
What the worker writes to stderr, as text. The order of the lines is in Verif.Model.Worker.
-/
namespace G3

variable {M : Type}

/-- `LogWorkerImpl::bgSave` without sinks, /repo/src/logworker.cpp:31-35. -/
def noSinksText (E : Env) (m : LogMessage) : Str :=
  let err_msg := "g3logworker has no sinks. Message: [".toList
  err_msg ++ (toStringDefault E m).1 ++ "]\n".toList

/-- `std::cerr << uniqueMsg->toString()` in `LogWorkerImpl::bgFatal`, /repo/src/logworker.cpp:38-55. -/
def fatalErrText (E : Env) (m : FatalMessage) : Str := (toStringDefault E (bgFatalMessage m)).1

/-- One output of the worker. `view` says which message, with the signal if it is fatal, the worker model's `M` stands for. -/
def errText (E : Env) (view : M → LogMessage × Int) : ErrLine M → Str
  | .noSinks m => noSinksText E (view m).1
  | .fatal m => fatalErrText E ⟨(view m).1, (view m).2⟩

/-- All of it, in the order of the outputs (one thread writes: the worker's). -/
def stderrText (E : Env) (view : M → LogMessage × Int) (w : WState M) : Str := w.err.foldl (fun t l => t ++ errText E view l) []

end G3
