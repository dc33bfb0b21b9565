import Verif.Spec.SinkDtor
import Verif.Model.SinkDtorFatal
/- C111: a program with fatal events in destructors, as the worker sees it. -/
namespace G3.Spec

variable {M : Type}

/-- The second list is the first without fatal events in destructors, except that some of them count as fatal messages of clients. -/
inductive SeenAs : List (DxLabel M) → List (DtLabel M) → Prop
  | nil : SeenAs [] []
  | plain {a b} (l : DtLabel M) : SeenAs a b → SeenAs (.plain l :: a) (l :: b)
  | handed {a b} (i : Nat) (sig : Bool) (m : M) : SeenAs a b → SeenAs (.fatal i sig m :: a) (.base (.fatal m) :: b)
  | dropped {a b} (i : Nat) (sig : Bool) (m : M) : SeenAs a b → SeenAs (.fatal i sig m :: a) b

/-- A step that needs no new input from clients. -/
def ownStep (w : WState M) : DtLabel M → Prop
  | .base (.ret _) => True
  | .base (.reap _) => True
  | .base .dtor => w.phase ≠ .notStarted
  | .base .work => True
  | .base (.sinkPop _) => True
  | .base (.sinkFin _) => True
  | _ => False

end G3.Spec
