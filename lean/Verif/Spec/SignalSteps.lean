import Verif.Model.Signals
/- C114: what calls of `sigaction` do, and which ones a change of the signals consists of. -/
namespace G3.Spec
open G3

/-- The action of signal n after some calls of `sigaction`: that of the last call for n, if the system accepts n. -/
def actionAfter (accepts : Int → Bool) (d : Int → Disp) (calls : List (Int × Disp)) (n : Int) : Disp :=
  match (calls.filter fun c => c.1 == n && accepts c.1).getLast? with
  | none => d n
  | some c => c.2

/-- The calls that a change of the signals from those handled (of `old`) to `new` consists of: everything is given back, then all is taken anew. -/
def changeCalls (orig : Int → Disp) (handled : Int → Bool) (old new : List Int) : List (Int × Disp) :=
  (old.filter handled).map (fun n => (n, orig n)) ++ new.map fun n => (n, .g3log)

end G3.Spec
