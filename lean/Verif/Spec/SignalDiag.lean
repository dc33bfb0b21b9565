import Verif.Model.SignalDiag
/- Specification of the diagnostics about signal handlers. -/
namespace G3.Spec
open G3

/-- The name of a signal in a message about its restoration: the system's description of it, or its number. -/
def describe (sigName : Int → Option Str) (n : Int) : Str := (sigName n).getD ("Unknown signal ".toList ++ decInt n)

/-- Text as C functions see it. -/
def upToNul (t : Str) : Str := t.takeWhile fun c => decide (c ≠ Char.ofNat 0)

/-- What an event has to put on stderr: nothing if the system accepted, otherwise a text that names the signal concerned. -/
def eventText (sigName : Int → Option Str) : SigEvent → Str
  | .install _ _ true _ => []
  | .install _ name false why => upToNul ("sigaction - ".toList ++ name) ++ ": ".toList ++ why ++ "\n".toList
  | .restore _ _ true => []
  | .restore n _ false => upToNul ("sigaction - ".toList ++ describe sigName n)
  | .exit level n => "\n\nexitWithDefaultSignalHandler:232. Exiting due to ".toList ++ level.text ++ ", ".toList ++ decInt n ++ "   \n\n".toList

/-- What an event does to the dispositions. -/
def eventDisp (d : Int → Disp) : SigEvent → Int → Disp
  | .install n _ true _ => fun k => if k = n then .g3log else d k
  | .restore n old true => fun k => if k = n then old else d k
  | _ => d

/-- What is remembered as the old action of a signal. Every attempt to restore uses it up. -/
def eventSaved (d : Int → Disp) (sv : Int → Option Disp) : SigEvent → Int → Option Disp
  | .install n _ true _ => fun k => if k = n then some (d n) else sv k
  | .restore n _ _ => fun k => if k = n then none else sv k
  | _ => sv

/-- Dispositions and old actions after some events. -/
def replay (d : Int → Disp) (sv : Int → Option Disp) : List SigEvent → (Int → Disp) × (Int → Option Disp)
  | [] => (d, sv)
  | e :: es => replay (eventDisp d e) (eventSaved d sv e) es

/-- The signals that the events of a list are about, with the direction. -/
def SigEvent.about : SigEvent → Option (Bool × Int)
  | .install n _ _ _ => some (true, n)
  | .restore n _ _ => some (false, n)
  | .exit _ _ => none

/-- The answers of the system, one after the other from call number `k` on, are those in the events. -/
def Answers (y : SigSys) : Nat → List SigEvent → Prop
  | _, [] => True
  | k, .install n _ ok why :: es => ok = y.accepts k n ∧ (ok = false → why = y.errText k) ∧ Answers y (k + 1) es
  | k, .restore n _ ok :: es => ok = y.accepts k n ∧ Answers y (k + 1) es
  | k, .exit _ _ :: es => Answers y k es

/-- The attempts that restoring some signals has to make: each one whose old action is remembered, once. -/
def dueRestores (sv : Int → Option Disp) : List Int → List Int
  | [] => []
  | n :: ns => if (sv n).isSome then n :: dueRestores (fun k => if k = n then none else sv k) ns else dueRestores sv ns

/-- The attempts of a call: first the restorations, then the installations. -/
def attempts (sv : Int → Option Disp) (signals : List (Int × Str)) : SigCall → List (Bool × Int)
  | .install => signals.map fun p => (true, p.1)
  | .override ps => (dueRestores sv (signals.map Prod.fst)).map (fun n => (false, n)) ++ ps.map fun p => (true, p.1)
  | .restore n => if (sv n).isSome then [(false, n)] else []
  | .exit _ _ => (dueRestores sv (signals.map Prod.fst)).map fun n => (false, n)

end G3.Spec
