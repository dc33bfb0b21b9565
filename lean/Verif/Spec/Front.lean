import Verif.Model.Front
/- Specification of the front end: which message reaches which worker. -/
namespace G3.Spec
open G3

/-- The messages handed to workers, in order. -/
def saves (es : List Eff) : List (Nat × LogMessage) := es.filterMap fun | .save w m => some (w, m) | _ => none

/-- The fatal messages handed over: to a worker or to the user's exit handler. -/
def handed (es : List Eff) : List FatalMessage := es.filterMap fun | .fatal _ m => some m | .handler m => some m | _ => none

/-- How often the hook `x` was started. -/
def started (x : Nat) (es : List Eff) : Nat := (es.filter fun | .hook i => decide (i = x) | _ => false).length

/-- Who receives what, given the active worker: a message goes to the active worker or nowhere; an illegal
initialisation ends the program; shutting down "for" another worker than the active one is refused
with a warning to the active one. -/
def deliveries : Option Nat → List FOp → List (Nat × LogMessage)
  | _, [] => []
  | some w, .log m :: r => (w, m) :: deliveries (some w) r
  | none, .log _ :: r => deliveries none r
  | none, .init (some w) :: r => deliveries (some w) r
  | _, .init _ :: _ => []
  | _, .shutdown :: r => deliveries none r
  | some a, .shutdownActive warn m (some b) :: r =>
    if a = b then deliveries none r else (if warn then [(a, m)] else []) ++ deliveries (some a) r
  | _, .shutdownActive _ _ _ :: r => deliveries none r
  | a, .setHook _ :: r => deliveries a r
  | a, .setHandler _ :: r => deliveries a r
  | a, .fatal _ _ _ :: r => deliveries a r

/-- No fatal event. -/
def calm (ops : List FOp) : Prop := ∀ m t n, FOp.fatal m t n ∉ ops

/-- No call of initializeLogging. -/
def noInit (ops : List FOp) : Prop := ∀ w, FOp.init w ∉ ops

/-- The first message logged. -/
def firstLog : List FOp → Option LogMessage
  | [] => none
  | .log m :: _ => some m
  | _ :: r => firstLog r

/-- The message as kept while there is no logger. -/
def keptForm (m : LogMessage) : LogMessage := { m with message := "LOGGER NOT INITIALIZED:\n\t\t".toList ++ m.message }

mutual
/-- The hooks installed by a step of a hook. -/
def actIds : Act → List Nat
  | .setHook id acts => id :: actsIds acts
  | _ => []
/-- The hooks installed by a hook. -/
def actsIds : List Act → List Nat
  | [] => []
  | a :: r => actIds a ++ actsIds r
end

/-- A hook that neither raises fatal events nor fails. -/
def peaceful : List Act → Prop
  | [] => True
  | .log _ :: r => peaceful r
  | _ => False

/-- The hooks a call installs. -/
def opIds : FOp → List Nat
  | .setHook h => h.id :: actsIds h.acts
  | _ => []

/-- Text of a fatal message handed over: the entry, the stack trace and, if it is flagged, the warning with the first
stack trace. -/
def fatalEntry (m : LogMessage) (trace first : Str) (flagged : Bool) : Str :=
  m.message ++ trace ++
    if flagged then
      "\n\n\nWARNING\nA recursive crash detected. It is likely the hook set with 'setFatalPreLoggingHook(...)' is responsible\n\n---First crash stacktrace: ".toList
        ++ first ++ "\n---End of first stacktrace\n".toList
    else []

/-- A hook that only logs and raises fatal events. -/
def simpleActs : List Act → Prop
  | [] => True
  | .log _ :: r => simpleActs r
  | .fatal _ _ _ :: r => simpleActs r
  | _ => False

/-- The fatal events raised by a hook. -/
def raisedBy : List Act → List (LogMessage × Str × Int)
  | [] => []
  | .fatal m t n :: r => (m, t, n) :: raisedBy r
  | _ :: r => raisedBy r

/-- What the user's exit handler receives over a history of calls: text and signal of each fatal message. `active` is
the active worker, `count` fatal events have happened since the last initialisation, `first` is the stack trace of the
very first one in the program, `hook` the steps of the present hook. -/
def handlerSees (active : Option Nat) (count : Nat) (first : Option Str) (hook : List Act) : List FOp → List (Str × Int)
  | [] => []
  | .log _ :: r => handlerSees active count first hook r
  | .setHook h :: r => handlerSees active count first h.acts r
  | .setHandler _ :: r => handlerSees active count first hook r
  | .fatal m t n :: r =>
    (raisedBy hook).map (fun x => (fatalEntry x.1 x.2.1 (first.getD t) true, x.2.2)) ++
    (fatalEntry m t (first.getD t) (decide (count + (raisedBy hook).length ≥ 1)), n) ::
      handlerSees active (count + (raisedBy hook).length + 1) (some (first.getD t)) [] r
  | .shutdown :: r => handlerSees none count first hook r
  | .shutdownActive _ _ b :: r =>
    handlerSees (if active.isSome ∧ b.isSome ∧ active ≠ b then active else none) count first hook r
  | .init w :: r => if active = none ∧ w.isSome then handlerSees w 0 first [] r else []

/-- Histories with simple hooks, in which the exit handler keeps returning. -/
def simpleOps (ops : List FOp) : Prop := ∀ op ∈ ops, match op with
  | .setHook h => simpleActs h.acts
  | .setHandler k => k = .custom true
  | _ => True

end G3.Spec
