import Verif.Model.Globals
/-
Happens-before ([intro.races], [thread.mutex.requirements], [thread.once.callonce], [thread.thread.constr], [thread.thread.member]) and data races for the events of
Verif.Model.Globals, and which functions may be called at the same time.
-/
namespace G3.Spec
open G3

/-- Event `i` is sequenced before event `j`, or synchronises with it. With `at'`, every access to an atomic variable synchronises with every later one. -/
inductive GEdge (at' : Bool) (tr : List GEvent) (i j : Nat) : Prop
  | po {e e' : GEvent} : i < j → tr[i]? = some e → tr[j]? = some e' → e.thr = e'.thr → GEdge at' tr i j
  | mutex {e e' : GEvent} {m : GMutex} : i < j → tr[i]? = some e → tr[j]? = some e' → e.op = .unlock m → e'.op = .lock m → GEdge at' tr i j
  | once {e e' : GEvent} {f : GFlag} : i < j → tr[i]? = some e → tr[j]? = some e' → e.op = .leave f → e'.op = .passed f → GEdge at' tr i j
  | fork {e e' : GEvent} : i < j → tr[i]? = some e → tr[j]? = some e' → e.op = .fork e'.thr → GEdge at' tr i j
  | join {e e' : GEvent} : i < j → tr[i]? = some e → tr[j]? = some e' → e'.op = .join e.thr → GEdge at' tr i j
  | atomic {e e' : GEvent} : at' = true → i < j → tr[i]? = some e → tr[j]? = some e' → e.op = .atomic → e'.op = .atomic → GEdge at' tr i j

/-- Happens before. -/
inductive GHB (at' : Bool) (tr : List GEvent) : Nat → Nat → Prop
  | edge {i j : Nat} : GEdge at' tr i j → GHB at' tr i j
  | trans {i j l : Nat} : GHB at' tr i j → GHB at' tr j l → GHB at' tr i l

/-- The access an event makes: variable, and whether it is a write. -/
def GAccess : GOp → Option (GVar × Bool)
  | .read x => some (x, false)
  | .write x => some (x, true)
  | _ => none

/-- A data race on `x` between event `i` of a call of `a` and event `j` of a call of `b`. -/
def GRace (at' : Bool) (tr : List GEvent) (i j : Nat) (x : GVar) (a b : GApi) : Prop :=
  ∃ e e' w w', tr[i]? = some e ∧ tr[j]? = some e' ∧ e.api = some a ∧ e'.api = some b ∧ e.thr ≠ e'.thr ∧
    GAccess e.op = some (x, w) ∧ GAccess e'.op = some (x, w') ∧ (w = true ∨ w' = true) ∧ ¬ GHB at' tr i j ∧ ¬ GHB at' tr j i

/-- Which functions must not be called at the same time, and which variable they would spoil. -/
def gTable : List (GVar × GApi × GApi) :=
  [ (.logger, .log, .initialize), (.logger, .log, .shutDown), (.logger, .log, .destroy), (.logger, .log, .fatalWork),
    (.logger, .logf, .initialize), (.logger, .logf, .shutDown), (.logger, .logf, .destroy), (.logger, .logf, .fatalWork),
    (.logger, .fatal, .initialize), (.logger, .fatal, .shutDown), (.logger, .fatal, .destroy), (.logger, .fatal, .fatalWork),
    (.logger, .destroy, .initialize), (.logger, .destroy, .shutDown), (.logger, .destroy, .destroy), (.logger, .destroy, .fatalWork),
    (.first, .log, .initialize), (.first, .logf, .initialize),
    (.hook, .fatal, .fatal), (.hook, .fatal, .initialize), (.hook, .fatal, .setHook),
    (.handler, .fatal, .setHandler), (.handler, .setHandler, .setHandler),
    (.maxSize, .logf, .setMax), (.maxSize, .setMax, .setMax),
    (.signals, .fatal, .overrideSignals), (.signals, .fatalWork, .overrideSignals), (.signals, .initialize, .overrideSignals),
    (.saved, .fatal, .fatal), (.saved, .fatal, .fatalWork), (.saved, .fatal, .initialize), (.saved, .fatal, .overrideSignals), (.saved, .fatal, .restoreSignal),
    (.saved, .fatalWork, .overrideSignals), (.saved, .fatalWork, .restoreSignal), (.saved, .initialize, .overrideSignals), (.saved, .initialize, .restoreSignal),
    (.saved, .overrideSignals, .restoreSignal), (.saved, .restoreSignal, .restoreSignal) ]

/-- Calls of `a` and `b` on two threads can race on `x`. -/
def GForbidden (x : GVar) (a b : GApi) : Prop := (x, a, b) ∈ gTable ∨ (x, b, a) ∈ gTable

/-- Fatal messages are handled by one thread. -/
def OneWorker (p : Nat → List GItem) : Prop := ∀ t t', .call .fatalWork ∈ p t → .call .fatalWork ∈ p t' → t = t'

end G3.Spec
