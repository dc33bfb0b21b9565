import Verif.Model.FatalResources
import Verif.Spec.Resources
/- C108 and C109: what a fatal statement and a call through a handle do when memory is missing. -/
namespace G3.Spec

/-- What it costs when a request fails. -/
inductive Loss
  | early                 -- the statement throws before its arguments are evaluated
  | words                 -- the end of a text
  | clean                 -- the statement throws; nothing else has happened
  | trace                 -- the statement throws; the hook is gone and has not been called
  | spoilt                -- the statement throws; the hook is gone and has been called
  | deadly                -- `std::terminate`
deriving DecidableEq

/-- The requests of a fatal statement in their order. `fresh`: no fatal statement has got as far as its stack trace yet; `again`: one has got so far since logging was initialised; `n` sinks. -/
def fatalPlan (inited fresh again : Bool) (n : Nat) : List Loss :=
  [.early, .early, .words, .clean, .clean] ++ (if fresh then [.trace] else []) ++ [.spoilt] ++ (if again then [.spoilt] else []) ++ [.spoilt] ++
    (if inited then .spoilt :: List.replicate (3 + 4 * n) .deadly else [.spoilt, .words, .spoilt])

/-- The first request of a plan that fails and costs more than words; `k` is the number of the first request. -/
def firstLoss (σ : Supply) : Nat → List Loss → Option (Nat × Loss)
  | _, [] => none
  | k, .words :: r => firstLoss σ (k + 1) r
  | k, l :: r => if σ.ok k then firstLoss σ (k + 1) r else some (k, l)

/-- The plan for a state. -/
def planOf (s : FmState) : List Loss := fatalPlan s.inited s.first.isNone (decide (1 ≤ s.count)) s.sc.att.length

/-- A text of which the end may be missing, because the request `k` has failed. -/
def worded (σ : Supply) (k : Nat) (t : Str) : Str := if σ.ok k = true then t else t.take (σ.cut k)

/-- The text of the fatal message: what was streamed, the stack dump, and the note that this is not the first time. -/
def fatalText (s : FmState) (d : Deadly) (t : Str) : Str :=
  if s.count = 0 then t ++ d.trace
  else t ++ d.trace ++
    "\n\n\nWARNING\nA recursive crash detected. It is likely the hook set with 'setFatalPreLoggingHook(...)' is responsible\n\n---First crash stacktrace: ".toList ++
    s.first.getD d.trace ++ "\n---End of first stacktrace\n".toList

/-- What the sinks get. -/
def fatalReport (s : FmState) (d : Deadly) (t : Str) : Str :=
  fatalText s d t ++ "\nExiting after fatal event  (".toList ++ d.level ++ "). Fatal type:  ".toList ++ d.reason ++ "\nLog content flushed successfully to sink\n\n".toList

/-- What stderr gets if logging is not initialised; `k`: the request for the text. -/
def orphanReport (σ : Supply) (k : Nat) (s : FmState) (d : Deadly) (t : Str) : Str :=
  worded σ k ("FATAL CALL but logger is NOT initialized\nCAUSE: ".toList ++ d.reason ++ "\nMessage: \n".toList ++ d.fmt (fatalText s d t))

/-- The state after `k` requests. -/
def FmState.after (s : FmState) (k : Nat) : FmState := { s with sc := { s.sc with req := k } }

/-- A fatal statement that has failed without the hook: its hook is gone and it counts. -/
def unhooked (s : FmState) : FmState := { s with hook := none, count := s.count + 1 }

/-- A fatal statement that has failed later: its stack trace is kept if it is the first, and the hook has been called. -/
def wasted (s : FmState) (d : Deadly) : FmState :=
  { s with hook := none, count := s.count + 1, first := some (s.first.getD d.trace), hooked := s.hooked ++ s.hook.toList }

/-- What becomes of a fatal statement, `loss` being the first request that fails and costs more than words. Nothing fails: the hook is called once and the process ends by its signal, after each sink has got the report and
after it has been shown on stderr. If an argument has thrown already (`b`) an exception in the destructor ends the process. -/
def fatalFate (σ : Supply) (s : FmState) (d : Deadly) (b : Bool) (loss : Option (Nat × Loss)) (r : FmOut × FmState) : Prop :=
  match loss with
  | none =>
    r.1 = .ended d.signal ∧ r.2.hooked = s.hooked ++ s.hook.toList ∧
      if s.inited then
        r.2.sc.got = s.sc.got ++ s.sc.att.map (fun i => (i, fatalReport s d (worded σ (s.sc.req + 2) d.text))) ∧
          r.2.cerr = s.cerr ++ [d.fmt (fatalReport s d (worded σ (s.sc.req + 2) d.text))]
      else r.2.sc.got = s.sc.got ∧ r.2.cerr = s.cerr ++ [orphanReport σ (s.sc.req + (planOf s).length - 2) s d (worded σ (s.sc.req + 2) d.text)]
  | some (j, .early) => r = (.threw .badAlloc, FmState.after s (j + 1))
  | some (j, .clean) => if b then r.1 = .terminated else r = (.threw .badAlloc, FmState.after s (j + 1))
  | some (j, .trace) => if b then r.1 = .terminated else r = (.threw .badAlloc, FmState.after (unhooked s) (j + 1))
  | some (j, .spoilt) => if b then r.1 = .terminated else r = (.threw .badAlloc, FmState.after (wasted s d) (j + 1))
  | some (_, .deadly) => r.1 = .terminated
  | some (_, .words) => False

/-- All requests succeed from here on. -/
def PlentyFrom (σ : Supply) (k : Nat) : Prop := ∀ n, k ≤ n → σ.ok n = true

/-! ### Programs with enough memory -/

/-- What clients see: the worker and its sinks, whether logging is initialised, the hook, the hooks that were called, what is on stderr, the calls on sinks and the futures. -/
structure FmIdeal where
  sys : Ideal
  logging : Bool
  hook : Option Nat
  hooked : List Nat
  cerr : List Str
  calls : List (Nat × Str)
  futures : List (Option (Nat × Str))

/-- Before anything is done. -/
def FmIdeal.start : FmIdeal := ⟨⟨false, [], [], 0, []⟩, false, none, [], [], [], []⟩

/-- The report of a fatal statement. -/
def plainReportOf (d : Deadly) : Str :=
  d.text ++ d.trace ++ "\nExiting after fatal event  (".toList ++ d.level ++ "). Fatal type:  ".toList ++ d.reason ++ "\nLog content flushed successfully to sink\n\n".toList

/-- When it makes sense. -/
def FmIdeal.can (a : FmIdeal) : FmOp → Bool
  | .base (.log _ _) => a.logging
  | .base o => a.sys.can o
  | .init => a.sys.worker && !a.logging
  | .call i _ => decide (i ∈ a.sys.handles)
  | _ => true

/-- The meaning of each call. A fatal statement is the end. -/
def FmIdeal.step (a : FmIdeal) : FmOp → FmOut × FmIdeal
  | .base .destroy => (.ok, { a with sys := a.sys.step .destroy, logging := false })
  | .base (.log t b) => (if b then .threw .user else .ok, { a with sys := a.sys.step (.log t b) })
  | .base o => (.ok, { a with sys := a.sys.step o })
  | .init => (.ok, { a with logging := true, hook := none })
  | .shutdown => (.ok, { a with logging := false })
  | .setHook h => (.ok, { a with hook := some h })
  | .call i x =>
    (.ok, if i ∈ a.sys.sinks then { a with calls := a.calls ++ [(i, x)], futures := a.futures ++ [some (i, x)] } else { a with futures := a.futures ++ [none] })
  | .fatal d _ => (.ended d.signal, if a.logging then
      { a with sys := { a.sys with sinks := [], got := a.sys.got ++ a.sys.sinks.map fun i => (i, plainReportOf d) }, logging := false, hook := none, hooked := a.hooked ++ a.hook.toList,
               cerr := a.cerr ++ [d.fmt (plainReportOf d)] }
    else
      { a with hook := none, hooked := a.hooked ++ a.hook.toList,
               cerr := a.cerr ++ ["FATAL CALL but logger is NOT initialized\nCAUSE: ".toList ++ d.reason ++ "\nMessage: \n".toList ++ d.fmt (d.text ++ d.trace)] })

/-- Is it a fatal statement? -/
def FmOp.isFatal : FmOp → Bool
  | .fatal _ _ => true
  | _ => false

/-- A program. -/
def FmIdeal.run (a : FmIdeal) : List FmOp → List FmOut × FmIdeal
  | [] => ([], a)
  | o :: ops =>
    if a.can o then
      if FmOp.isFatal o then ([(a.step o).1], (a.step o).2) else ((a.step o).1 :: ((a.step o).2.run ops).1, ((a.step o).2.run ops).2)
    else a.run ops

/-- What can be seen of a state. -/
def fmSeen (s : FmState) : FmIdeal := ⟨scSeen s.sc, s.inited, s.hook, s.hooked, s.cerr, s.calls, s.futures⟩

end G3.Spec
