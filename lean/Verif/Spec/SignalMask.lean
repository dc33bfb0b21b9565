import Verif.Model.SignalMask
/-
Specification for C124: how a process ends after a fatal event, depending on what is blocked.
-/
namespace G3.Spec
open G3

/-- Threads of the library. -/
def ofLibrary : MThr → Prop
  | .prog _ => False
  | _ => True

/-- Before any fatal event: threads are started, the library is set up, the threads of the program choose their masks. -/
def quiet : MLabel → Prop
  | .spawn _ _ => True
  | .init _ => True
  | .addSink _ _ => True
  | .setMask (.prog _) _ => True
  | _ => False

/-- A step of the worker. -/
def workerStep : MLabel → Prop
  | .take => True
  | .flush => True
  | .restore => True
  | .wRaise => True
  | .exit => True
  | _ => False

/-- A step that neither is a further crash nor a signal that the library does not handle. -/
def noCrash (sigs : List Int) : MLabel → Prop
  | .raise _ n => n ∈ sigs
  | .kill n => n ∈ sigs
  | .deliver _ n => n ∈ sigs
  | .fault _ _ => False
  | .fatal _ => False
  | _ => True

/-- The thread that started the worker, and its mask at that time. -/
def workerMask (m : List Int) : (MThr → List Int) → List MLabel → List Int
  | _, [] => m
  | μ, .init t :: r => workerMask (μ t) (fun u => if u = .worker then μ t else μ u) r
  | μ, .spawn t i :: r => workerMask m (fun u => if u = .prog i then μ t else μ u) r
  | μ, .setMask t k :: r => workerMask m (fun u => if u = t then k else μ u) r
  | μ, .addSink t k :: r => workerMask m (fun u => if u = .sink k then μ t else μ u) r
  | μ, _ :: r => workerMask m μ r

/-- How the process ends when the worker has got a fatal event of signal `n`. -/
def endFor (blocked : Bool) (n : Int) : MEnd := if blocked then .exited n else .killed n

/-- The thread that does a step; signals come from outside. -/
def actor : MLabel → Option MThr
  | .spawn t _ => some t
  | .init t => some t
  | .addSink t _ => some t
  | .setMask t _ => some t
  | .raise t _ => some t
  | .fault t _ => some t
  | .fatal t => some t
  | .kill _ => none
  | .deliver _ _ => none
  | _ => some .worker

/-- What a step requires besides. -/
def requires (s : MaskState) : MLabel → Prop
  | .spawn _ i => s.live (.prog i) = false
  | .init _ => s.live .worker = false
  | .addSink _ k => s.logger = true ∧ s.live (.sink k) = false
  | .deliver t n => s.live t = true ∧ n ∉ s.mask t ∧ (n ∈ s.own t ∨ n ∈ s.pending)
  | .take => s.wpc = .serving ∧ s.queue ≠ []
  | .flush => (∃ n, s.wpc = .fatal n) ∧ ∀ k ∈ s.sinks, s.asleep (.sink k) = false
  | .restore => ∃ n, s.wpc = .flushed n
  | .wRaise => ∃ n, s.wpc = .restored n
  | .exit => ∃ n, s.wpc = .raised n
  | _ => True

/-- The mask of thread `u` after a step: new threads take over that of their parents, threads choose theirs, and a handler blocks its signal. -/
def maskAfter (s : MaskState) (u : MThr) : MLabel → List Int
  | .spawn t i => if u = .prog i then s.mask t else s.mask u
  | .init t => if u = .worker then s.mask t else s.mask u
  | .addSink t k => if u = .sink k then s.mask t else s.mask u
  | .setMask t m => if u = t then m else s.mask u
  | .raise t n => if u = t ∧ n ∉ s.mask t ∧ n ∈ s.handled then n :: s.mask u else s.mask u
  | .fault t n => if u = t ∧ n ∉ s.mask t ∧ n ∈ s.handled then n :: s.mask u else s.mask u
  | .deliver t n => if u = t ∧ n ∈ s.handled then n :: s.mask u else s.mask u
  | _ => s.mask u

/-- Logging is set up, and nothing bad has happened. -/
structure Calm (sigs : List Int) (s : MaskState) : Prop where
  up : s.logger = true
  worker : s.live .worker = true
  sinks : ∀ k, s.live (.sink k) = true ↔ k ∈ s.sinks
  awake : ∀ t, s.asleep t = false
  none1 : s.pending = []
  none2 : ∀ t, s.own t = []
  handles : s.handled = sigs
  first : s.count = 0
  empty : s.queue = []
  serving : s.wpc = .serving
  clean : s.report = []
  runs : s.ended = none

end G3.Spec
