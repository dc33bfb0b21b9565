import Verif.Model.Worker
/-
The expectations of /repo/test_unit/test_sink.cpp, replayed on the model of the worker (not proofs of properties, see
Conformance/Message). One schedule is replayed: after each call of the client all other threads run until none can go on. That the
outcomes hold in every schedule is what C02 to C06 and C18 prove. The tests with one hundred sinks are replayed with four.
-/
namespace G3.Conformance
open G3

/-- All threads but the client's. -/
def inner (s : WState Nat) : List (WLabel Nat) :=
  .work :: (List.range s.n).flatMap fun i => [.sinkPop i, .sinkFin i, .reap i]

/-- The first step that is possible. -/
def firstStep (s : WState Nat) : List (WLabel Nat) → Option (WState Nat)
  | [] => none
  | l :: ls => match wStep s l with
    | some s' => some s'
    | none => firstStep s ls

/-- At most `n` steps of the other threads. -/
def settle : Nat → WState Nat → WState Nat
  | 0, s => s
  | n + 1, s => match firstStep s (inner s) with
    | some s' => settle n s'
    | none => s

/-- A client performs steps, the other threads settle after each. -/
def client (s : WState Nat) : List (WLabel Nat) → Option (WState Nat)
  | [] => some s
  | l :: ls => match wStep s l with
    | some s' => client (settle 60 s') ls
    | none => none

/-- `~LogWorker`. The destructor has finished with the last of these steps if there are no sinks left. -/
def dtor : List (WLabel Nat) := [.dtor, .dtor, .dtor, .dtor]

/-- Number of items that the sink's thread has executed, and whether the sink is destroyed. -/
def seen (o : Option (WState Nat)) (i : Nat) : Option (Nat × Bool) := o.map fun s => ((s.sk i).done.length, (s.sk i).destroyed)

/-- The destructor has returned and nothing undefined has happened. -/
def gone (o : Option (WState Nat)) : Bool := o.any fun s => decide (s.phase = .returned) && !s.ub

/-- `OneSink`, test_sink.cpp:25-40. -/
example : seen (client .start [.add, .ret 0]) 0 = some (0, false) ∧
    seen (client .start ([.add, .ret 0, .save 1] ++ dtor)) 0 = some (1, true) ∧
    gone (client .start ([.add, .ret 0, .save 1] ++ dtor)) = true := by decide +kernel

/-- `OneSinkRemove`, test_sink.cpp:42-64: the sink has received the first message and is destroyed when `removeSink` returns. -/
example : seen (client .start [.add, .ret 0, .save 1, .remove 0, .ret 1]) 0 = some (1, true) ∧
    seen (client .start ([.add, .ret 0, .save 1, .remove 0, .ret 1, .save 2] ++ dtor)) 0 = some (1, true) ∧
    gone (client .start ([.add, .ret 0, .save 1, .remove 0, .ret 1, .save 2] ++ dtor)) = true := by decide +kernel

/-- `DefaultSinkRemove`, test_sink.cpp:67-78. -/
example : gone (client .start ([.add, .ret 0, .add, .ret 1, .remove 0, .ret 2, .clear, .ret 3] ++ dtor)) = true := by decide +kernel

/-- `OneHundredSinks`, test_sink.cpp:125-164. -/
example : (List.range 4).map (seen (client .start ([.add, .ret 0, .add, .ret 1, .add, .ret 2, .add, .ret 3, .save 1, .save 2] ++ dtor))) =
    List.replicate 4 (some (2, true)) := by decide +kernel

/-- `OneHundredSinksRemoved`, test_sink.cpp:180-203. -/
example : (List.range 4).map (seen (client .start [.add, .ret 0, .add, .ret 1, .add, .ret 2, .add, .ret 3, .save 1,
    .remove 0, .ret 4, .remove 1, .ret 5, .remove 2, .ret 6, .remove 3, .ret 7])) = List.replicate 4 (some (1, true)) := by decide +kernel

/-- `OneHundredRemoveAllSinks`, test_sink.cpp:205-226. -/
example : (List.range 4).map (seen (client .start [.add, .ret 0, .add, .ret 1, .add, .ret 2, .add, .ret 3, .save 1, .clear, .ret 4])) =
    List.replicate 4 (some (1, true)) := by decide +kernel

/-- `VoidCall__NoCall_ExpectingNoAdd`, test_sink.cpp:240-247. -/
example : seen (client .start ([.add, .ret 0] ++ dtor)) 0 = some (0, true) := by decide +kernel

/-- `VoidCall__OneCall_ExpectingOneAdd`, test_sink.cpp:249-257: the handle takes a reference for the call (sinkhandle.hpp:41-42). -/
example : seen (client .start ([.add, .ret 0, .hold 0, .call 0 7, .release 0] ++ dtor)) 0 = some (1, true) := by decide +kernel

/-- `VoidCall__TwoCalls_ExpectingTwoAdd` and `IntCall__TwoCalls_ExpectingTwoAdd`, test_sink.cpp:259-270, 287-300. -/
example : seen (client .start [.add, .ret 0, .hold 0, .call 0 7, .release 0]) 0 = some (1, false) ∧
    seen (client .start ([.add, .ret 0, .hold 0, .call 0 7, .release 0, .hold 0, .call 0 8, .release 0] ++ dtor)) 0 = some (2, true) := by
  decide +kernel

/-- `CannotCallSpawnTaskOnNullptrWorker`, test_sink.cpp:323-330: with no worker the future of a synchronous call is ready at once and
its task never runs (here: `addSink` while the destructor waits for the thread). -/
example : ((client .start [.dtor, .dtor, .add, .ret 0]).map fun s => (s.calls.map (·.pos), s.sub.length)) = some ([none], 2) := by decide +kernel

end G3.Conformance
