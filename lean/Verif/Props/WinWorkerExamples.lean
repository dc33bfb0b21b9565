import Verif.Props.WinWorker
/-
C97: what goes wrong, and concrete schedules that meet the hypotheses of the theorems in `Verif.Props.WinWorker`.
-/
namespace G3.Props
open G3 G3.Spec

/-- Message 9 is the report of an exception. -/
def exc9 (m : Nat) : Bool := m == 9

/-- A sink is added and gets message 1, then thread 0 raises the exception. -/
def winRaise : List (YLabel Nat) := [.base .add, .base .work, .base (.ret 0), .base (.save 1), .raise 0 9]

/-- The worker and the sink deal with both, thread 0 continues. -/
def winHandled : List (YLabel Nat) :=
  [.base .work, .base .work, .base .work, .base .work, .base .work, .base .work, .base .work, .base (.sinkPop 0), .base (.sinkFin 0), .base (.sinkPop 0),
   .base (.sinkFin 0), .base (.sinkPop 0), .base (.sinkFin 0), .base .work, .base .work]

def winGoesOn : List (YLabel Nat) := winRaise ++ winHandled ++ [.resume 0]

/-- C97, what does not hold: that logging goes on after an exception that the program handles. The sink had been added, is never removed, and
the message logged after the exception does not reach it; a line on stderr says that there is no sink. -/
theorem C97_negation : ∃ s : YState Nat, yRun exc9 YState.start (winGoesOn ++ [.base (.save 2), .base .work]) = some s ∧ s.over = false ∧
    s.w.phase = .notStarted ∧ settled s.w ∧ (s.w.sk 0).destroyed = true ∧ seenBy s 0 = [1, 9] ∧ s.w.err = [.fatal 9, .noSinks 2] :=
  ⟨_, rfl, rfl, rfl, Or.inl ⟨rfl, rfl⟩, rfl, rfl, rfl⟩

/-- C97, what does not hold: that a fatal event ends the program where it is raised. After the exception thread 0 raises the fatal event 5, which
is no exception (`LOG(FATAL)`), and continues, while the worker has not begun with it; it then logs message 6. -/
theorem C97_negation_fatal : ∃ s : YState Nat, yRun exc9 YState.start (winGoesOn ++ [.raise 0 5, .resume 0, .base (.save 6)]) = some s ∧ s.over = false ∧
    s.waiting 0 = false ∧ s.w.wq = [.fatal 5, .save 6] ∧ s.w.err = [.fatal 9] :=
  ⟨_, rfl, rfl, rfl, rfl, rfl⟩

/-- C97, what does not hold: that a thread that raises an exception continues only when its report is written. Thread 1 raises the exception 19
while thread 0 is waiting, and continues together with it. -/
theorem C97_negation_second : ∃ s : YState Nat, yRun (fun m => m % 10 == 9) YState.start (winRaise ++ [.raise 1 19] ++ winHandled ++ [.resume 1]) = some s ∧
    s.over = false ∧ s.waiting 1 = false ∧ s.w.wq = [.fatal 19] ∧ s.w.err = [.fatal 9] :=
  ⟨_, rfl, rfl, rfl, rfl, rfl⟩

/-! ### Examples -/

/-- `C97_prefix`, `C97_complete`, `C97_err`, `C97_lost`, `C97_process`: everything the sink gets before and after; a second sink gets what is logged
after it has been added, and the fatal event 5 ends the process. -/
def winNew : List (YLabel Nat) :=
  winGoesOn ++ [.base (.save 2), .base .work, .base .add, .base .work, .base (.ret 1), .base (.save 3), .raise 0 5, .base .work, .base .work, .base .work,
    .base .work, .base .work, .base .work, .base .work, .base (.sinkPop 1), .base (.sinkFin 1), .base (.sinkPop 1), .base (.sinkFin 1), .base (.sinkPop 1),
    .base (.sinkFin 1), .base .work, .base .work]

example : ∃ s : YState Nat, yRun exc9 YState.start winNew = some s ∧ s.w.ub = false ∧ settled s.w ∧ s.w.wpc = .dead ∧ (s.w.sk 0).q = [] ∧
    (s.w.sk 0).running = none ∧ (s.w.sk 1).q = [] ∧ (s.w.sk 1).running = none ∧ seenBy s 0 = [1, 9] ∧ seenBy s 1 = [3, 5] ∧
    s.w.err = [.fatal 9, .noSinks 2, .fatal 5] ∧
    xHanded winNew = [.attach 0, .log 1] ++ .fatal 9 :: [.log 2, .attach 1, .log 3, .fatal 5] :=
  ⟨_, rfl, rfl, Or.inr (Or.inr rfl), rfl, rfl, rfl, rfl, rfl, rfl, rfl, rfl, rfl⟩

/-- `C97_each`, `C97_detaches`: a sink that is attached, and one that is not any more. -/
example : (∀ r ∈ ([.attach 0, .log 1] : List (Req Nat)), r.stops exc9 = false) ∧ attached 0 ([.attach 0, .log 1] : List (Req Nat)) = true ∧
    dueToX exc9 0 ([.attach 0, .log 1] ++ .fatal 9 :: [.log 2]) = [1, 9] ∧ attached 0 ([.attach 0, .log 1] ++ .fatal 9 :: [.log 2] : List (Req Nat)) = false := by
  decide

/-- `C97_same`: no exception, only the fatal event 5. -/
example : ∃ s : YState Nat, yRun exc9 YState.start [.base .add, .base .work, .raise 0 5, .base .work] = some s ∧
    (∀ m, .fatal m ∈ xHanded ([.base .add, .base .work, .raise 0 5, .base .work] : List (YLabel Nat)) → exc9 m = false) ∧
    s.w.wpc = .sending (.fatal 5) [0] ∧ s.waiting 0 = true :=
  ⟨_, rfl, by simp [xHanded, xProj, handed, exc9], rfl, rfl⟩

/-- `C97_released`: a thread that waits, before and after the exception has been dealt with. -/
example : (∃ s : YState Nat, yRun exc9 YState.start winRaise = some s ∧ s.over = false ∧ s.waiting 0 = true ∧ yStep exc9 s (.resume 0) = none) ∧
    (∃ s : YState Nat, yRun exc9 YState.start (winRaise ++ winHandled) = some s ∧ s.over = false ∧ s.waiting 0 = true ∧ s.w.completed = 3 ∧
      (xHanded (winRaise ++ winHandled))[2]? = some (.fatal 9) ∧ (yStep exc9 s (.resume 0)).isSome = true) :=
  ⟨⟨_, rfl, rfl, rfl, rfl⟩, ⟨_, rfl, rfl, rfl, rfl, rfl, rfl⟩⟩

/-- `C97_sink_released`: the callback of a sink that a client holds raises the exception; it is not destroyed, and its thread continues. -/
example : ∃ s s' : YState Nat, yRun exc9 YState.start [.base .add, .base .work, .base (.hold 0), .base (.ret 0), .base (.save 1), .base .work, .base .work,
      .base .work, .base (.sinkPop 0), .base (.sinkFatal 0 9), .base .work, .base .work, .base .work, .base .work, .base .work] = some s ∧ s.over = false ∧
    0 < s.w.n ∧ (s.w.sk 0).blocked = true ∧ yStep exc9 s (.sinkResume 0) = some s' ∧ (s'.w.sk 0).blocked = false :=
  ⟨_, _, rfl, rfl, by decide, rfl, rfl, rfl⟩

/-- `C97_raise`. -/
example : ∃ s s' : YState Nat, yRun exc9 YState.start (winRaise.take 4) = some s ∧ yStep exc9 s (.raise 0 9) = some s' ∧ s'.waiting 0 = true :=
  ⟨_, _, rfl, rfl, rfl⟩

/-- `C97_waits_partial`. -/
example : ∃ u s s' : YState Nat, yRun exc9 YState.start (winRaise.take 4) = some u ∧ u.w.phase.bgNull = false ∧
    (∀ m, .fatal m ∈ xHanded (winRaise.take 4) → exc9 m = false) ∧ yRun exc9 u (.raise 0 9 :: winHandled) = some s ∧
    yStep exc9 s (.resume 0) = some s' ∧ 0 < u.w.n ∧ s.w.wpc = .idle ∧ (s.w.sk 0).refs = 0 ∧ adding s.w.calls 0 = false ∧ (s.w.sk 0).reaping = false :=
  ⟨_, _, _, rfl, rfl, by simp [winRaise, xHanded, xProj, handed], rfl, rfl, by decide, rfl, rfl, rfl, rfl⟩

/-- `C97_returns`. -/
example : ∃ s : YState Nat, yRun exc9 YState.start winGoesOn = some s ∧ s.over = false ∧ s.w.phase.bgNull = false ∧ 2 < s.w.completed ∧
    (xHanded winGoesOn)[2]? = some (.fatal 9) ∧ exc9 9 = true ∧ s.waiting 0 = false :=
  ⟨_, rfl, rfl, rfl, by decide, rfl, rfl, rfl⟩

/-- `C97_sink_hangs`: the callback of the sink raises the exception while it processes message 1. -/
example : ∃ s : YState Nat, yRun exc9 YState.start [.base .add, .base .work, .base (.ret 0), .base (.save 1), .base .work, .base .work, .base .work,
      .base (.sinkPop 0), .base (.sinkFatal 0 9), .base .work, .base .work, .base .work, .base .work] = some s ∧ Stuck s.w 0 true ∧ s.block = true :=
  ⟨_, rfl, ⟨rfl, by decide, rfl, rfl⟩, rfl⟩

end G3.Props
