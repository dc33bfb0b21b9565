import Verif.Spec.FatalThreads
/-
C74, exactly. Each thread that raises a fatal event makes ten steps in `saveFatalMessage` (g3log.cpp:157-184): it copies the hook
(steps 1 and 2: begin and end), takes the mutex (3), assigns the harmless hook (4 and 5: begin and end), gives the mutex back (6), counts (7),
stores the first stack trace (8), runs its copy of the hook (9) and passes its message on (10). Everything below is read off the schedule,
i.e. off the list of the threads that made a step, newest first; there is no state.
-/
namespace G3.Spec
open G3

/-- How many steps a thread has made. -/
def made (h : List Nat) (t : Nat) : Nat := h.count t

/-- Some thread has made exactly n steps. -/
def someAt (h : List Nat) (n : Nat) : Bool := h.any fun v => made h v == n

/-- Some thread has made at least n steps. -/
def someFrom (h : List Nat) (n : Nat) : Bool := h.any fun v => decide (n ≤ made h v)

/-- Undefined behaviour: a copy begins during an assignment, or an assignment during a copy. -/
def collision : List Nat → Bool
  | [] => false
  | t :: h => collision h || (made h t == 0 && someAt h 4) || (made h t == 3 && someAt h 1)

/-- The schedule is possible: nobody goes on after undefined behaviour or after the tenth step, and the mutex is free when taken. -/
def possible : List Nat → Bool
  | [] => true
  | t :: h => possible h && !collision h && decide (made h t < 10) &&
      (made h t != 2 || !(someAt h 3 || someAt h 4 || someAt h 5))

/-- The copy of thread t is the user's hook: no assignment was over when t finished copying. -/
def gotHook (t : Nat) : List Nat → Bool
  | [] => false
  | u :: h => if u = t ∧ made h t = 1 then !someFrom h 5 else gotHook t h

/-- The threads that ran the user's hook, in order. -/
def hookRuns : List Nat → List Nat
  | [] => []
  | t :: h => if made h t = 8 ∧ gotHook t h = true then hookRuns h ++ [t] else hookRuns h

/-- The thread whose stack trace is kept: the first to make its eighth step. -/
def keptTrace : List Nat → Option Nat
  | [] => none
  | t :: h => match keptTrace h with
    | some r => some r
    | none => if made h t = 7 then some t else none

/-- Another thread than t has counted itself. -/
def company (h : List Nat) (t : Nat) : Bool := h.any fun v => v != t && decide (7 ≤ made h v)

/-- The messages passed on, in order. -/
def reports (text trace : Nat → Str) : List Nat → List (Nat × Str)
  | [] => []
  | t :: h =>
    if made h t = 9 then
      reports text trace h ++ [(t, if company h t then
        (match keptTrace h with | some r => warnedReport text trace t r | none => []) else plainReport text trace t)]
    else reports text trace h

end G3.Spec
