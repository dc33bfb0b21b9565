import Verif.Props.WorkerLocksLive
import Verif.Props.WorkerLocksOrder
import Verif.Props.WorkerLocksEnd
/-
C93, concrete executions: the hypotheses of the theorems are met, and what happens if the worker is destroyed while it is being used.
-/
namespace G3.Props
open G3 G3.Spec

/-- A thread inside `push` of the worker's queue goes all the way through it; nobody waits there. -/
def pushing (t : Nat) : List (KLabel Nat) := [.mem (.lock t), .mem (.act t), .mem (.unlock t), .mem (.notify t none)]

/-- The same; the worker thread waits. -/
def pushingWake (t : Nat) : List (KLabel Nat) := [.mem (.lock t), .mem (.act t), .mem (.unlock t), .mem (.notify t (some 0))]

/-- The worker thread takes a task. -/
def taking : List (KLabel Nat) := [.pop, .mem (.lock 0), .mem (.act 0), .mem (.unlock 0), .thr 0 .work]

/-- The worker thread finds nothing. -/
def waitingWorker : List (KLabel Nat) := [.pop, .mem (.lock 0), .mem (.act 0)]

/-- The worker thread, woken up. -/
def takingWoken : List (KLabel Nat) := [.mem (.lock 0), .mem (.act 0), .mem (.unlock 0), .thr 0 .work]

/-- The worker thread sends to a sink whose thread does not wait. -/
def sendingTo (i : Nat) : List (KLabel Nat) := [.thr 0 .work, .smem i (.lock 1), .smem i (.act 1), .smem i (.unlock 1), .smem i (.notify 1 none)]

/-- The thread of a sink executes a task. -/
def sinkTask (i : Nat) : List (KLabel Nat) := [.thr 0 (.sinkPop i), .smem i (.lock 0), .smem i (.act 0), .smem i (.unlock 0), .thr 0 (.sinkFin i)]

/-- The thread of a sink finds nothing. -/
def sinkWaits (i : Nat) : List (KLabel Nat) := [.thr 0 (.sinkPop i), .smem i (.lock 0), .smem i (.act 0)]

/-- Thread 2 adds a sink while the worker thread waits; then threads 2 and 3 log, both inside `push` at the same time, thread 3 first; the worker thread
and the thread of the sink deal with both messages and wait. -/
def twoThreads : List (KLabel Nat) :=
  waitingWorker ++ [.thr 2 .add] ++ pushingWake 2 ++ takingWoken ++ [.thr 2 (.ret 0)] ++
  [.thr 2 (.save 1), .thr 3 (.save 2), .mem (.lock 3), .mem (.act 3), .mem (.unlock 3), .mem (.lock 2), .mem (.act 2), .mem (.notify 3 none), .mem (.unlock 2), .mem (.notify 2 none)] ++
  taking ++ sendingTo 0 ++ [.thr 0 .work] ++ taking ++ sendingTo 0 ++ [.thr 0 .work] ++ waitingWorker ++
  sinkTask 0 ++ sinkTask 0 ++ sinkWaits 0

/-- `C93_refines`, `C93_received`, `C93_no_dangling`, `C93_conserved`. -/
example : ∃ k, kRun (KState.start 4) twoThreads = some k ∧ k.race = false ∧ k.ctl.ub = false ∧ received (k.ctl.sk 0) = [.log 2, .log 1] ∧
    k.wq.q = [] ∧ k.ctl.sub = [.add 0, .save 2, .save 1] ∧ asked (fun p => decide (p = (false, 1))) twoThreads = 1 :=
  ⟨_, rfl, rfl, rfl, rfl, rfl, rfl, rfl⟩

set_option maxRecDepth 4000 in
/-- What `twoThreads` stands for: thread 3 is ahead of thread 2. -/
example : linRun (KState.start 4) twoThreads =
    [.add, .work, .ret 0, .save 2, .save 1, .work, .work, .work, .work, .work, .work, .sinkPop 0, .sinkFin 0, .sinkPop 0, .sinkFin 0] := rfl

theorem no_step {T : Type} {s : QState T} (h : ∀ pc ∈ s.pcs, pc = .idle ∨ pc = .waiting) {l : QLabel T} (h1 : ∀ t op, l ≠ .call t op) (h2 : ∀ t, l ≠ .spurious t) :
    qStep s l = none := by
  have get : ∀ (t : Nat) pc, s.pcs[t]? = some pc → pc = .idle ∨ pc = .waiting := fun t pc e => h pc (List.mem_of_getElem? e)
  cases l with
  | call t op => exact absurd rfl (h1 t op)
  | spurious t => exact absurd rfl (h2 t)
  | lock t | act t | unlock t | notify t u =>
    cases e : s.pcs[t]? with
    | none => simp only [qStep, e] <;> split <;> rfl
    | some pc => rcases get t pc e with rfl | rfl <;> simp only [qStep, e] <;> split <;> rfl

/-- Everybody waits or is outside, all calls have returned: nothing can happen by itself. -/
theorem stuck_of {M : Type} {k : KState M} (hw : ∀ pc ∈ k.wq.pcs, pc = .idle ∨ pc = .waiting) (hs : ∀ i, ∀ pc ∈ (k.sq i).pcs, pc = .idle ∨ pc = .waiting)
    (h0 : k.wq.pcs[0]? = some .waiting) (hh : k.hand = none) (hi : k.ctl.wpc = .idle) (hd : k.dthr = none)
    (hn : ∀ i, i < k.ctl.n → (k.sq i).pcs[0]? = some .waiting) (hr : ∀ i, (k.ctl.sk i).running = none ∧ (k.ctl.sk i).reaping = false)
    (hc : ∀ c ∈ k.ctl.calls, c.returned = true) : kStuck k := by
  intro l hl
  unfold kStep
  split
  · rfl
  have mem : ∀ l : QLabel (KTask M), (∀ t, l ≠ .spurious t) → k.mem l = none := by
    intro l h2
    cases l with
    | call t op => rfl
    | spurious t => exact absurd rfl (h2 t)
    | act t | unlock t => simp only [KState.mem]; split <;> simp [KState.put, no_step hw, *] <;> rename_i e <;> rcases hw _ (List.mem_of_getElem? e) with h | h <;> cases h
    | lock t | notify t u => simp [KState.mem, no_step hw]
  have smem : ∀ i (l : QLabel (SItem M)), (∀ t, l ≠ .spurious t) → k.smem i l = none := by
    intro i l h2
    cases l with
    | call t op => rfl
    | spurious t => exact absurd rfl (h2 t)
    | act t | unlock t => simp only [KState.smem]; split <;> simp [no_step (hs i)]
    | lock t | notify t u => simp [KState.smem, no_step (hs i)]
  cases l with
  | pop => simp [hi, hh, qStep, h0]
  | mem l =>
    have : k.mem l = none := mem l (by intro t e; subst e; exact hl)
    simp [this]
  | smem i l =>
    have : k.smem i l = none := smem i l (by intro t e; subst e; exact hl)
    simp [this]
  | thr t l =>
    cases l with
    | ret c =>
      simp only [KState.act]
      split
      · rfl
      · next w hw => rw [if_neg]; intro e; have := hc w (List.mem_of_getElem? hw); rw [e.2.2.1] at this; cases this
    | reap i => simp [KState.act, hr i]
    | dtor => rw [show k.dthr = some t from hl] at hd; cases hd
    | work => simp [KState.act, KState.work, hh, hi]
    | sinkPop i =>
      simp only [KState.act]
      split
      · next e => simp [qStep, hn i e.1]
      · rfl
    | sinkFin i => simp [KState.act, sinkFin, hr i]
    | _ => exact hl.elim

/-- `C93_drains`: the state at the end of `twoThreads`. -/
example : ∃ k, kRun (KState.start 4) twoThreads = some k ∧ k.race = false ∧ k.ctl.ub = false ∧ k.ctl.wpc ≠ .dead ∧ (∀ i, (k.ctl.sk i).blocked = false) ∧ kStuck k ∧
    received (k.ctl.sk 0) = [.log 2, .log 1] := by
  refine ⟨_, rfl, rfl, rfl, (fun e => (by cases e)), fun i => ?_, stuck_of ?_ ?_ rfl rfl rfl rfl ?_ ?_ ?_, rfl⟩
  · cases i <;> rfl
  · intro pc h
    rcases List.mem_cons.1 h with rfl | h
    · exact Or.inr rfl
    · exact Or.inl (List.eq_of_mem_replicate (n := 3) h)
  · intro i pc h
    cases i with
    | zero =>
      rcases List.mem_cons.1 h with rfl | h
      · exact Or.inr rfl
      · exact Or.inl (List.eq_of_mem_replicate (n := 3) h)
    | succ i => exact Or.inl (List.eq_of_mem_replicate (n := 4) h)
  · intro i h
    cases i with
    | zero => rfl
    | succ i => exact absurd (Nat.lt_of_succ_lt_succ h) (Nat.not_lt_zero i)
  · intro i
    cases i <;> exact ⟨rfl, rfl⟩
  · intro c h
    rcases List.mem_cons.1 h with rfl | h
    · rfl
    · cases h

/-- Then thread 3 destroys the worker, and nobody else is inside its queue. -/
def thenDestroyed : List (KLabel Nat) :=
  [.thr 3 .dtor] ++ pushingWake 3 ++ takingWoken ++ [.thr 0 .work, .smem 0 (.lock 1), .smem 0 (.act 1), .smem 0 (.unlock 1), .smem 0 (.notify 1 (some 0)),
    .smem 0 (.lock 0), .smem 0 (.act 0), .smem 0 (.unlock 0), .thr 0 (.sinkFin 0), .thr 0 .work, .thr 0 .work] ++
  [.thr 3 .dtor] ++ pushing 3 ++ taking ++ [.thr 3 .dtor, .thr 3 .dtor]

/-- `C93_race_free`: the destructor returns and everything is delivered. -/
example : ∃ k, kRun (KState.start 4) (twoThreads ++ thenDestroyed) = some k ∧ k.race = false ∧ k.ctl.phase = .returned ∧ (k.ctl.sk 0).destroyed = true ∧
    received (k.ctl.sk 0) = [.log 2, .log 1] :=
  ⟨_, rfl, rfl, rfl, rfl, rfl⟩

/-- `C93_program_order`: message 1 of thread 2 is in the queue before thread 3 begins message 2. -/
example : ∃ s k, kRun (KState.start 4) ((waitingWorker ++ [.thr 2 .add] ++ pushingWake 2 ++ takingWoken ++ [.thr 2 (.ret 0)]) ++ .thr 2 (.save 1) :: pushing 2) = some s ∧
    s.wq.pcs[2]? = some .idle ∧
    kRun s (.thr 3 (.save 2) :: (pushing 3 ++ taking ++ sendingTo 0 ++ [.thr 0 .work] ++ taking ++ sendingTo 0 ++ sinkTask 0 ++ sinkTask 0)) = some k ∧
    k.race = false ∧ k.ctl.ub = false ∧ received (k.ctl.sk 0) = [.log 1, .log 2] :=
  ⟨_, _, rfl, rfl, rfl, rfl, rfl, rfl⟩

/-- **C93**, what the condition of `C93_race_free` is there for: thread 2 is inside `push` while thread 3 destroys the worker; its next step uses the queue that is gone, and
the message is lost. -/
theorem C93_race_reachable : ∃ (ls : List (KLabel Nat)) (k : KState Nat), kRun (KState.start 4) ls = some k ∧ k.race = true ∧ k.ctl.ub = false ∧
    asked (fun p => decide (p = (false, 7))) ls = 1 ∧ entered (fun p => decide (p = (false, 7))) k.ctl.sub = 0 :=
  ⟨[.thr 2 (.save 7), .thr 3 .dtor] ++ pushing 3 ++ taking ++ [.thr 0 .work, .thr 3 .dtor] ++ pushing 3 ++ [.mem (.lock 2), .mem (.act 2)], _, rfl, rfl, rfl, rfl, rfl⟩

/-- `C93_terminates`, `C93_rests`, `C93_delivers`: threads 2 and 3 are inside `push` with their messages while the worker thread is about to come back. -/
example : ∃ k, kRun (KState.start 4) (waitingWorker ++ [.thr 2 .add] ++ pushingWake 2 ++ takingWoken ++ [.thr 2 (.ret 0), .thr 2 (.save 1), .thr 3 (.save 2), .mem (.lock 3)]) = some k ∧
    k.dthr = none ∧ k.ctl.ub = false ∧ k.race = false ∧ owed k = 2 :=
  ⟨_, rfl, rfl, rfl, rfl, rfl⟩

end G3.Props
