import Verif.Props.SinkThrow
import Verif.Props.WorkerLive
/-
C91, progress: whatever callbacks throw, all threads come to rest.
-/
namespace G3.Props
open G3 G3.Spec

variable {M : Type}

theorem n_internal {s s' : WState M} {l : WLabel M} (hl : internal s l) (h : wStep s l = some s') : s'.n = s.n := by
  unfold wStep at h
  split at h
  · cases h
  cases l with
  | save m => cases hl
  | fatal m => cases hl
  | add => cases hl
  | remove i => cases hl
  | clear => cases hl
  | hold i => cases hl
  | holdFail i c => cases hl
  | call i c => cases hl
  | release i => cases hl
  | sinkFatal i m => cases hl
  | ret k =>
    simp only [retStep, clientDrop] at h
    repeat' split at h
    all_goals first | (cases h; rfl) | (cases h; simp only; split <;> rfl) | cases h
  | reap i =>
    simp only at h
    repeat' split at h
    all_goals first | (cases h; rfl) | cases h
  | dtor =>
    simp only [dtorStep] at h
    repeat' split at h
    all_goals first | (cases h; rfl) | cases h
  | work =>
    simp only [workStep, takeTask] at h
    repeat' split at h
    all_goals first | (cases h; rfl) | cases h
  | sinkPop i =>
    simp only [sinkPop] at h
    repeat' split at h
    all_goals first | (cases h; rfl) | cases h
  | sinkFin i =>
    simp only [sinkFin] at h
    repeat' split at h
    all_goals first | (cases h; rfl) | cases h

/-- An upper bound on the number of steps without new input: the work of worker and sinks, one report of an exception, one exception for each sink, and the end of the process. -/
def throwWork (s : TState M) : Nat :=
  work s.base + (if s.signalled then 0 else taskCost s.base.n + 1) + sumTo (fun i => if s.asleep i then 0 else 1) s.base.n + (if s.ended then 0 else 1)

/-- Every step without new input uses up some of the bound. -/
theorem throwWork_decreases {env : TEnv M} {s s' : TState M} {l : WLabel M} (hi : AllInv s.base) (hl : internal s.base l) (h : tStep env s l = some s') : throwWork s' < throwWork s := by
  have plain : ∀ l, internal s.base l → ∀ s', ePlain s l = some s' → throwWork s' < throwWork s := by
    intro l hl s' h
    obtain ⟨b, hb, rfl⟩ := Option.map_eq_some_iff.mp h
    have h1 := work_decreases hi hl hb
    have h2 := n_internal hl hb
    simp only [throwWork, h2]
    omega
  unfold tStep at h
  split at h
  · cases h
  next hg =>
  have he : s.ended = false := by cases e : s.ended with | false => rfl | true => simp [e] at hg
  cases l with
  | sinkFin i =>
    simp only at h
    split at h
    · cases h
    next ha =>
    have ha : s.asleep i = false := by simpa using ha
    split at h
    · next x hx =>
      have hin : i < s.base.n := by
        unfold eThrows at hx
        split at hx
        · split at hx
          · next hc => exact hc.2.2.1
          · cases hx
        · cases hx
      unfold eAbort at h
      split at h
      · cases h; simp [throwWork, he]
      · split at h
        · next hs =>
          cases h
          have h1 := sumTo_change (f := fun j => if s.asleep j then 0 else 1) (g := fun j => if (if j = i then true else s.asleep j) then 0 else 1) (i := i) s.base.n hin (fun j hj => by simp [hj])
          simp only [ha, if_true] at h1
          simp only [throwWork]
          simp at h1 ⊢
          omega
        · next hs =>
          split at h
          · obtain ⟨b, hb, rfl⟩ := Option.map_eq_some_iff.mp h
            have hs' : s.signalled = false := by simpa using hs
            have hw : work b ≤ work s.base + taskCost s.base.n ∧ b.n = s.base.n := by
              unfold wStep at hb
              split at hb
              · cases hb
              simp only at hb
              split at hb
              · split at hb
                · cases hb; exact ⟨Nat.le_add_right _ _, rfl⟩
                · cases hb
                  have h1 := sum_upd (sk := s.base.sk) (n := s.base.n) (i := i) (f := fun k => { k with blocked := true }) hin 0 (Nat.le_refl _)
                  refine ⟨?_, rfl⟩
                  simp only [work, pushTask, List.length_append, List.length_singleton, Nat.mul_add, Nat.mul_one]
                  omega
              · cases hb
            simp only [throwWork, hw.2, hs', if_true]
            have := hw.1
            simp
            omega
          · cases h
            simp only [throwWork, he]
            simp
            omega
    · exact plain _ hl _ h
  | sinkFatal i m => cases hl
  | save m => cases hl
  | fatal m => cases hl
  | add => cases hl
  | remove i => cases hl
  | clear => cases hl
  | hold i => cases hl
  | holdFail i c => cases hl
  | call i c => cases hl
  | release i => cases hl
  | ret k => exact plain _ hl _ h
  | reap i => exact plain _ hl _ h
  | dtor => exact plain _ hl _ h
  | work => exact plain _ hl _ h
  | sinkPop i => exact plain _ hl _ h

/-- A run of steps without new input. -/
inductive TIRun (env : TEnv M) : TState M → List (WLabel M) → TState M → Prop
  | nil (s) : TIRun env s [] s
  | cons {s u s' : TState M} {l : WLabel M} {ls} : internal s.base l → tStep env s l = some u → TIRun env u ls s' → TIRun env s (l :: ls) s'

theorem tirun_tRun {env : TEnv M} {ls : List (WLabel M)} {s s' : TState M} (h : TIRun env s ls s') : tRun env s ls = some s' := by
  induction h with
  | nil => rfl
  | cons _ hs _ ih => rw [tRun, hs]; exact ih

theorem tlRun_append {env : TEnv M} (l r : List (WLabel M)) (s : TState M) : tRun env s (l ++ r) = (tRun env s l).bind fun u => tRun env u r := by
  induction l generalizing s with
  | nil => rfl
  | cons a l ih =>
    simp only [List.cons_append, tRun]
    cases tStep env s a with
    | none => rfl
    | some u => exact ih u

/-- C91: whatever callbacks throw and however the threads are scheduled, only a bounded number of steps is possible without new input. -/
theorem C91_bounded {env : TEnv M} {ls l : List (WLabel M)} {s s' : TState M} (h : tRun env TState.start ls = some s) (hr : TIRun env s l s') : l.length + throwWork s' ≤ throwWork s := by
  induction hr generalizing ls with
  | nil => simp
  | cons hl hs hr ih =>
    rename_i a u b l' r'
    have h1 := throwWork_decreases (allInv_run (base_run h)) hl hs
    have h2 := ih (ls := ls ++ [l']) (by rw [tlRun_append, h, Option.bind_some, tRun, hs]; rfl)
    simp only [List.length_cons]
    omega

/-- C91: so all threads come to rest, from every state: either the process has ended, or they wait for ever or for new input. -/
theorem C91_rests {env : TEnv M} {ls : List (WLabel M)} {s : TState M} (h : tRun env TState.start ls = some s) : ∃ l s', TIRun env s l s' ∧ eSettled env s' := by
  obtain ⟨n, hn⟩ : ∃ n, throwWork s = n := ⟨_, rfl⟩
  induction n using Nat.strongRecOn generalizing s ls with
  | _ n ih =>
    by_cases hs : eSettled env s
    · exact ⟨[], s, .nil s, hs⟩
    · have : ∃ l u, internal s.base l ∧ tStep env s l = some u := by
        unfold eSettled at hs
        obtain ⟨l, hl⟩ := Classical.not_forall.mp hs
        obtain ⟨h1, h2⟩ := Classical.not_imp.mp hl
        obtain ⟨u, hu⟩ := Option.ne_none_iff_exists'.mp h2
        exact ⟨l, u, h1, hu⟩
      obtain ⟨l, u, h1, h2⟩ := this
      have h3 := throwWork_decreases (allInv_run (base_run h)) h1 h2
      obtain ⟨r, s', h4, h5⟩ := ih (throwWork u) (by omega) (ls := ls ++ [l]) (by rw [tlRun_append, h, Option.bind_some, tRun, h2]; rfl) rfl
      exact ⟨l :: r, s', .cons h1 h2 h4, h5⟩

/-- C91: the part that holds, without assuming that the threads have come to rest: they do so after a bounded number of steps, and then, unless the process has ended or the removal of a sink waits for one that has thrown,
every sink that has not thrown has got everything, including the report of the exception. -/
theorem C91_others_reached_partial {env : TEnv M} {ls : List (WLabel M)} {s : TState M} (h : tRun env TState.start ls = some s) :
    ∃ l s', TIRun env s l s' ∧ l.length ≤ throwWork s ∧ eSettled env s' ∧
      (s'.ended = false → s'.base.ub = false → s'.base.wpc ≠ .dead → (∀ r ∈ handed 0 0 s'.log, (∀ i, r = .detach i → ¬ stuckSink s' i) ∧ r ≠ .detachAll) →
        ∀ j, j < s'.base.n → ¬ stuckSink s' j → received (s'.base.sk j) = gets j (handed 0 0 s'.log)) := by
  obtain ⟨l, s', h1, h2⟩ := C91_rests h
  have h3 := C91_bounded h h1
  refine ⟨l, s', h1, by omega, h2, ?_⟩
  intro he hu hd hnn j hj hk
  have h4 : tRun env TState.start (ls ++ l) = some s' := by rw [tlRun_append, h, Option.bind_some]; exact tirun_tRun h1
  exact C91_others_partial h4 he hu hd h2 hnn j hj hk

/-- A state that is not at rest, in which a callback is about to throw. -/
example : ∃ s, tRun (badSink true) TState.start twoSinks = some s ∧ ¬ eSettled (badSink true) s := by
  refine ⟨_, rfl, fun h => ?_⟩
  have := h (.sinkFin 0) trivial
  cases this

end G3.Props
