import Verif.Props.WorkerLive
import Verif.Spec.StuckSink
/-
C83: a sink that hangs (its callback does not return) and everybody else.
-/
namespace G3.Props
open G3 G3.Spec

variable {M : Type}

/-! ### The threads that log -/

/-- C83: logging never waits for a sink, nor for anything else. In every state of a working logger, whatever the threads
of the worker and of the sinks are doing or waiting for, any number of messages can be logged without any of these
threads taking a step; the messages are queued in order behind what is there. -/
theorem C83_loggers {ls : List (WLabel M)} {s : WState M} (_h : wRun WState.start ls = some s) (hu : s.ub = false)
    (hd : s.wpc ≠ .dead) (hp : s.phase.bgNull = false) (ms : List M) :
    wRun s (ms.map .save) = some { s with wq := s.wq ++ ms.map .save, sub := s.sub ++ ms.map .save } := by
  clear _h
  induction ms generalizing s with
  | nil => simp [wRun]
  | cons m ms ih =>
    have hg : ¬ (s.ub = true ∨ s.wpc.isDead = true) := by
      rintro (h | h)
      · rw [hu] at h; cases h
      · cases hw : s.wpc <;> rw [hw] at h <;> first | exact hd hw | cases h
    rw [List.map_cons, wRun]
    simp only [wStep, if_neg hg, hp, Bool.false_eq_true, if_false, Option.bind_some]
    rw [ih (s := pushTask s (.save m)) hu hd hp]
    simp [pushTask]

/-! ### The other sinks -/

/-- Steps that need no new input and do not consist in the return of a callback of a sink out of `K`. -/
def internalBut (K : Nat → Prop) (s : WState M) (l : WLabel M) : Prop := internal s l ∧ ∀ i, K i → l ≠ .sinkFin i

/-- A run of such steps. -/
inductive IRunBut (K : Nat → Prop) : WState M → List (WLabel M) → WState M → Prop
  | nil (s) : IRunBut K s [] s
  | cons {s u s' : WState M} {l : WLabel M} {ls} : internalBut K s l → wStep s l = some u → IRunBut K u ls s' → IRunBut K s (l :: ls) s'

theorem irun_of_but {K : Nat → Prop} {ls : List (WLabel M)} : ∀ {s s' : WState M}, IRunBut K s ls s' → IRun s ls s' := by
  induction ls with
  | nil => intro s s' h; cases h; exact .nil _
  | cons l ls ih =>
    intro s s' h
    cases h with
    | cons hl hs hr => exact .cons hl.1 hs (ih hr)

/-- The worker thread waits for the end of sink `i`. -/
def workerWaits (s : WState M) (i : Nat) : Prop := s.wpc = .rmWait i ∨ ∃ f, s.wpc = .clrWait i f

/-- No such step is possible: all threads have done what they can while the sinks out of `K` hang. -/
def stuckBut (K : Nat → Prop) (s : WState M) : Prop := ∀ l, internalBut K s l → wStep s l = none

theorem quiet_but {K : Nat → Prop} {s : WState M} (hi : AllInv s) (hu : s.ub = false) (hd : s.wpc ≠ .dead)
    (hb : ∀ i, (s.sk i).blocked = true → K i) (h : stuckBut K s) :
    (∀ i, i < s.n → ¬ K i → (s.sk i).q = [] ∧ (s.sk i).running = none) ∧
    ((s.wpc = .idle ∧ s.wq = []) ∨ s.wpc = .ended ∨ ∃ i, K i ∧ workerWaits s i) := by
  have hg : ¬ (s.ub = true ∨ s.wpc.isDead = true) := by
    rintro (h | h)
    · rw [hu] at h; cases h
    · cases hw : s.wpc <;> rw [hw] at h <;> first | exact hd hw | cases h
  have hrun : ∀ i, i < s.n → ¬ K i → (s.sk i).running = none := by
    intro i hin hk
    have := h (.sinkFin i) ⟨trivial, fun j hj e => by cases e; exact hk hj⟩
    have hbi : (s.sk i).blocked = false := by
      cases e : (s.sk i).blocked with
      | false => rfl
      | true => exact absurd (hb i e) hk
    simp only [wStep, if_neg hg, sinkFin, hin, hbi, and_self, if_true] at this
    split at this
    · assumption
    · cases this
    · cases this
  have hq : ∀ i, i < s.n → ¬ K i → (s.sk i).q = [] := by
    intro i hin hk
    cases he : (s.sk i).exited with
    | true => exact ((hi.w.sinks.loc i).exit he).1
    | false =>
      have := h (.sinkPop i) ⟨trivial, fun j hj e => by cases e⟩
      simp only [wStep, if_neg hg, sinkPop, hin, hrun i hin hk, he, and_self, if_true] at this
      split at this
      · assumption
      · cases this
  have hex : ∀ i, i < s.n → ¬ K i → (s.sk i).stopSent = true → (s.sk i).exited = true :=
    fun i hin hk hs => sent_stop (hi.w.sinks.loc i) hs (hq i hin hk) (hrun i hin hk)
  refine ⟨fun i hin hk => ⟨hq i hin hk, hrun i hin hk⟩, ?_⟩
  have hwork := h .work ⟨trivial, fun j hj e => by cases e⟩
  simp only [wStep, if_neg hg, workStep] at hwork
  split at hwork
  · next hp =>
    left
    refine ⟨hp, ?_⟩
    unfold takeTask at hwork
    split at hwork
    · assumption
    · split at hwork <;> cases hwork
    · cases hwork
    · cases hwork
    · split at hwork <;> cases hwork
    · cases hwork
    · cases hwork
  · cases hwork
  · cases hwork
  · cases hwork
  · split at hwork <;> cases hwork
  · next i hp =>
    right; right
    by_cases hk : K i
    · exact ⟨i, hk, Or.inl hp⟩
    · have hw := hi.w.sinks.waits i (by simp [waitsOn, hp, pcWaits])
      rw [if_pos (hex i hw.1 hk hw.2.1)] at hwork; cases hwork
  · split at hwork
    · split at hwork <;> cases hwork
    · split at hwork <;> cases hwork
  · next i f hp =>
    right; right
    by_cases hk : K i
    · exact ⟨i, hk, Or.inr ⟨f, hp⟩⟩
    · have hw := hi.w.sinks.waits i (by simp [waitsOn, hp, pcWaits])
      rw [if_pos (hex i hw.1 hk hw.2.1)] at hwork; cases hwork
  · next hp => exact Or.inr (Or.inl hp)
  · next hp => exact absurd hp hd

/-- When the worker waits for a sink, the request it serves is one that may have to. -/
theorem waits_request {K : Nat → Prop} {ls : List (WLabel M)} {s : WState M} (h : wRun WState.start ls = some s) {i : Nat} (hk : K i)
    (hw : workerWaits s i) : ∃ r ∈ handed 0 0 ls, r.mayWaitFor K := by
  have ht := (allInv_run h).w.book.task
  have hm : ∀ t, s.sub[s.completed]? = some t → req t ∈ handed 0 0 ls := by
    intro t e
    rw [← sub_handed h]
    exact List.mem_map.mpr ⟨t, List.mem_of_getElem? e, rfl⟩
  rcases hw with hp | ⟨f, hp⟩
  · rw [hp] at ht
    exact ⟨_, hm _ ht, hk⟩
  · rw [hp] at ht
    cases f with
    | false => exact ⟨_, hm _ ht, trivial⟩
    | true => obtain ⟨m, ht⟩ := ht; exact ⟨_, hm _ ht, trivial⟩

/-- C83, positive part: sinks that hang do not keep anything from the others, as long as nobody asks for one of them to be
removed (nor for all sinks, nor is there a fatal event). Whatever has happened before, when all other threads have done what
they can, every other sink has received all it is to receive. -/
theorem C83_others_partial {K : Nat → Prop} {ls l : List (WLabel M)} {s s' : WState M} (h : wRun WState.start ls = some s)
    (hr : IRunBut K s l s') (hu : s'.ub = false) (hd : s'.wpc ≠ .dead) (hb : ∀ i, (s'.sk i).blocked = true → K i) (hst : stuckBut K s')
    (hn : ∀ r ∈ handed 0 0 (ls ++ l), ¬ r.mayWaitFor K) :
    ∀ i, i < s'.n → ¬ K i → received (s'.sk i) = gets i (handed 0 0 (ls ++ l)) := by
  have hrun := wRun_append' h (irun_wRun (irun_of_but hr))
  obtain ⟨h1, h2⟩ := quiet_but (allInv_run hrun) hu hd hb hst
  intro i hin hk
  obtain ⟨hq, hrn⟩ := h1 i hin hk
  refine C02_complete hrun ?_ i hq hrn
  rcases h2 with h2 | h2 | ⟨j, hj, hw⟩
  · exact Or.inl h2
  · exact Or.inr (Or.inl h2)
  · obtain ⟨r, hm, hr⟩ := waits_request hrun hj hw
    exact absurd hr (hn r hm)

/-- C83: in every case: either so, or the worker is waiting for one of the hanging sinks. -/
theorem C83_exact {K : Nat → Prop} {ls l : List (WLabel M)} {s s' : WState M} (h : wRun WState.start ls = some s)
    (hr : IRunBut K s l s') (hu : s'.ub = false) (hd : s'.wpc ≠ .dead) (hb : ∀ i, (s'.sk i).blocked = true → K i) (hst : stuckBut K s') :
    (∃ i, K i ∧ workerWaits s' i) ∨ ∀ i, i < s'.n → ¬ K i → received (s'.sk i) = gets i (handed 0 0 (ls ++ l)) := by
  have hrun := wRun_append' h (irun_wRun (irun_of_but hr))
  obtain ⟨h1, h2⟩ := quiet_but (allInv_run hrun) hu hd hb hst
  rcases h2 with h2 | h2 | h2
  · right; intro i hin hk; obtain ⟨hq, hrn⟩ := h1 i hin hk; exact C02_complete hrun (Or.inl h2) i hq hrn
  · right; intro i hin hk; obtain ⟨hq, hrn⟩ := h1 i hin hk; exact C02_complete hrun (Or.inr (Or.inl h2)) i hq hrn
  · exact Or.inl h2

/-- C83: this point is always reached, after a bounded number of steps in whatever order. -/
theorem C83_reached (K : Nat → Prop) {ls : List (WLabel M)} {s : WState M} (h : wRun WState.start ls = some s) :
    (∃ l s', IRunBut K s l s' ∧ stuckBut K s') ∧ ∀ l s', IRunBut K s l s' → l.length ≤ work s := by
  constructor
  · have hi := allInv_run h
    clear h
    generalize hw : work s = w
    induction w using Nat.strongRecOn generalizing s with
    | _ w ih =>
      by_cases hst : stuckBut K s
      · exact ⟨[], s, .nil s, hst⟩
      · simp only [stuckBut, not_forall] at hst
        obtain ⟨l, hl, hn⟩ := hst
        cases hs : wStep s l with
        | none => exact absurd hs hn
        | some u =>
          have hlt := work_decreases hi hl.1 hs
          obtain ⟨m, s', h1, h2⟩ := ih (work u) (by omega) (allInv_step hi hs) rfl
          exact ⟨l :: m, s', .cons hl hs h1, h2⟩
  · intro l s' hr
    have := C52_bounded h (irun_of_but hr)
    omega

/-! ### When the hanging sink is to be removed -/

/-- The worker waits for sink `i`, whose thread has not ended. -/
structure HeldUp (i : Nat) (pc : WPc M) (n : Nat) (s : WState M) : Prop where
  waits : workerWaits s i
  pc : s.wpc = pc
  done : s.completed = n
  alive : (s.sk i).exited = false
  lt : i < s.n

theorem heldUp_step {i n : Nat} {pc : WPc M} {s s' : WState M} {l : WLabel M} (h : HeldUp i pc n s) (hl : l ≠ .sinkFin i)
    (hs : wStep s l = some s') : HeldUp i pc n s' := by
  have frame : ∀ s' : WState M, s'.wpc = s.wpc → s'.completed = s.completed → (s'.sk i).exited = (s.sk i).exited → s.n ≤ s'.n → HeldUp i pc n s' := by
    intro s' h1 h2 h3 h4
    exact ⟨by unfold workerWaits; rw [h1]; exact h.waits, by rw [h1]; exact h.pc, by rw [h2]; exact h.done, by rw [h3]; exact h.alive,
      Nat.lt_of_lt_of_le h.lt h4⟩
  have upd : ∀ (j : Nat) (f : SinkSt M → SinkSt M), (∀ k, (f k).exited = k.exited) → (updSink s.sk j f i).exited = (s.sk i).exited := by
    intro j f hf
    by_cases hj : i = j
    · subst hj; rw [updSink_self]; exact hf _
    · rw [updSink_ne _ _ hj]
  have drop : ∀ (s1 : WState M) (j : Nat), s1.wpc = s.wpc → s1.completed = s.completed → (s1.sk i).exited = (s.sk i).exited → s1.n = s.n →
      HeldUp i pc n (clientDrop s1 j) := by
    intro s1 j h1 h2 h3 h4
    unfold clientDrop
    split
    · exact frame _ h1 h2 h3 (by omega)
    · refine frame _ h1 h2 ?_ (by simp only; omega)
      simp only
      by_cases hj : i = j
      · subst hj; rw [updSink_self]; exact h3
      · rw [updSink_ne _ _ hj]; exact h3
  unfold wStep at hs
  split at hs
  · cases hs
  cases l with
  | save m => simp only at hs; split at hs <;> cases hs <;> exact frame _ rfl rfl rfl (Nat.le_refl _)
  | fatal m => simp only at hs; split at hs <;> cases hs <;> exact frame _ rfl rfl rfl (Nat.le_refl _)
  | add =>
    simp only [Option.some.injEq] at hs
    subst hs
    have hne : i ≠ s.n := by have := h.lt; omega
    have hx : (updSink s.sk s.n (fun _ => SinkSt.fresh) i).exited = (s.sk i).exited := by rw [updSink_ne _ _ hne]
    unfold addStep beginCall
    split
    · exact frame _ rfl rfl rfl (Nat.le_refl _)
    · split
      · exact frame _ rfl rfl hx (Nat.le_succ _)
      · exact frame _ rfl rfl hx (Nat.le_succ _)
  | remove j =>
    simp only at hs
    split at hs
    · cases hs
      unfold beginCall
      split
      · exact frame _ rfl rfl rfl (Nat.le_refl _)
      · split <;> exact frame _ rfl rfl rfl (Nat.le_refl _)
    · cases hs
  | clear =>
    simp only [Option.some.injEq] at hs
    subst hs
    unfold beginCall
    split
    · exact frame _ rfl rfl rfl (Nat.le_refl _)
    · split <;> exact frame _ rfl rfl rfl (Nat.le_refl _)
  | ret k =>
    simp only [retStep] at hs
    split at hs
    · cases hs
    · split at hs
      · split at hs
        · cases hs; exact drop _ _ rfl rfl rfl rfl
        · cases hs; exact frame _ rfl rfl rfl (Nat.le_refl _)
      · cases hs
  | hold j =>
    simp only at hs
    split at hs
    · cases hs; exact frame _ rfl rfl (upd j _ fun _ => rfl) (Nat.le_refl _)
    · cases hs
  | holdFail j c =>
    simp only at hs
    split at hs
    · cases hs; exact frame _ rfl rfl rfl (Nat.le_refl _)
    · cases hs
  | call j c =>
    simp only at hs
    split at hs
    · cases hs; exact frame _ rfl rfl (upd j _ fun _ => rfl) (Nat.le_refl _)
    · cases hs
  | release j =>
    simp only at hs
    split at hs
    · cases hs; exact drop _ _ rfl rfl (upd j _ fun _ => rfl) rfl
    · cases hs
  | reap j =>
    simp only at hs
    split at hs
    · cases hs; exact frame _ rfl rfl (upd j _ fun _ => rfl) (Nat.le_refl _)
    · cases hs
  | dtor =>
    simp only [dtorStep] at hs
    split at hs
    · cases hs; exact frame _ rfl rfl rfl (Nat.le_refl _)
    · split at hs <;> cases hs; exact frame _ rfl rfl rfl (Nat.le_refl _)
    · split at hs <;> cases hs; exact frame _ rfl rfl rfl (Nat.le_refl _)
    · split at hs
      · cases hs; exact frame _ rfl rfl rfl (Nat.le_refl _)
      · split at hs
        · cases hs; exact frame _ rfl rfl rfl (Nat.le_refl _)
        · cases hs; exact frame _ rfl rfl (upd _ _ fun _ => rfl) (Nat.le_refl _)
    · split at hs
      · cases hs; exact frame _ rfl rfl (upd _ _ fun _ => rfl) (Nat.le_refl _)
      · cases hs
    · cases hs
  | work =>
    exfalso
    simp only [workStep] at hs
    rcases h.waits with hp | ⟨f, hp⟩
    · rw [hp] at hs; simp only [h.alive, Bool.false_eq_true, if_false] at hs; cases hs
    · rw [hp] at hs; simp only [h.alive, Bool.false_eq_true, if_false] at hs; cases hs
  | sinkPop j =>
    simp only [sinkPop] at hs
    split at hs
    · split at hs
      · cases hs
      · cases hs; exact frame _ rfl rfl (upd j _ fun _ => rfl) (Nat.le_refl _)
    · cases hs
  | sinkFin j =>
    have hne : i ≠ j := by rintro rfl; exact hl rfl
    simp only [sinkFin] at hs
    split at hs
    · split at hs
      · cases hs
      · cases hs; exact frame _ rfl rfl (by simp only; rw [updSink_ne _ _ hne]) (Nat.le_refl _)
      · cases hs; exact frame _ rfl rfl (by simp only; rw [updSink_ne _ _ hne]) (Nat.le_refl _)
    · cases hs
  | sinkFatal j m =>
    simp only at hs
    split at hs
    · split at hs
      · cases hs; exact frame _ rfl rfl rfl (Nat.le_refl _)
      · cases hs; exact frame _ rfl rfl (upd j _ fun _ => rfl) (Nat.le_refl _)
    · cases hs

/-- C83, general form of the negation: while the worker waits for a hanging sink that is to be removed, no sink at all is sent
another message, whatever is logged and whatever the other threads do. -/
theorem C83_held_up {ls l : List (WLabel M)} {s s' : WState M} {i : Nat} (h : wRun WState.start ls = some s) (hw : workerWaits s i)
    (ha : (s.sk i).exited = false) (hl : .sinkFin i ∉ l) (hr : wRun s l = some s') (j : Nat) :
    s'.wpc = s.wpc ∧ sentMsgs (s'.sk j) = sentMsgs (s.sk j) := by
  have hi := allInv_run h
  have hlt : i < s.n := (hi.w.sinks.waits i (by
    rcases hw with hp | ⟨f, hp⟩ <;> simp [waitsOn, hp, pcWaits])).1
  have key : ∀ (l : List (WLabel M)) (u s' : WState M), .sinkFin i ∉ l → HeldUp i s.wpc s.completed u → wRun u l = some s' →
      HeldUp i s.wpc s.completed s' := by
    intro l
    induction l with
    | nil => intro u s' _ hu hr; cases hr; exact hu
    | cons a l ih =>
      intro u s' hl hu hr
      rw [wRun] at hr
      obtain ⟨v, hv, hr⟩ := Option.bind_eq_some_iff.1 hr
      exact ih v s' (fun hm => hl (List.mem_cons_of_mem _ hm)) (heldUp_step hu (fun e => hl (by simp [e])) hv) hr
  have hu' := key l s s' hl ⟨hw, rfl, rfl, ha, hlt⟩ hr
  obtain ⟨t, ht, _⟩ := (grows_run hi hr).sub
  refine ⟨hu'.pc, ?_⟩
  have hi' := allInv_run (wRun_append' h hr)
  have d := hi.w.deliver.got j
  have d' := hi'.w.deliver.got j
  have hst : started s' = started s := by unfold started; rw [hu'.pc, hu'.done]
  have hp : pend j s.wpc = [] := by
    rcases hw with hp | ⟨f, hp⟩ <;> rw [hp] <;> rfl
  rw [hst, hu'.pc, hp, List.append_nil, reqs_ext ⟨t, ht⟩ hi.w.book.le] at d'
  rw [hp, List.append_nil] at d
  rw [d, d']

/-- C83, negation: sink 0 hangs in its callback for message 1 and is being removed; sink 1 is attached and has nothing to do. No
message logged from now on reaches sink 1 until the callback of sink 0 returns. -/
theorem C83_negation : ∃ (ls : List (WLabel Nat)) (s : WState Nat), wRun WState.start ls = some s ∧ s.ub = false ∧
    attached 1 (handed 0 0 ls) = true ∧ (s.sk 1).q = [] ∧ (s.sk 1).running = none ∧ (s.sk 0).running = some (.msg 1) ∧
    ∀ ms : List Nat, ∃ s1, wRun s (ms.map .save) = some s1 ∧
      ∀ l s', .sinkFin 0 ∉ l → wRun s1 l = some s' → received (s'.sk 1) = [.log 1] := by
  obtain ⟨ls, s, h, hu, ha, hq, hr, hr0, hw, he, hd, hp, hrec⟩ : ∃ (ls : List (WLabel Nat)) (s : WState Nat), wRun WState.start ls = some s ∧ s.ub = false ∧
      attached 1 (handed 0 0 ls) = true ∧ (s.sk 1).q = [] ∧ (s.sk 1).running = none ∧ (s.sk 0).running = some (.msg 1) ∧ s.wpc = .rmWait 0 ∧
      (s.sk 0).exited = false ∧ s.wpc ≠ .dead ∧ s.phase.bgNull = false ∧ received (s.sk 1) = [.log 1] :=
    ⟨[.add, .work, .ret 0, .add, .work, .ret 1, .save 1, .work, .work, .work, .work, .sinkPop 0, .sinkPop 1, .sinkFin 1, .remove 0, .work, .work],
      _, rfl, rfl, rfl, rfl, rfl, rfl, rfl, rfl, by simp, rfl, rfl⟩
  refine ⟨ls, s, h, hu, ha, hq, hr, hr0, fun ms => ⟨_, C83_loggers h hu hd hp ms, ?_⟩⟩
  intro l s' hl hrun
  have h1 := wRun_append' (C83_loggers h hu hd hp ms) hrun
  have h2 := (C83_held_up (i := 0) h (Or.inl hw) he (by simp [hl]) h1 1).2
  have h3 : received (s'.sk 1) <+: received (s.sk 1) := by
    rw [received_drained hq hr, ← h2]; exact received_prefix _
  obtain ⟨t, ht⟩ := (grows_run (allInv_run h) h1).done 1
  have h4 : received (s.sk 1) <+: received (s'.sk 1) := ⟨t.filterMap gotOf, by unfold received; rw [ht, List.filterMap_append]⟩
  rw [← hrec]
  exact h3.eq_of_length (Nat.le_antisymm h3.length_le h4.length_le)

/-! ### The hypotheses can be met -/

theorem stuckBut_of {K : Nat → Prop} {s : WState M} (h1 : s.wpc = .idle) (h2 : s.wq = []) (h3 : ∀ c ∈ s.calls, c.returned = true) (h4 : s.phase = .notStarted)
    (h5 : ∀ i, i < s.n → (s.sk i).reaping = false ∧ ((s.sk i).running.isSome = true ∧ K i ∨ (s.sk i).running = none ∧ (s.sk i).q = [])) :
    stuckBut K s := by
  rintro l ⟨hi, hk⟩
  unfold wStep
  split
  · rfl
  cases l with
  | ret k =>
    simp only [retStep]
    split
    · rfl
    · next c hc =>
      have hr := h3 c (List.mem_of_getElem? hc)
      simp [hr]
  | reap i =>
    simp only
    split
    · next h => have := (h5 i h.1).1; simp [this] at h
    · rfl
  | dtor => exact absurd h4 hi
  | work => simp only [workStep, h1, takeTask, h2]
  | sinkPop i =>
    simp only [sinkPop]
    split
    · next h =>
      rcases (h5 i h.1).2 with ⟨h6, _⟩ | ⟨_, h6⟩
      · rw [h.2.1] at h6; cases h6
      · simp [h6]
    · rfl
  | sinkFin i =>
    simp only [sinkFin]
    split
    · next h =>
      rcases (h5 i h.1).2 with ⟨_, h6⟩ | ⟨h6, _⟩
      · exact absurd rfl (hk i h6)
      · simp [h6]
    · rfl
  | _ => exact hi.elim

/-- Sink 0 hangs in its callback for message 1 and all the rest is at rest. -/
example : ∃ s, wRun WState.start ([.add, .work, .ret 0, .add, .work, .ret 1, .save 1, .work, .work, .work, .work, .sinkPop 0, .sinkPop 1, .sinkFin 1] :
      List (WLabel Nat)) = some s ∧ s.ub = false ∧ s.wpc ≠ .dead ∧ s.n = 2 ∧ (∀ i, (s.sk i).blocked = true → i = 0) ∧ stuckBut (· = 0) s ∧
    ∀ r ∈ handed 0 0 ([.add, .work, .ret 0, .add, .work, .ret 1, .save 1, .work, .work, .work, .work, .sinkPop 0, .sinkPop 1, .sinkFin 1] :
      List (WLabel Nat)), ¬ r.mayWaitFor (· = 0) := by
  obtain ⟨s, h, hu, hd, hn, hb, h1, h2, h3, h4, h5, h6, h7⟩ : ∃ s, wRun WState.start ([.add, .work, .ret 0, .add, .work, .ret 1, .save 1, .work, .work, .work, .work,
        .sinkPop 0, .sinkPop 1, .sinkFin 1] : List (WLabel Nat)) = some s ∧ s.ub = false ∧ s.wpc.isDead = false ∧ s.n = 2 ∧ (s.sk 1).blocked = false ∧
      s.wpc = .idle ∧ s.wq = [] ∧ s.calls.all (·.returned) = true ∧ s.phase = .notStarted ∧
      ((s.sk 0).reaping = false ∧ (s.sk 0).running.isSome = true) ∧ (s.sk 1).reaping = false ∧ (s.sk 1).running = none ∧ (s.sk 1).q = [] :=
    ⟨_, rfl, rfl, rfl, rfl, rfl, rfl, rfl, rfl, rfl, ⟨rfl, rfl⟩, rfl, rfl, rfl⟩
  refine ⟨s, h, hu, by rw [h1]; simp, hn, ?_, stuckBut_of h1 h2 (by simpa using h3) h4 ?_, ?_⟩
  · intro i hi
    rcases i with _ | _ | i
    · rfl
    · rw [hb] at hi; cases hi
    · rw [(allInv_run h).w.sinks.fresh _ (by omega)] at hi; cases hi
  · intro i hi
    rw [hn] at hi
    rcases i with _ | _ | i
    · exact ⟨h5.1, Or.inl ⟨h5.2, rfl⟩⟩
    · exact ⟨h6, Or.inr h7⟩
    · omega
  · intro r hr
    have hr : r ∈ ([.attach 0, .attach 1, .log 1] : List (Req Nat)) := hr
    simp only [List.mem_cons, List.not_mem_nil, or_false] at hr
    rcases hr with rfl | rfl | rfl <;> exact id

end G3.Props
