import Verif.Props.Worker
import Mathlib.Data.List.Perm.Subperm
/-
Progress of the log worker: C52, C62.
-/
namespace G3.Props
open G3 G3.Spec

variable {M : Type}

/-! ### A bound on the steps without new input -/

/-- Steps of the worker thread, the sink threads, a destructor in progress, and the returns of calls: everything that needs no new
input from a client. -/
def internal (s : WState M) : WLabel M → Prop
  | .ret _ => True
  | .reap _ => True
  | .dtor => s.phase ≠ .notStarted
  | .work => True
  | .sinkPop _ => True
  | .sinkFin _ => True
  | _ => False

/-- A run of such steps. -/
inductive IRun : WState M → List (WLabel M) → WState M → Prop
  | nil (s) : IRun s [] s
  | cons {s u s' : WState M} {l : WLabel M} {ls} : internal s l → wStep s l = some u → IRun u ls s' → IRun s (l :: ls) s'

/-- f 0 + ... + f (n-1). -/
def sumTo (f : Nat → Nat) : Nat → Nat
  | 0 => 0
  | n + 1 => sumTo f n + f n

theorem sumTo_congr {f g : Nat → Nat} : ∀ n, (∀ i, i < n → f i = g i) → sumTo f n = sumTo g n := by
  intro n
  induction n with
  | zero => intro _; rfl
  | succ n ih => intro h; rw [sumTo, sumTo, ih (fun i hi => h i (by omega)), h n (by omega)]

theorem sumTo_change {f g : Nat → Nat} {i : Nat} : ∀ n, i < n → (∀ j, j ≠ i → g j = f j) → sumTo g n + f i = sumTo f n + g i := by
  intro n
  induction n with
  | zero => intro h _; omega
  | succ n ih =>
    intro h hj
    by_cases hi : i = n
    · subst hi
      rw [sumTo, sumTo, sumTo_congr (f := g) (g := f) i (fun j hji => hj j (by omega))]; omega
    · have := ih (by omega) hj
      rw [sumTo, sumTo, hj n (fun e => hi e.symm)]; omega

def sinkCost (k : SinkSt M) : Nat :=
  2 * k.q.length + k.running.isSome.toNat + 3 * (!k.stopSent).toNat + k.reaping.toNat

def taskCost (n : Nat) : Nat := 3 * n + 4

def pcCost : WPc M → Nat
  | .sending (.fatal _) rest => 3 * rest.length + 3
  | .sending _ rest => 3 * rest.length + 1
  | .rmHeld _ => 3
  | .rmWait _ => 1
  | .clearing _ => 2
  | .clrWait _ _ => 3
  | _ => 0

def phaseCost (n : Nat) : DPhase → Nat
  | .notStarted => 0
  | .clearing _ => taskCost n + 4
  | .stopping => 3
  | .dropping => 2
  | .waitSink _ => 3
  | .returned => 0

def openCalls (calls : List WCall) : Nat := (calls.filter (fun c => !c.returned)).length

/-- An upper bound on the number of steps possible without new input. -/
def work (s : WState M) : Nat :=
  taskCost s.n * s.wq.length + pcCost s.wpc + 2 * s.att.length + sumTo (fun i => sinkCost (s.sk i)) s.n + 2 * openCalls s.calls + phaseCost s.n s.phase

theorem openCalls_set {calls : List WCall} {k : Nat} {c : WCall} (hk : calls[k]? = some c) (hr : c.returned = false) :
    openCalls calls = openCalls (calls.set k { c with returned := true }) + 1 := by
  induction calls generalizing k with
  | nil => cases hk
  | cons a l ih =>
    cases k with
    | zero =>
      cases hk
      simp [openCalls, hr]
    | succ k =>
      have := ih (k := k) hk
      simp only [openCalls, List.set_cons_succ, List.filter_cons] at this ⊢
      split
      · simp only [List.length_cons]; omega
      · exact this

/-- Change of one sink. -/
theorem sum_upd' {sk : Nat → SinkSt M} {n i : Nat} {f : SinkSt M → SinkSt M} (hi : i < n) :
    sumTo (fun j => sinkCost (updSink sk i f j)) n + sinkCost (sk i) = sumTo (fun j => sinkCost (sk j)) n + sinkCost (f (sk i)) := by
  have := sumTo_change (f := fun j => sinkCost (sk j)) (g := fun j => sinkCost (updSink sk i f j)) (i := i) n hi
    (fun j hj => by rw [updSink_ne _ _ hj])
  simpa [updSink_self] using this

theorem sum_upd {sk : Nat → SinkSt M} {n i : Nat} {f : SinkSt M → SinkSt M} (hi : i < n) (c : Nat) (hc : sinkCost (f (sk i)) + c ≤ sinkCost (sk i)) :
    sumTo (fun j => sinkCost (updSink sk i f j)) n + c ≤ sumTo (fun j => sinkCost (sk j)) n := by
  have := sum_upd' (f := f) (sk := sk) hi; omega

theorem cost_stop {k : SinkSt M} (h : k.stopSent = false) : sinkCost k.stop + 1 = sinkCost k := by
  simp [sinkCost, SinkSt.stop, h]; omega

theorem cost_push (k : SinkSt M) (x : SItem M) : sinkCost (k.push x) = sinkCost k + 2 := by
  simp [sinkCost, SinkSt.push]; omega

theorem filter_ne_le (l : List Nat) (i : Nat) : (l.filter (fun j => decide (j ≠ i))).length ≤ l.length := List.length_filter_le _ _

theorem att_length {s : WState M} (hi : AllInv s) : s.att.length ≤ s.n := by
  have hlt : ∀ i ∈ s.att, i < s.n := fun i h => att_lt hi.w.calls hi.w.sinks h
  have hsub : s.att ⊆ List.range s.n := fun i h => List.mem_range.2 (hlt i h)
  have := (hi.w.sinks.nodup.subperm hsub).length_le
  simpa using this

/-- Every such step uses up some of the bound. -/
theorem work_decreases {s s' : WState M} {l : WLabel M} (hi : AllInv s) (hl : internal s l) (h : wStep s l = some s') : work s' < work s := by
  have hatt := att_length hi
  unfold wStep at h
  split at h
  · cases h
  cases l with
  | save m => cases hl
  | fatal m => cases hl
  | add => cases hl
  | remove i => cases hl
  | clear => cases hl
  | hold i => cases hl
  | holdFail i c => cases hl
  | call i c => cases hl
  | release i => cases hl
  | sinkFatal i m => cases hl
  | ret k =>
    simp only [retStep] at h
    split at h
    · cases h
    · next c hk =>
      split at h
      · next hc =>
        have ho := openCalls_set hk hc.1
        split at h
        · next i hki =>
          cases h
          have hin : i < s.n := hi.w.calls.ids c (List.mem_iff_getElem?.2 ⟨k, hk⟩) i (Or.inl hki)
          have hal := alive_of_owned hi.w.sinks hin (owned_iff.2 (Or.inr (Or.inr (Or.inl (adding_mem hk hki hc.1)))))
          unfold clientDrop
          split
          · simp only [work]; omega
          · have h1 := sum_upd (sk := s.sk) (n := s.n) (i := i) (f := fun k => { k.stop with reaping := true }) hin 0
              (by have := (linv_alive (hi.w.sinks.loc i) hal).2.2; simp [sinkCost, SinkSt.stop, hal, this]; omega)
            simp only at h1
            simp only [work]; omega
        · cases h
          simp only [work]; omega
      · cases h
  | reap i =>
    simp only at h
    split at h
    · next hc =>
      cases h
      have h1 := sum_upd (sk := s.sk) (n := s.n) (i := i) (f := fun k => { k with destroyed := true, reaping := false }) hc.1 1
        (by simp [sinkCost, hc.2.1])
      simp only [work]; omega
    · cases h
  | dtor =>
    simp only [dtorStep] at h
    split at h
    · next hp => exact absurd hp hl
    · next p hp =>
      split at h
      · cases h
        simp only [work, pushTask, hp, phaseCost, List.length_append, List.length_singleton, Nat.mul_add, Nat.mul_one]; omega
      · cases h
    · next hp =>
      split at h
      · cases h
        have : taskCost s.n * ([] : List (WTask M)).length ≤ taskCost s.n * s.wq.length := Nat.mul_le_mul_left _ (Nat.zero_le _)
        simp only [work, hp, phaseCost]; omega
      · cases h
    · next hp =>
      split at h
      · cases h; simp only [work, hp, phaseCost]; omega
      · next i r ha =>
        have hmem : i ∈ s.att := by rw [ha]; simp
        have hin := att_lt hi.w.calls hi.w.sinks hmem
        have hal := alive_of_owned hi.w.sinks hin (owned_iff.2 (Or.inr (Or.inl hmem)))
        split at h
        · cases h; simp only [work, hp, phaseCost, ha, List.length_cons]; omega
        · cases h
          have h1 := sum_upd (sk := s.sk) (n := s.n) (i := i) (f := (·.stop)) hin 1 (Nat.le_of_eq (cost_stop hal))
          simp only [work, hp, phaseCost, ha, List.length_cons]; omega
    · next i hp =>
      split at h
      · cases h
        have hin := (hi.w.sinks.waits i (by simp [waitsOn, hp, phaseWaits])).1
        have h1 := sum_upd (sk := s.sk) (n := s.n) (i := i) (f := fun k => { k with destroyed := true }) hin 0 (Nat.le_refl _)
        simp only [work, hp, phaseCost]; omega
      · cases h
    · cases h
  | work =>
    simp only [workStep] at h
    split at h
    · next hp =>
      unfold takeTask at h
      split at h
      · cases h
      · next m r hq =>
        split at h
        · cases h; simp only [work, hq, hp, List.length_cons, Nat.mul_add, Nat.mul_one, taskCost]; omega
        · cases h; simp only [work, hq, hp, pcCost, List.length_cons, Nat.mul_add, Nat.mul_one]; simp only [taskCost]; omega
      · next m r hq =>
        cases h; simp only [work, hq, hp, pcCost, List.length_cons, Nat.mul_add, Nat.mul_one]; simp only [taskCost]; omega
      · next i r hq =>
        cases h; simp only [work, hq, hp, pcCost, List.length_cons, List.length_append, List.length_nil, Nat.mul_add, Nat.mul_one]; simp only [taskCost]; omega
      · next i r hq =>
        have := filter_ne_le s.att i
        split at h
        · cases h; simp only [work, hq, hp, pcCost, List.length_cons, Nat.mul_add, Nat.mul_one]; simp only [taskCost]; omega
        · cases h; simp only [work, hq, hp, pcCost, List.length_cons, Nat.mul_add, Nat.mul_one]; simp only [taskCost]; omega
      · next r hq =>
        cases h; simp only [work, hq, hp, pcCost, List.length_cons, Nat.mul_add, Nat.mul_one]; simp only [taskCost]; omega
      · next r hq =>
        cases h; simp only [work, hq, hp, pcCost, List.length_cons, Nat.mul_add, Nat.mul_one]; simp only [taskCost]; omega
    · next x i rest hp =>
      cases h
      have hin : i < s.n := att_lt hi.w.calls hi.w.sinks ((hi.w.sinks.rest x (i :: rest) hp).1 i (by simp))
      have h1 := sum_upd' (sk := s.sk) (n := s.n) (i := i) (f := (·.push x)) hin
      have h2 := cost_push (s.sk i) x
      have h3 : pcCost (.sending x rest) + 3 = pcCost (.sending x (i :: rest)) := by cases x <;> simp [pcCost] <;> omega
      simp only [work, hp]; omega
    · next m hp => cases h; simp only [work, hp, pcCost]; omega
    · next x _ hp =>
      cases h
      have h3 : 0 < pcCost (.sending x []) := by cases x <;> simp [pcCost]
      simp only [work, hp]
      have : pcCost (WPc.idle : WPc M) = 0 := rfl
      omega
    · next i hp =>
      have hh : owned s i = true := owned_iff.2 (Or.inr (Or.inr (Or.inr (by rw [hp]; simp [WPc.holds]))))
      have hin : i < s.n := by
        have ht := hi.w.book.task
        rw [hp] at ht
        exact hi.w.calls.rms i (List.mem_iff_getElem?.2 ⟨_, ht⟩)
      have hal := alive_of_owned hi.w.sinks hin hh
      split at h
      · cases h; simp only [work, hp, pcCost]; omega
      · cases h
        have h1 := sum_upd (sk := s.sk) (n := s.n) (i := i) (f := (·.stop)) hin 1 (Nat.le_of_eq (cost_stop hal))
        simp only [work, hp, pcCost]; omega
    · next i hp =>
      split at h
      · cases h
        have hin := (hi.w.sinks.waits i (by simp [waitsOn, hp, pcWaits])).1
        have h1 := sum_upd (sk := s.sk) (n := s.n) (i := i) (f := fun k => { k with destroyed := true }) hin 0 (Nat.le_refl _)
        simp only [work, hp, pcCost]; omega
      · cases h
    · next f hp =>
      split at h
      · split at h
        · cases h; simp only [work, hp, pcCost]; omega
        · cases h; simp only [work, hp, pcCost]; omega
      · next i r ha =>
        have hmem : i ∈ s.att := by rw [ha]; simp
        have hin := att_lt hi.w.calls hi.w.sinks hmem
        have hal := alive_of_owned hi.w.sinks hin (owned_iff.2 (Or.inr (Or.inl hmem)))
        split at h
        · cases h; simp only [work, hp, ha, List.length_cons]; omega
        · cases h
          have h1 := sum_upd (sk := s.sk) (n := s.n) (i := i) (f := (·.stop)) hin 1 (Nat.le_of_eq (cost_stop hal))
          simp only [work, hp, pcCost, ha, List.length_cons]; omega
    · next i f hp =>
      split at h
      · cases h
        have hin := (hi.w.sinks.waits i (by simp [waitsOn, hp, pcWaits])).1
        have h1 := sum_upd (sk := s.sk) (n := s.n) (i := i) (f := fun k => { k with destroyed := true }) hin 0 (Nat.le_refl _)
        simp only [work, hp, pcCost]; omega
      · cases h
    · cases h
    · cases h
  | sinkPop i =>
    simp only [sinkPop] at h
    split at h
    · next hc =>
      split at h
      · cases h
      · next x r hq =>
        cases h
        have h1 := sum_upd (sk := s.sk) (n := s.n) (i := i) (f := fun k => { k with q := r, running := some x }) hc.1 1
          (by simp [sinkCost, hc.2.1, hq]; omega)
        simp only [work]; omega
    · cases h
  | sinkFin i =>
    simp only [sinkFin] at h
    split at h
    · next hc =>
      split at h
      · cases h
      · next hr =>
        cases h
        have h1 := sum_upd (sk := s.sk) (n := s.n) (i := i) (f := fun k => { k with running := none, exited := true }) hc.1 1
          (by simp [sinkCost, hr]; omega)
        simp only [work]; omega
      · next x hx hr =>
        cases h
        have h1 := sum_upd (sk := s.sk) (n := s.n) (i := i) (f := fun k => { k with running := none, done := k.done ++ [x] }) hc.1 1
          (by simp [sinkCost, hr]; omega)
        simp only [work]; omega
    · cases h

theorem irun_wRun {ls : List (WLabel M)} : ∀ {s s' : WState M}, IRun s ls s' → wRun s ls = some s' := by
  induction ls with
  | nil => intro s s' h; cases h; rfl
  | cons l ls ih =>
    intro s s' h
    cases h with
    | cons hl hs hr => rw [wRun, hs]; exact ih hr

theorem irun_inv {ls : List (WLabel M)} {s s' : WState M} (hi : AllInv s) (h : IRun s ls s') : AllInv s' := allInv_from hi (irun_wRun h)

/-- C52: without new input only a bounded number of steps is possible, in whatever order the threads are scheduled. -/
theorem C52_bounded {ls l : List (WLabel M)} {s s' : WState M} (h : wRun WState.start ls = some s) (hr : IRun s l s') :
    l.length + work s' ≤ work s := by
  have hi := allInv_run h
  clear h
  induction l generalizing s with
  | nil => cases hr; simp
  | cons a l ih =>
    cases hr with
    | cons hl hs hr =>
      have h1 := work_decreases hi hl hs
      have h2 := ih hr (allInv_step hi hs)
      simp only [List.length_cons]; omega

/-! ### Where such a run ends -/

/-- No step is possible without new input. -/
def stuck (s : WState M) : Prop := ∀ l, internal s l → wStep s l = none

theorem sent_stop {k : SinkSt M} (h : LInv k) (hs : k.stopSent = true) (hq : k.q = []) (hr : k.running = none) : k.exited = true := by
  cases he : k.exited with
  | true => rfl
  | false =>
    exfalso
    obtain ⟨pay, _, hf⟩ := h.shape
    rw [hs, if_pos rfl, full, hq, hr, he] at hf
    simp at hf
    exact h.nostop (by rw [hf]; simp)

/-- Quiet: every queue is empty, no thread is at work, every call has returned, no destructor is in progress. -/
structure Quiet (s : WState M) : Prop where
  worker : (s.wpc = .idle ∨ s.wpc = .ended) ∧ s.wq = []
  sinks : ∀ i, i < s.n → (s.sk i).q = [] ∧ (s.sk i).running = none ∧ (s.sk i).reaping = false
  calls : ∀ c ∈ s.calls, c.returned = true
  dtor : s.phase = .notStarted ∨ s.phase = .returned

theorem quiet_of_stuck {s : WState M} (hi : AllInv s) (hu : s.ub = false) (hd : s.wpc ≠ .dead) (hb : ∀ i, (s.sk i).blocked = false)
    (h : stuck s) : Quiet s := by
  have hg : ¬ (s.ub = true ∨ s.wpc.isDead = true) := by
    rintro (h | h)
    · rw [hu] at h; cases h
    · cases hw : s.wpc <;> rw [hw] at h <;> first | exact hd hw | cases h
  have step : ∀ l, internal s l → wStep s l = none := h
  -- the sinks
  have hrun : ∀ i, i < s.n → (s.sk i).running = none := by
    intro i hin
    have := step (.sinkFin i) trivial
    simp only [wStep, if_neg hg, sinkFin, hin, hb i, and_self, if_true] at this
    split at this
    · assumption
    · cases this
    · cases this
  have hq : ∀ i, i < s.n → (s.sk i).q = [] := by
    intro i hin
    cases he : (s.sk i).exited with
    | true => exact ((hi.w.sinks.loc i).exit he).1
    | false =>
      have := step (.sinkPop i) trivial
      simp only [wStep, if_neg hg, sinkPop, hin, hrun i hin, he, and_self, if_true] at this
      split at this
      · assumption
      · cases this
  have hex : ∀ i, i < s.n → (s.sk i).stopSent = true → (s.sk i).exited = true :=
    fun i hin hs => sent_stop (hi.w.sinks.loc i) hs (hq i hin) (hrun i hin)
  have hreap : ∀ i, i < s.n → (s.sk i).reaping = false := by
    intro i hin
    cases hr : (s.sk i).reaping with
    | false => rfl
    | true =>
      have := step (.reap i) trivial
      simp [wStep, hin, hr, hex i hin ((hi.w.sinks.loc i).reap hr).1, hu] at this
      exact absurd (Or.inr this) hg
  -- the worker
  have hwork := step .work trivial
  simp only [wStep, if_neg hg, workStep] at hwork
  have hworker : (s.wpc = .idle ∧ s.wq = []) ∨ s.wpc = .ended := by
    split at hwork
    · next hp =>
      left
      refine ⟨hp, ?_⟩
      unfold takeTask at hwork
      split at hwork
      · assumption
      · split at hwork <;> cases hwork
      · cases hwork
      · cases hwork
      · split at hwork <;> cases hwork
      · cases hwork
      · cases hwork
    · cases hwork
    · cases hwork
    · cases hwork
    · split at hwork <;> cases hwork
    · next i hp =>
      have hw := hi.w.sinks.waits i (by simp [waitsOn, hp, pcWaits])
      rw [if_pos (hex i hw.1 hw.2.1)] at hwork; cases hwork
    · split at hwork
      · split at hwork <;> cases hwork
      · split at hwork <;> cases hwork
    · next i f hp =>
      have hw := hi.w.sinks.waits i (by simp [waitsOn, hp, pcWaits])
      rw [if_pos (hex i hw.1 hw.2.1)] at hwork; cases hwork
    · next hp => exact Or.inr hp
    · next hp => exact absurd hp hd
  have hall : s.completed = s.sub.length := by
    rcases hworker with ⟨hw, hq⟩ | hw
    · have hgone : s.phase.queueGone = false := by
        cases hgo : s.phase.queueGone
        · rfl
        · rw [(hi.w.book.gone hgo).2] at hw; cases hw
      have h1 := hi.w.book.queue hgone
      have h2 := hi.w.book.le
      have h3 : started s = s.completed := by unfold started; rw [hw]; rfl
      rw [hq, h3] at h1
      rw [h3] at h2
      have := List.drop_eq_nil_iff.1 h1.symm
      omega
    · exact ended_facts hi hw
  have hdt : s.phase ≠ .notStarted → dtorStep s = none := by
    intro hns
    have := step .dtor hns
    simpa only [wStep, if_neg hg] using this
  have hph : s.phase = .notStarted ∨ s.phase = .returned := by
    cases hp : s.phase with
    | notStarted => exact Or.inl rfl
    | returned => exact Or.inr rfl
    | clearing p =>
      exfalso
      have := hdt (by rw [hp]; simp)
      have h1 := (List.getElem?_eq_some_iff.1 (hi.w.book.clearing p hp)).1
      simp only [dtorStep, hp, hall, if_pos h1] at this
      cases this
    | stopping =>
      exfalso
      have := hdt (by rw [hp]; simp)
      have hw : s.wpc = .ended := by
        rcases hworker with ⟨hw, _⟩ | hw
        · exfalso
          have hdm := hi.w.book.closed.1 (by rw [hp]; rfl)
          have := hi.w.book.notFinal (by rw [hw]; simp) .done (by rw [hall, List.take_length]; exact hdm)
          cases this
        · exact hw
      simp only [dtorStep, hp, hw, WPc.isEnded, if_true] at this
      cases this
    | dropping =>
      exfalso
      have := hdt (by rw [hp]; simp)
      simp only [dtorStep, hp] at this
      split at this
      · cases this
      · split at this <;> cases this
    | waitSink i =>
      exfalso
      have := hdt (by rw [hp]; simp)
      have hw := hi.w.sinks.waits i (by simp [waitsOn, hp, phaseWaits])
      simp only [dtorStep, hp, hex i hw.1 hw.2.1, if_true] at this
      cases this
  refine ⟨?_, fun i hin => ⟨hq i hin, hrun i hin, hreap i hin⟩, ?_, hph⟩
  · rcases hworker with ⟨hw, hq⟩ | hw
    · exact ⟨Or.inl hw, hq⟩
    · refine ⟨Or.inr hw, ?_⟩
      cases hgo : s.phase.queueGone
      · rw [hi.w.book.queue hgo]
        have h3 : started s = s.completed := by unfold started; rw [hw]; rfl
        rw [h3, hall, List.drop_length]
      · exact (hi.w.book.gone hgo).1
  · intro c hm
    cases hr : c.returned with
    | true => rfl
    | false =>
      exfalso
      obtain ⟨k, hk⟩ := List.mem_iff_getElem?.1 hm
      have hrd : ready s c = true := by
        unfold ready
        cases hp : c.pos with
        | none => rfl
        | some p =>
          have := (List.getElem?_eq_some_iff.1 (hi.w.calls.pos c hm p hp)).1
          simp only [Bool.or_eq_true, decide_eq_true_eq]
          left; omega
      have := step (.ret k) trivial
      simp only [wStep, if_neg hg, retStep, hk, hr, hrd, and_self, if_true] at this
      split at this <;> cases this

/-- Blocked sinks stay as they are. -/
theorem blocked_same {ls : List (WLabel M)} : ∀ {s s' : WState M}, AllInv s → IRun s ls s' → (∀ i, (s.sk i).blocked = false) → s.ub = false →
    (∀ i, (s'.sk i).blocked = false) ∧ s'.ub = false := by
  induction ls with
  | nil => intro s s' _ h; cases h; exact fun a b => ⟨a, b⟩
  | cons l ls ih =>
    intro s s' hi h hb hu
    cases h with
    | @cons _ u _ _ _ hl hs hr =>
      refine ih (allInv_step hi hs) hr ?_ ?_
      · intro i
        have upd : ∀ (j : Nat) (f : SinkSt M → SinkSt M), (∀ k, (f k).blocked = k.blocked) → (updSink s.sk j f i).blocked = false := by
          intro j f hf
          by_cases hj : i = j
          · subst hj; rw [updSink_self, hf]; exact hb i
          · rw [updSink_ne _ _ hj]; exact hb i
        have hs' := hs
        unfold wStep at hs'
        split at hs'
        · cases hs'
        · cases l <;> first | exact (show False from hl).elim | skip
          case ret k =>
            simp only [retStep] at hs'
            split at hs'
            · cases hs'
            · split at hs'
              · split at hs'
                · cases hs'
                  unfold clientDrop
                  split
                  · exact hb i
                  · exact upd _ _ (fun _ => rfl)
                · cases hs'; exact hb i
              · cases hs'
          case reap j =>
            simp only at hs'
            split at hs'
            · cases hs'; exact upd _ _ (fun _ => rfl)
            · cases hs'
          case dtor =>
            simp only [dtorStep] at hs'
            split at hs'
            · cases hs'; exact hb i
            · split at hs'
              · cases hs'; exact hb i
              · cases hs'
            · split at hs'
              · cases hs'; exact hb i
              · cases hs'
            · split at hs'
              · cases hs'; exact hb i
              · split at hs'
                · cases hs'; exact hb i
                · cases hs'; exact upd _ _ (fun _ => rfl)
            · split at hs'
              · cases hs'; exact upd _ _ (fun _ => rfl)
              · cases hs'
            · cases hs'
          case work =>
            simp only [workStep] at hs'
            split at hs'
            · unfold takeTask at hs'
              split at hs'
              · cases hs'
              · split at hs' <;> cases hs' <;> exact hb i
              · cases hs'; exact hb i
              · cases hs'; exact hb i
              · split at hs' <;> cases hs' <;> exact hb i
              · cases hs'; exact hb i
              · cases hs'; exact hb i
            · cases hs'; exact upd _ _ (fun _ => rfl)
            · cases hs'; exact hb i
            · cases hs'; exact hb i
            · split at hs'
              · cases hs'; exact hb i
              · cases hs'; exact upd _ _ (fun _ => rfl)
            · split at hs'
              · cases hs'; exact upd _ _ (fun _ => rfl)
              · cases hs'
            · split at hs'
              · split at hs' <;> cases hs' <;> exact hb i
              · split at hs'
                · cases hs'; exact hb i
                · cases hs'; exact upd _ _ (fun _ => rfl)
            · split at hs'
              · cases hs'; exact upd _ _ (fun _ => rfl)
              · cases hs'
            · cases hs'
            · cases hs'
          case sinkPop j =>
            simp only [sinkPop] at hs'
            split at hs'
            · split at hs'
              · cases hs'
              · cases hs'; exact upd _ _ (fun _ => rfl)
            · cases hs'
          case sinkFin j =>
            simp only [sinkFin] at hs'
            split at hs'
            · split at hs'
              · cases hs'
              · cases hs'; exact upd _ _ (fun _ => rfl)
              · cases hs'; exact upd _ _ (fun _ => rfl)
            · cases hs'
      · have hs' := hs
        unfold wStep at hs'
        split at hs'
        · cases hs'
        · cases l <;> first | exact (show False from hl).elim | skip
          case ret k =>
            simp only [retStep] at hs'
            split at hs'
            · cases hs'
            · split at hs'
              · split at hs'
                · cases hs'
                  unfold clientDrop
                  split <;> exact hu
                · cases hs'; exact hu
              · cases hs'
          case reap j => simp only at hs'; split at hs' <;> cases hs'; exact hu
          case dtor =>
            simp only [dtorStep] at hs'
            split at hs'
            · cases hs'; exact hu
            · split at hs' <;> cases hs'; exact hu
            · split at hs' <;> cases hs'; exact hu
            · split at hs'
              · cases hs'; exact hu
              · split at hs' <;> cases hs' <;> exact hu
            · split at hs' <;> cases hs'; exact hu
            · cases hs'
          case work =>
            simp only [workStep] at hs'
            split at hs'
            · unfold takeTask at hs'
              split at hs'
              · cases hs'
              · split at hs' <;> cases hs' <;> exact hu
              · cases hs'; exact hu
              · cases hs'; exact hu
              · split at hs' <;> cases hs' <;> exact hu
              · cases hs'; exact hu
              · cases hs'; exact hu
            · cases hs'; exact hu
            · cases hs'; exact hu
            · cases hs'; exact hu
            · split at hs' <;> cases hs' <;> exact hu
            · split at hs' <;> cases hs'; exact hu
            · split at hs'
              · split at hs' <;> cases hs' <;> exact hu
              · split at hs' <;> cases hs' <;> exact hu
            · split at hs' <;> cases hs'; exact hu
            · cases hs'
            · cases hs'
          case sinkPop j =>
            simp only [sinkPop] at hs'
            split at hs'
            · split at hs' <;> cases hs'; exact hu
            · cases hs'
          case sinkFin j =>
            simp only [sinkFin] at hs'
            split at hs'
            · split at hs' <;> cases hs' <;> exact hu
            · cases hs'

/-- C52: a run without new input can be continued until nothing more is possible; there it ends with the process ended by a fatal
message, or with every queue empty, every call and every destructor returned and every message delivered to every sink that was
attached at its turn. (No sink thread is blocked in a fatal event of its own, see C62.) -/
theorem C52_drains {ls l : List (WLabel M)} {s s' : WState M} (h : wRun WState.start ls = some s) (hu : s.ub = false)
    (hb : ∀ i, (s.sk i).blocked = false) (hr : IRun s l s') (hst : stuck s') :
    s'.wpc = .dead ∨ (Quiet s' ∧ ∀ i, i < s'.n → received (s'.sk i) = gets i (handed 0 0 (ls ++ l))) := by
  have hi := allInv_run h
  obtain ⟨hb', hu'⟩ := blocked_same hi hr hb hu
  have hrun := wRun_append' h (irun_wRun hr)
  by_cases hd : s'.wpc = .dead
  · exact Or.inl hd
  · right
    have hq := quiet_of_stuck (allInv_run hrun) hu' hd hb' hst
    refine ⟨hq, fun i hin => ?_⟩
    have hset : settled s' := by
      rcases hq.worker with ⟨hw | hw, hwq⟩
      · exact Or.inl ⟨hw, hwq⟩
      · exact Or.inr (Or.inl hw)
    exact C02_complete hrun hset i (hq.sinks i hin).1 (hq.sinks i hin).2.1

/-- C52: such a run always exists. -/
theorem C52_exists {ls : List (WLabel M)} {s : WState M} (h : wRun WState.start ls = some s) : ∃ l s', IRun s l s' ∧ stuck s' := by
  have hi := allInv_run h
  clear h
  generalize hw : work s = w
  induction w using Nat.strongRecOn generalizing s with
  | _ w ih =>
    by_cases hst : stuck s
    · exact ⟨[], s, .nil s, hst⟩
    · simp only [stuck, not_forall] at hst
      obtain ⟨l, hl, hn⟩ := hst
      cases hs : wStep s l with
      | none => exact absurd hs hn
      | some u =>
        have hlt := work_decreases hi hl hs
        obtain ⟨m, s', h1, h2⟩ := ih (work u) (by omega) (allInv_step hi hs) rfl
        exact ⟨l :: m, s', .cons hl hs h1, h2⟩

/-! ### C62 -/

/-- C62: once a fatal message has entered the worker, every run ends with the end of the process, provided that no sink thread is
blocked by a fatal event of its own. -/
theorem C62_ends_partial {ls l : List (WLabel M)} {s s' : WState M} {m : M} (h : wRun WState.start ls = some s) (hu : s.ub = false)
    (hb : ∀ i, (s.sk i).blocked = false) (hf : .fatal m ∈ handed 0 0 ls) (hr : IRun s l s') (hst : stuck s') : s'.wpc = .dead := by
  have hi := allInv_run h
  have hrun := wRun_append' h (irun_wRun hr)
  have hi' := allInv_run hrun
  rcases C52_drains h hu hb hr hst with hd | ⟨hq, _⟩
  · exact hd
  · exfalso
    have hm : .fatal m ∈ s'.sub := by
      rw [← sub_handed h] at hf
      obtain ⟨x, hx, hxe⟩ := List.mem_map.1 hf
      cases x <;> cases hxe
      obtain ⟨t, ht, _⟩ := (grows_run hi (irun_wRun hr)).sub
      rw [ht]; exact List.mem_append_left _ hx
    rcases hq.worker with ⟨hw | hw, hwq⟩
    · have hgone : s'.phase.queueGone = false := by
        cases hgo : s'.phase.queueGone
        · rfl
        · rw [(hi'.w.book.gone hgo).2] at hw; cases hw
      have h1 := hi'.w.book.queue hgone
      have h3 : started s' = s'.completed := by unfold started; rw [hw]; rfl
      rw [hwq, h3] at h1
      have h4 := List.drop_eq_nil_iff.1 h1.symm
      have := hi'.w.book.notFinal (by rw [hw]; simp) (.fatal m) (by rw [List.take_of_length_le h4]; exact hm)
      cases this
    · obtain ⟨pre, hpp, hpre⟩ := hi'.w.book.ended hw
      rw [ended_facts hi' hw, List.take_length] at hpp
      rw [hpp] at hm
      rcases List.mem_append.1 hm with hm | hm
      · have := hpre _ hm; cases this
      · rw [List.mem_singleton] at hm; cases hm

/-- The thread of sink i is stuck, in pushFatalMessageToLogger if `b`, no client holds the sink, and the worker cannot get past it. -/
structure Hangs (b : Bool) (i : Nat) (s : WState M) : Prop where
  blocked : (s.sk i).blocked = b
  noexit : (s.sk i).exited = false
  lt : i < s.n
  refs : (s.sk i).refs = 0
  add : adding s.calls i = false
  place : (i ∈ s.att ∧ s.wpc ≠ .dead ∧ s.wpc ≠ .rmHeld i) ∨ (s.wpc = .rmHeld i ∧ i ∉ s.att) ∨ s.wpc = .rmWait i ∨ (∃ f, s.wpc = .clrWait i f) ∨ s.wpc = .ended

/-- Steps that leave the sinks alone. -/
theorem hangs_frame {b : Bool} {i : Nat} {s s' : WState M} (h : Hangs b i s) (h1 : s'.sk i = s.sk i) (h2 : s.n ≤ s'.n) (h3 : adding s'.calls i = false)
    (h4 : (i ∈ s'.att ∧ s'.wpc ≠ .dead ∧ s'.wpc ≠ .rmHeld i) ∨ (s'.wpc = .rmHeld i ∧ i ∉ s'.att) ∨ s'.wpc = .rmWait i ∨ (∃ f, s'.wpc = .clrWait i f) ∨ s'.wpc = .ended) :
    Hangs b i s' :=
  ⟨by rw [h1]; exact h.blocked, by rw [h1]; exact h.noexit, Nat.lt_of_lt_of_le h.lt h2, by rw [h1]; exact h.refs, h3, h4⟩

/-- No step changes that, except that a client may take hold of the sink, and that the thread may go on if it is not in
pushFatalMessageToLogger. -/
theorem hangs_tr {b : Bool} {i : Nat} {s s' : WState M} (ht : Tr s s') (hi : AllInv s) (h : Hangs b i s) : Hangs b i s' ∨ (s'.sk i).refs ≠ 0 ∨
    b = false ∧ ((s.sk i).running ≠ none ∧ (s'.sk i).running = none ∨ (s'.sk i).blocked = true) := by
  have hid : ∀ {k : Nat} {c : WCall}, s.calls[k]? = some c → c.returned = false → c.kind ≠ .add i := by
    intro k c hk hr hki
    have := adding_mem hk hki hr
    rw [h.add] at this; cases this
  have own_i : ∀ (s1 : WState M), (s1.sk i).refs = 0 → i ∉ s1.att → adding s1.calls i = false → s1.wpc.holds i = false → owned s1 i = false := by
    intro s1 a b c d
    cases ho : owned s1 i
    · rfl
    · rcases owned_iff.1 ho with e | e | e | e
      · omega
      · exact absurd e b
      · rw [c] at e; cases e
      · rw [d] at e; cases e
  cases ht with
  | ub => exact Or.inl (hangs_frame h rfl (Nat.le_refl _) h.add h.place)
  | save => exact Or.inl (hangs_frame h rfl (Nat.le_refl _) h.add h.place)
  | fatal => exact Or.inl (hangs_frame h rfl (Nat.le_refl _) h.add h.place)
  | addQ =>
    have := h.lt
    exact Or.inl (hangs_frame h (by dsimp only; exact updSink_ne _ _ (by omega)) (Nat.le_succ _) (by rw [adding_append_add rfl i (by omega)]; exact h.add) h.place)
  | addN =>
    have := h.lt
    exact Or.inl (hangs_frame h (by dsimp only; exact updSink_ne _ _ (by omega)) (Nat.le_succ _) (by rw [adding_append_add rfl i (by omega)]; exact h.add) h.place)
  | rmQ => exact Or.inl (hangs_frame h rfl (Nat.le_refl _) (by rw [adding_append (by simp)]; exact h.add) h.place)
  | rmN => exact Or.inl (hangs_frame h rfl (Nat.le_refl _) (by rw [adding_append (by simp)]; exact h.add) h.place)
  | clrQ => exact Or.inl (hangs_frame h rfl (Nat.le_refl _) (by rw [adding_append (by simp)]; exact h.add) h.place)
  | clrN => exact Or.inl (hangs_frame h rfl (Nat.le_refl _) (by rw [adding_append (by simp)]; exact h.add) h.place)
  | retAddKeep k j c hk hr hrd hkj ho =>
    exact Or.inl (hangs_frame h rfl (Nat.le_refl _) (by rw [adding_set hk (hid hk hr)]; exact h.add) h.place)
  | retAddDrop k j c hk hr hrd hkj ho =>
    have hne : j ≠ i := fun e => hid hk hr (e ▸ hkj)
    exact Or.inl (hangs_frame h (by dsimp only; exact updSink_ne _ _ (fun x => hne x.symm)) (Nat.le_refl _) (by rw [adding_set hk (hid hk hr)]; exact h.add) h.place)
  | retOther k c hk hr => exact Or.inl (hangs_frame h rfl (Nat.le_refl _) (by rw [adding_set hk (hid hk hr)]; exact h.add) h.place)
  | hold j hj ho =>
    by_cases e : j = i
    · subst e; right; left; dsimp only; rw [updSink_self]; simp
    · exact Or.inl (hangs_frame h (by dsimp only; exact updSink_ne _ _ (fun x => e x.symm)) (Nat.le_refl _) h.add h.place)
  | holdFail => exact Or.inl (hangs_frame h rfl (Nat.le_refl _) h.add h.place)
  | call j c hj hr =>
    have hne : j ≠ i := fun e => by subst e; have := h.refs; omega
    exact Or.inl (hangs_frame h (by dsimp only; exact updSink_ne _ _ (fun x => hne x.symm)) (Nat.le_refl _) h.add h.place)
  | relKeep j hj hr =>
    have hne : j ≠ i := fun e => by subst e; have := h.refs; omega
    exact Or.inl (hangs_frame h (by dsimp only; exact updSink_ne _ _ (fun x => hne x.symm)) (Nat.le_refl _) h.add h.place)
  | relDrop j hj hr =>
    have hne : j ≠ i := fun e => by subst e; have := h.refs; omega
    exact Or.inl (hangs_frame h (by dsimp only; exact updSink_ne _ _ (fun x => hne x.symm)) (Nat.le_refl _) h.add h.place)
  | reap j hj hr he =>
    have hne : j ≠ i := fun e => by subst e; rw [h.noexit] at he; cases he
    exact Or.inl (hangs_frame h (by dsimp only; exact updSink_ne _ _ (fun x => hne x.symm)) (Nat.le_refl _) h.add h.place)
  | dStart => exact Or.inl (hangs_frame h rfl (Nat.le_refl _) h.add h.place)
  | dStop => exact Or.inl (hangs_frame h rfl (Nat.le_refl _) h.add h.place)
  | dJoin => exact Or.inl (hangs_frame h rfl (Nat.le_refl _) h.add h.place)
  | dRet => exact Or.inl (hangs_frame h rfl (Nat.le_refl _) h.add h.place)
  | dKeep j r hp => exact Or.inl (hangs_frame h rfl (Nat.le_refl _) h.add (Or.inr (Or.inr (Or.inr (Or.inr (hi.w.book.gone (by rw [hp]; rfl)).2)))))
  | dDrop j r hp =>
    have hw := (hi.w.book.gone (by rw [hp]; rfl)).2
    by_cases e : j = i
    · subst e
      exact Or.inl ⟨by dsimp only; rw [updSink_self]; exact h.blocked, by dsimp only; rw [updSink_self]; exact h.noexit, h.lt, by dsimp only; rw [updSink_self]; exact h.refs, h.add, Or.inr (Or.inr (Or.inr (Or.inr hw)))⟩
    · exact Or.inl (hangs_frame h (by dsimp only; exact updSink_ne _ _ (fun x => e x.symm)) (Nat.le_refl _) h.add (Or.inr (Or.inr (Or.inr (Or.inr hw)))))
  | dReap j hp he =>
    have hne : j ≠ i := fun e => by subst e; rw [h.noexit] at he; cases he
    exact Or.inl (hangs_frame h (by dsimp only; exact updSink_ne _ _ (fun x => hne x.symm)) (Nat.le_refl _) h.add h.place)
  | tSaveNone m r hw hq ha =>
    exact Or.inl (hangs_frame h rfl (Nat.le_refl _) h.add h.place)
  | tSave m r hw hq ha =>
    have hm : i ∈ s.att := by rcases h.place with e | e | e | ⟨f, e⟩ | e <;> first | exact e.1 | (rw [hw] at e; cases e; done) | (rw [hw] at e; cases e.1)
    exact Or.inl (hangs_frame h rfl (Nat.le_refl _) h.add (Or.inl ⟨hm, by simp, by simp⟩))
  | tFatal m r hw hq =>
    have hm : i ∈ s.att := by rcases h.place with e | e | e | ⟨f, e⟩ | e <;> first | exact e.1 | (rw [hw] at e; cases e; done) | (rw [hw] at e; cases e.1)
    exact Or.inl (hangs_frame h rfl (Nat.le_refl _) h.add (Or.inl ⟨hm, by simp, by simp⟩))
  | tAdd j r hw hq =>
    have hm : i ∈ s.att := by rcases h.place with e | e | e | ⟨f, e⟩ | e <;> first | exact e.1 | (rw [hw] at e; cases e; done) | (rw [hw] at e; cases e.1)
    exact Or.inl (hangs_frame h rfl (Nat.le_refl _) h.add (Or.inl ⟨List.mem_append_left _ hm, by simp [hw], by simp [hw]⟩))
  | tRmYes j r hw hq ho =>
    have hm : i ∈ s.att := by rcases h.place with e | e | e | ⟨f, e⟩ | e <;> first | exact e.1 | (rw [hw] at e; cases e; done) | (rw [hw] at e; cases e.1)
    by_cases e : j = i
    · subst e
      exact Or.inl (hangs_frame h rfl (Nat.le_refl _) h.add (Or.inr (Or.inl ⟨rfl, by simp⟩)))
    · refine Or.inl (hangs_frame h rfl (Nat.le_refl _) h.add (Or.inl ⟨?_, by simp, by simpa using e⟩))
      exact List.mem_filter.2 ⟨hm, by simpa using fun x => e x.symm⟩
  | tRmNo j r hw hq ho =>
    exact Or.inl (hangs_frame h rfl (Nat.le_refl _) h.add h.place)
  | tClear r hw hq =>
    have hm : i ∈ s.att := by rcases h.place with e | e | e | ⟨f, e⟩ | e <;> first | exact e.1 | (rw [hw] at e; cases e; done) | (rw [hw] at e; cases e.1)
    exact Or.inl (hangs_frame h rfl (Nat.le_refl _) h.add (Or.inl ⟨hm, by simp, by simp⟩))
  | tDone r hw hq => exact Or.inl (hangs_frame h rfl (Nat.le_refl _) h.add (Or.inr (Or.inr (Or.inr (Or.inr rfl)))))
  | send x j rest hw =>
    have hm : i ∈ s.att := by rcases h.place with e | e | e | ⟨f, e⟩ | e <;> first | exact e.1 | (rw [hw] at e; cases e; done) | (rw [hw] at e; cases e.1)
    by_cases e : j = i
    · subst e
      exact Or.inl ⟨by dsimp only; rw [updSink_self]; exact h.blocked, by dsimp only; rw [updSink_self]; exact h.noexit, h.lt, by dsimp only; rw [updSink_self]; exact h.refs, h.add, Or.inl ⟨hm, by simp, by simp⟩⟩
    · exact Or.inl (hangs_frame h (by dsimp only; exact updSink_ne _ _ (fun x => e x.symm)) (Nat.le_refl _) h.add (Or.inl ⟨hm, by simp, by simp⟩))
  | sendEndF m hw =>
    have hm : i ∈ s.att := by rcases h.place with e | e | e | ⟨f, e⟩ | e <;> first | exact e.1 | (rw [hw] at e; cases e; done) | (rw [hw] at e; cases e.1)
    exact Or.inl (hangs_frame h rfl (Nat.le_refl _) h.add (Or.inl ⟨hm, by simp, by simp⟩))
  | sendEnd x hw =>
    have hm : i ∈ s.att := by rcases h.place with e | e | e | ⟨f, e⟩ | e <;> first | exact e.1 | (rw [hw] at e; cases e; done) | (rw [hw] at e; cases e.1)
    exact Or.inl (hangs_frame h rfl (Nat.le_refl _) h.add (Or.inl ⟨hm, by simp, by simp⟩))
  | rmKeep j hw ho =>
    by_cases e : j = i
    · subst e
      exfalso
      have hna : j ∉ s.att := by
        rcases h.place with e | e | e | ⟨f, e⟩ | e
        · exact absurd hw e.2.2
        · exact e.2
        · rw [hw] at e; cases e
        · rw [hw] at e; cases e
        · rw [hw] at e; cases e
      rw [own_i { s with wpc := .rmWait j } h.refs hna h.add rfl] at ho
      cases ho
    · have hm : i ∈ s.att := by
        rcases h.place with x | x | x | ⟨f, x⟩ | x
        · exact x.1
        · rw [hw] at x; cases x.1; exact absurd rfl e
        · rw [hw] at x; cases x
        · rw [hw] at x; cases x
        · rw [hw] at x; cases x
      exact Or.inl (hangs_frame h rfl (Nat.le_refl _) h.add (Or.inl ⟨hm, by simp, by simp⟩))
  | rmDrop j hw ho =>
    by_cases e : j = i
    · subst e
      exact Or.inl ⟨by dsimp only; rw [updSink_self]; exact h.blocked, by dsimp only; rw [updSink_self]; exact h.noexit, h.lt, by dsimp only; rw [updSink_self]; exact h.refs, h.add, Or.inr (Or.inr (Or.inl rfl))⟩
    · have hm : i ∈ s.att := by
        rcases h.place with x | x | x | ⟨f, x⟩ | x
        · exact x.1
        · rw [hw] at x; cases x.1; exact absurd rfl e
        · rw [hw] at x; cases x
        · rw [hw] at x; cases x
        · rw [hw] at x; cases x
      exact Or.inl (hangs_frame h (by dsimp only; exact updSink_ne _ _ (fun x => e x.symm)) (Nat.le_refl _) h.add (Or.inl ⟨hm, by simp, by simp⟩))
  | rmReap j hw he =>
    have hne : j ≠ i := fun e => by subst e; rw [h.noexit] at he; cases he
    have hm : i ∈ s.att := by
      rcases h.place with x | x | x | ⟨f, x⟩ | x
      · exact x.1
      · rw [hw] at x; cases x.1
      · rw [hw] at x; cases x; exact absurd rfl hne
      · rw [hw] at x; cases x
      · rw [hw] at x; cases x
    exact Or.inl (hangs_frame h (by dsimp only; exact updSink_ne _ _ (fun x => hne x.symm)) (Nat.le_refl _) h.add (Or.inl ⟨hm, by simp, by simp⟩))
  | clrEndF hw ha =>
    exfalso
    rcases h.place with x | x | x | ⟨f, x⟩ | x
    · rw [ha] at x; cases x.1
    · rw [hw] at x; cases x.1
    · rw [hw] at x; cases x
    · rw [hw] at x; cases x
    · rw [hw] at x; cases x
  | clrEnd hw ha =>
    exfalso
    rcases h.place with x | x | x | ⟨f, x⟩ | x
    · rw [ha] at x; cases x.1
    · rw [hw] at x; cases x.1
    · rw [hw] at x; cases x
    · rw [hw] at x; cases x
    · rw [hw] at x; cases x
  | clrKeep f j r hw ha ho =>
    have hm : i ∈ s.att := by rcases h.place with e | e | e | ⟨f, e⟩ | e <;> first | exact e.1 | (rw [hw] at e; cases e; done) | (rw [hw] at e; cases e.1)
    by_cases e : j = i
    · subst e
      exfalso
      have hnd := hi.w.sinks.nodup
      rw [ha] at hnd
      rw [own_i { s with att := r } h.refs (List.nodup_cons.1 hnd).1 h.add (by show s.wpc.holds j = false; rw [hw]; rfl)] at ho
      cases ho
    · rw [ha] at hm
      rcases List.mem_cons.1 hm with x | x
      · exact absurd x.symm e
      · exact Or.inl (hangs_frame h rfl (Nat.le_refl _) h.add (Or.inl ⟨x, by simp [hw], by simp [hw]⟩))
  | clrDrop f j r hw ha ho =>
    have hm : i ∈ s.att := by rcases h.place with e | e | e | ⟨f, e⟩ | e <;> first | exact e.1 | (rw [hw] at e; cases e; done) | (rw [hw] at e; cases e.1)
    by_cases e : j = i
    · subst e
      exact Or.inl ⟨by dsimp only; rw [updSink_self]; exact h.blocked, by dsimp only; rw [updSink_self]; exact h.noexit, h.lt, by dsimp only; rw [updSink_self]; exact h.refs, h.add, Or.inr (Or.inr (Or.inr (Or.inl ⟨f, rfl⟩)))⟩
    · rw [ha] at hm
      rcases List.mem_cons.1 hm with x | x
      · exact absurd x.symm e
      · exact Or.inl (hangs_frame h (by dsimp only; exact updSink_ne _ _ (fun x => e x.symm)) (Nat.le_refl _) h.add (Or.inl ⟨x, by simp, by simp⟩))
  | clrReap j f hw he =>
    have hne : j ≠ i := fun e => by subst e; rw [h.noexit] at he; cases he
    have hm : i ∈ s.att := by
      rcases h.place with x | x | x | ⟨f, x⟩ | x
      · exact x.1
      · rw [hw] at x; cases x.1
      · rw [hw] at x; cases x
      · rw [hw] at x; cases x; exact absurd rfl hne
      · rw [hw] at x; cases x
    exact Or.inl (hangs_frame h (by dsimp only; exact updSink_ne _ _ (fun x => hne x.symm)) (Nat.le_refl _) h.add (Or.inl ⟨hm, by simp, by simp⟩))
  | sPop j x r hj hr he hq =>
    by_cases e : j = i
    · subst e
      exact Or.inl ⟨by dsimp only; rw [updSink_self]; exact h.blocked, by dsimp only; rw [updSink_self]; exact h.noexit, h.lt, by dsimp only; rw [updSink_self]; exact h.refs, h.add, h.place⟩
    · exact Or.inl (hangs_frame h (by dsimp only; exact updSink_ne _ _ (fun x => e x.symm)) (Nat.le_refl _) h.add h.place)
  | sFinStop j hj hb hr =>
    by_cases e : j = i
    · subst e
      exact Or.inr (Or.inr ⟨by rw [← h.blocked]; exact hb, Or.inl ⟨by rw [hr]; simp, by dsimp only; rw [updSink_self]⟩⟩)
    · exact Or.inl (hangs_frame h (by dsimp only; exact updSink_ne _ _ (fun x => e x.symm)) (Nat.le_refl _) h.add h.place)
  | sFin j x hj hb hr =>
    by_cases e : j = i
    · subst e
      exact Or.inr (Or.inr ⟨by rw [← h.blocked]; exact hb, Or.inl ⟨by rw [hr]; simp, by dsimp only; rw [updSink_self]⟩⟩)
    · exact Or.inl (hangs_frame h (by dsimp only; exact updSink_ne _ _ (fun x => e x.symm)) (Nat.le_refl _) h.add h.place)
  | sFatal j x m hj hb hr =>
    by_cases e : j = i
    · subst e
      exact Or.inr (Or.inr ⟨by rw [← h.blocked]; exact hb, Or.inr (by dsimp only; rw [updSink_self])⟩)
    · exact Or.inl (hangs_frame h (by dsimp only; exact updSink_ne _ _ (fun x => e x.symm)) (Nat.le_refl _) h.add h.place)

/-- Only `hold` adds a reference. -/
theorem refs_step {s s' : WState M} {l : WLabel M} {i : Nat} (h : wStep s l = some s') (hl : l ≠ .hold i) (hin : i < s.n) :
    (s'.sk i).refs ≤ (s.sk i).refs := by
  have upd : ∀ (j : Nat) (f : SinkSt M → SinkSt M), (∀ k, (f k).refs ≤ k.refs) → (updSink s.sk j f i).refs ≤ (s.sk i).refs := by
    intro j f hf
    by_cases hj : i = j
    · subst hj; rw [updSink_self]; exact hf _
    · rw [updSink_ne _ _ hj]; exact Nat.le_refl _
  have same := Nat.le_refl (s.sk i).refs
  unfold wStep at h
  split at h
  · cases h
  cases l with
  | save m => simp only at h; split at h <;> cases h <;> exact same
  | fatal m => simp only at h; split at h <;> cases h <;> exact same
  | add =>
    simp only [addStep, beginCall] at h
    have hne : (updSink s.sk s.n (fun _ => SinkSt.fresh) i) = s.sk i := updSink_ne _ _ (by omega)
    split at h
    · cases h; exact same
    · split at h
      · cases h; dsimp only; rw [hne]; exact same
      · cases h; dsimp only [pushTask]; rw [hne]; exact same
  | remove j =>
    simp only [beginCall] at h
    split at h
    · split at h
      · cases h; exact same
      · split at h <;> cases h <;> exact same
    · cases h
  | clear =>
    simp only [beginCall] at h
    split at h
    · cases h; exact same
    · split at h <;> cases h <;> exact same
  | ret k =>
    simp only [retStep] at h
    split at h
    · cases h
    · split at h
      · split at h
        · cases h
          unfold clientDrop
          split
          · exact same
          · exact upd _ _ (fun _ => Nat.le_refl _)
        · cases h; exact same
      · cases h
  | hold j =>
    simp only at h
    split at h
    · cases h
      have hne : i ≠ j := fun e => hl (by rw [e])
      dsimp only; rw [updSink_ne _ _ hne]; exact same
    · cases h
  | holdFail j c => simp only at h; split at h <;> cases h; exact same
  | call j c => simp only at h; split at h <;> cases h; exact upd _ _ (fun _ => Nat.le_refl _)
  | release j =>
    simp only at h
    split at h
    · cases h
      unfold clientDrop
      split
      · exact upd _ _ (fun _ => Nat.sub_le _ _)
      · simp only [updSink_updSink]
        exact upd j (fun k => { ({ k with refs := k.refs - 1 } : SinkSt M).stop with reaping := true }) (fun _ => Nat.sub_le _ _)
    · cases h
  | reap j => simp only at h; split at h <;> cases h; exact upd _ _ (fun _ => Nat.le_refl _)
  | dtor =>
    simp only [dtorStep] at h
    split at h
    · cases h; exact same
    · split at h <;> cases h; exact same
    · split at h <;> cases h; exact same
    · split at h
      · cases h; exact same
      · split at h
        · cases h; exact same
        · cases h; exact upd _ _ (fun _ => Nat.le_refl _)
    · split at h <;> cases h; exact upd _ _ (fun _ => Nat.le_refl _)
    · cases h
  | work =>
    simp only [workStep] at h
    split at h
    · unfold takeTask at h
      split at h
      · cases h
      · split at h <;> cases h <;> exact same
      · cases h; exact same
      · cases h; exact same
      · split at h <;> cases h <;> exact same
      · cases h; exact same
      · cases h; exact same
    · cases h; exact upd _ _ (fun _ => Nat.le_refl _)
    · cases h; exact same
    · cases h; exact same
    · split at h
      · cases h; exact same
      · cases h; exact upd _ _ (fun _ => Nat.le_refl _)
    · split at h <;> cases h; exact upd _ _ (fun _ => Nat.le_refl _)
    · split at h
      · split at h <;> cases h <;> exact same
      · split at h
        · cases h; exact same
        · cases h; exact upd _ _ (fun _ => Nat.le_refl _)
    · split at h <;> cases h; exact upd _ _ (fun _ => Nat.le_refl _)
    · cases h
    · cases h
  | sinkPop j =>
    simp only [sinkPop] at h
    split at h
    · split at h
      · cases h
      · cases h; exact upd _ _ (fun _ => Nat.le_refl _)
    · cases h
  | sinkFin j =>
    simp only [sinkFin] at h
    split at h
    · split at h
      · cases h
      · cases h; exact upd _ _ (fun _ => Nat.le_refl _)
      · cases h; exact upd _ _ (fun _ => Nat.le_refl _)
    · cases h
  | sinkFatal j m =>
    simp only at h
    split at h
    · split at h
      · cases h; exact same
      · cases h; exact upd _ _ (fun _ => Nat.le_refl _)
    · cases h

theorem hangs_run {i : Nat} {l : List (WLabel M)} : ∀ {s s' : WState M}, AllInv s → Hangs true i s → .hold i ∉ l → wRun s l = some s' → Hangs true i s' := by
  induction l with
  | nil => intro s s' _ h _ hr; cases hr; exact h
  | cons a l ih =>
    intro s s' hi h hl hr
    rw [wRun] at hr
    obtain ⟨u, hu, hr⟩ := Option.bind_eq_some_iff.1 hr
    obtain ⟨_, _, ht⟩ := tr_of_step hu
    refine ih (allInv_step hi hu) ?_ (fun hm => hl (List.mem_cons_of_mem _ hm)) hr
    rcases hangs_tr ht hi h with h1 | h1 | ⟨h1, _⟩
    · exact h1
    · exfalso
      have := refs_step hu (i := i) (fun e => hl (by rw [e]; simp)) h.lt
      rw [h.refs] at this
      omega
    · cases h1

/-- C62 fails: if the code that runs on a sink's thread raises a fatal event while the sink is attached and no client holds it, the
process never ends: in no continuation (in which no client takes hold of the sink) does the worker reach the end of the process, and
nothing later is delivered by that sink. -/
theorem C62_hangs {ls l : List (WLabel M)} {s s' : WState M} {i : Nat} (h : wRun WState.start ls = some s) (hn : i < s.n)
    (hb : (s.sk i).blocked = true) (ha : i ∈ s.att) (hw : s.wpc ≠ .dead) (hh : s.wpc ≠ .rmHeld i) (hr : (s.sk i).refs = 0)
    (had : adding s.calls i = false) (hl : .hold i ∉ l) (h' : wRun s l = some s') :
    s'.wpc ≠ .dead ∧ (s'.sk i).blocked = true := by
  have hi := allInv_run h
  have hal := alive_of_owned hi.w.sinks hn (owned_iff.2 (Or.inr (Or.inl ha)))
  have hang : Hangs true i s := ⟨hb, (linv_alive (hi.w.sinks.loc i) hal).1, hn, hr, had, Or.inl ⟨ha, hw, hh⟩⟩
  have := hangs_run hi hang hl h'
  refine ⟨?_, this.blocked⟩
  intro hd
  rcases this.place with x | x | x | ⟨f, x⟩ | x
  · exact x.2.1 hd
  · rw [hd] at x; cases x.1
  · rw [hd] at x; cases x
  · rw [hd] at x; cases x
  · rw [hd] at x; cases x

/-- C62 fails: a concrete history. A sink is added, a message is logged, and the callback of the sink raises a fatal event. -/
theorem C62_negation : ∃ (ls : List (WLabel Nat)) (s : WState Nat), wRun WState.start ls = some s ∧ s.ub = false ∧ .fatal 8 ∈ handed 0 0 ls ∧
    ∀ l s', .hold 0 ∉ l → wRun s l = some s' → s'.wpc ≠ .dead := by
  refine ⟨[.add, .work, .ret 0, .save 1, .work, .work, .work, .sinkPop 0, .sinkFatal 0 8], _, rfl, rfl, by decide, ?_⟩
  intro l s' hl h'
  exact (C62_hangs (i := 0) (ls := [.add, .work, .ret 0, .save 1, .work, .work, .work, .sinkPop 0, .sinkFatal 0 8]) rfl (by decide) rfl (by decide)
    (by decide) (by decide) rfl rfl hl h').1

/-- `C52_drains` and `C62_ends_partial` on a concrete case: two sinks and a fatal message, no step is possible at the end. -/
example : ∃ s, wRun WState.start ([.add, .add, .save 1, .fatal 8] : List (WLabel Nat)) = some s ∧ s.ub = false ∧ (∀ i, (s.sk i).blocked = false) ∧
    .fatal 8 ∈ handed 0 0 ([.add, .add, .save 1, .fatal 8] : List (WLabel Nat)) := by
  refine ⟨_, rfl, rfl, ?_, by decide⟩
  intro i
  show (updSink _ _ _ i).blocked = false
  unfold updSink
  split
  · rfl
  · show (updSink _ _ _ i).blocked = false
    unfold updSink
    split <;> rfl

end G3.Props
