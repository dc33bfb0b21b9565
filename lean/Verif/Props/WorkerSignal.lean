import Verif.Model.WorkerSignal
import Verif.Props.Worker
/-
C62 for the worker's own thread.
-/
namespace G3.Props
open G3 G3.Spec

variable {M : Type}

theorem wt_flat_step {s s' : WTState M} {l : WTLabel M} (h : wtStep s l = some s') : wStep s.base l.flat = some s'.base := by
  cases l with
  | other l =>
    simp only [wtStep] at h
    split at h
    · cases h
    · obtain ⟨b, hb, rfl⟩ := Option.map_eq_some_iff.1 h; exact hb
  | hit m =>
    simp only [wtStep] at h
    split at h
    · cases h
    · obtain ⟨b, hb, rfl⟩ := Option.map_eq_some_iff.1 h; exact hb

theorem wt_flat_run (ls : List (WTLabel M)) {s s' : WTState M} (h : wtRun s ls = some s') :
    wRun s.base (ls.map WTLabel.flat) = some s'.base := by
  induction ls generalizing s with
  | nil => cases h; rfl
  | cons l ls ih =>
    obtain ⟨u, hu, hr⟩ := Option.bind_eq_some_iff.1 h
    show (wStep s.base l.flat).bind _ = _
    rw [wt_flat_step hu]
    exact ih hr

theorem nowork_step {s s' : WState M} {l : WLabel M} (hl : l.isWork = false) (h : wStep s l = some s') :
    s'.wpc = s.wpc ∧ s'.completed = s.completed := by
  unfold wStep at h
  split at h
  · cases h
  · cases l with
    | work => cases hl
    | save m => simp only at h; split at h <;> (cases h; exact ⟨rfl, rfl⟩)
    | fatal m => simp only at h; split at h <;> (cases h; exact ⟨rfl, rfl⟩)
    | add =>
      simp only [Option.some.injEq] at h; subst h
      unfold addStep beginCall
      repeat' split
      all_goals exact ⟨rfl, rfl⟩
    | remove i =>
      simp only at h; split at h
      · cases h; unfold beginCall; repeat' split
        all_goals exact ⟨rfl, rfl⟩
      · cases h
    | clear =>
      simp only [Option.some.injEq] at h; subst h
      unfold beginCall
      repeat' split
      all_goals exact ⟨rfl, rfl⟩
    | ret k =>
      simp only [retStep] at h
      split at h
      · cases h
      · split at h
        · split at h
          · cases h; unfold clientDrop; split <;> exact ⟨rfl, rfl⟩
          · cases h; exact ⟨rfl, rfl⟩
        · cases h
    | hold i => simp only at h; split at h <;> cases h; exact ⟨rfl, rfl⟩
    | holdFail i c => simp only at h; split at h <;> cases h; exact ⟨rfl, rfl⟩
    | call i c => simp only at h; split at h <;> cases h; exact ⟨rfl, rfl⟩
    | release i =>
      simp only at h; split at h <;> cases h
      unfold clientDrop; split <;> exact ⟨rfl, rfl⟩
    | reap i => simp only at h; split at h <;> cases h; exact ⟨rfl, rfl⟩
    | dtor =>
      simp only [dtorStep] at h
      split at h
      · cases h; exact ⟨rfl, rfl⟩
      · split at h <;> cases h; exact ⟨rfl, rfl⟩
      · split at h <;> cases h; exact ⟨rfl, rfl⟩
      · split at h
        · cases h; exact ⟨rfl, rfl⟩
        · split at h <;> (cases h; exact ⟨rfl, rfl⟩)
      · split at h <;> cases h; exact ⟨rfl, rfl⟩
      · cases h
    | sinkPop i =>
      simp only [sinkPop] at h
      split at h
      · split at h <;> cases h; exact ⟨rfl, rfl⟩
      · cases h
    | sinkFin i =>
      simp only [sinkFin] at h
      split at h
      · split at h <;> cases h <;> exact ⟨rfl, rfl⟩
      · cases h
    | sinkFatal i m =>
      simp only at h
      split at h
      · split at h <;> (cases h; exact ⟨rfl, rfl⟩)
      · cases h

theorem stuck_step {s s' : WTState M} {l : WTLabel M} (hs : s.stuck = true) (h : wtStep s l = some s') :
    s'.stuck = true ∧ s'.base.wpc = s.base.wpc ∧ s'.base.completed = s.base.completed := by
  cases l with
  | other l =>
    simp only [wtStep] at h
    split at h
    · cases h
    · rename_i hn
      obtain ⟨b, hb, rfl⟩ := Option.map_eq_some_iff.1 h
      have hl : l.isWork = false := by
        cases hw : l.isWork with
        | false => rfl
        | true => exact absurd ⟨hs, hw⟩ hn
      exact ⟨hs, nowork_step hl hb⟩
  | hit m =>
    simp only [wtStep] at h
    rw [if_pos (Or.inl hs)] at h
    cases h

theorem stuck_run (ls : List (WTLabel M)) {s s' : WTState M} (hs : s.stuck = true) (h : wtRun s ls = some s') :
    s'.stuck = true ∧ s'.base.wpc = s.base.wpc ∧ s'.base.completed = s.base.completed := by
  induction ls generalizing s with
  | nil => cases h; exact ⟨hs, rfl, rfl⟩
  | cons l ls ih =>
    obtain ⟨u, hu, hr⟩ := Option.bind_eq_some_iff.1 h
    obtain ⟨a, b, c⟩ := stuck_step hs hu
    obtain ⟨a', b', c'⟩ := ih a hr
    exact ⟨a', b'.trans b, c'.trans c⟩

theorem wtRun_append (a b : List (WTLabel M)) {s s' : WTState M} (h : wtRun s (a ++ b) = some s') :
    ∃ u, wtRun s a = some u ∧ wtRun u b = some s' := by
  induction a generalizing s with
  | nil => exact ⟨s, rfl, h⟩
  | cons l a ih =>
    obtain ⟨u, hu, hr⟩ := Option.bind_eq_some_iff.1 h
    obtain ⟨v, hv, hb⟩ := ih hr
    exact ⟨v, by show (wtStep s l).bind _ = _; rw [hu]; exact hv, hb⟩

/-- C62 fails for the worker's own thread: if a fatal event hits it, at whatever moment of whatever history, then in no continuation does the
process end; no sink ever gets more than the tasks give that the worker had begun, so never the fatal message itself; no call begun later
(addSink, removeSink, removeAllSinks) returns, and the destructor of the worker does not return. -/
theorem C62_worker_hangs {pre post : List (WTLabel M)} {m : M} {u t : WTState M} (hu : wtRun WTState.start pre = some u)
    (h : wtRun u (.hit m :: post) = some t) :
    t.base.wpc ≠ .dead ∧ t.base.phase ≠ .returned ∧
    (∀ i, received (t.base.sk i) <+: gets i ((handed 0 0 (pre.map WTLabel.flat)).take (started u.base))) ∧
    ∀ (k : Nat) (c : WCall) (p : Nat), t.base.calls[k]? = some c → c.pos = some p →
      (handed 0 0 (pre.map WTLabel.flat)).length < p → c.returned = false := by
  have hu' : wRun WState.start (pre.map WTLabel.flat) = some u.base := wt_flat_run _ hu
  have hr' := wt_flat_run _ h
  have hall := wRun_append' hu' hr'
  obtain ⟨v, hv, hr⟩ := Option.bind_eq_some_iff.1 h
  simp only [wtStep] at hv
  split at hv
  · cases hv
  rename_i hno
  obtain ⟨b, hb, rfl⟩ := Option.map_eq_some_iff.1 hv
  obtain ⟨_, hw, hc⟩ := stuck_run post rfl hr
  obtain ⟨hw1, hc1⟩ := nowork_step (l := .fatal m) rfl hb
  have hwpc : t.base.wpc = u.base.wpc := hw.trans hw1
  have hcomp : t.base.completed = u.base.completed := hc.trans hc1
  have hnd : u.base.wpc ≠ .dead := by
    intro e
    unfold wStep at hb
    rw [if_pos (Or.inr (by rw [e]; rfl))] at hb
    cases hb
  have hne : u.base.wpc ≠ .ended := by
    intro e
    exact hno (Or.inr (Or.inl (by rw [e]; rfl)))
  have it := allInv_run hall
  have iu := allInv_run hu'
  have hg : t.base.phase.queueGone = false := by
    cases hg : t.base.phase.queueGone with
    | false => rfl
    | true => exact absurd (hwpc ▸ (it.w.book.gone hg).2) hne
  refine ⟨by rw [hwpc]; exact hnd, fun e => (by rw [e] at hg; cases hg), fun i => ?_, fun k c p hk hp hlt => ?_⟩
  · have hst : started t.base = started u.base := by unfold started; rw [hwpc, hcomp]
    have e1 := it.w.deliver.got i
    have e2 : reqs t.base (started t.base) = (handed 0 0 (pre.map WTLabel.flat)).take (started u.base) := by
      obtain ⟨x, hx⟩ := handed_append hu' hr'
      unfold reqs
      rw [List.map_take, sub_handed hall, hx, hst, List.take_append_of_le_length]
      rw [← sub_handed hu', List.length_map]; exact iu.w.book.le
    rw [e2] at e1
    exact (received_prefix _).trans ⟨_, e1⟩
  · cases hcr : c.returned with
    | false => rfl
    | true =>
      exfalso
      have := it.w.calls.ret c (List.mem_of_getElem? hk) hcr
      unfold ready at this
      rw [hp] at this
      simp only [hg, Bool.or_false, decide_eq_true_eq] at this
      have hle := iu.w.book.le
      have hl : u.base.sub.length = (handed 0 0 (pre.map WTLabel.flat)).length := by rw [← sub_handed hu', List.length_map]
      unfold started at hle
      omega

/-- The history of `C62_worker_negation`: a sink is attached, a message is logged and served, another is logged. -/
def beforeHit : List (WTLabel Nat) :=
  [.other .add, .other .work, .other (.ret 0), .other (.save 1), .other .work, .other .work, .other .work, .other (.save 2)]

/-- C62 fails: a concrete history. A signal hits the worker's thread before it takes up the second message. -/
theorem C62_worker_negation : ∃ (ls : List (WTLabel Nat)) (u : WTState Nat), wtRun WTState.start ls = some u ∧
    (∃ t, wtRun u [.hit 8] = some t ∧ t.base.ub = false) ∧ gets 0 (handed 0 0 (ls.map WTLabel.flat)) = [.log 1, .log 2] ∧
    ∀ l t, wtRun u (.hit 8 :: l) = some t → t.base.wpc ≠ .dead ∧ received (t.base.sk 0) <+: [.log 1] := by
  refine ⟨beforeHit, _, rfl, ⟨_, rfl, rfl⟩, rfl, ?_⟩
  intro l t h
  obtain ⟨a, _, b, _⟩ := C62_worker_hangs (pre := beforeHit) rfl h
  exact ⟨a, b 0⟩

end G3.Props
