import Verif.Props.WorkerLive
/-
C62, exactly: once a fatal event has been handed to the worker, the process ends, or the worker waits for ever for the thread of
a sink that has raised a fatal event itself.
-/
namespace G3.Props
open G3 G3.Spec

variable {M : Type}

/-- The worker waits in `~Sink` for the thread of sink i to end (logworker.hpp:113 and :127, logworker.cpp:63 with sink.hpp:61). -/
def joins (s : WState M) (i : Nat) : Prop := s.wpc = .rmWait i ∨ ∃ f, s.wpc = .clrWait i f

theorem client_wpc {s : WState M} (i : Nat) : (clientDrop s i).wpc = s.wpc ∧ (clientDrop s i).n = s.n ∧
    ∀ j, ((clientDrop s i).sk j).blocked = (s.sk j).blocked ∧ ((clientDrop s i).sk j).exited = (s.sk j).exited := by
  unfold clientDrop
  split
  · exact ⟨rfl, rfl, fun _ => ⟨rfl, rfl⟩⟩
  · refine ⟨rfl, rfl, fun j => ?_⟩
    show ((updSink s.sk i _) j).blocked = _ ∧ ((updSink s.sk i _) j).exited = _
    unfold updSink
    split <;> exact ⟨rfl, rfl⟩

/-- No step gets the worker past a sink whose thread sleeps. -/
theorem joins_step {s s' : WState M} {l : WLabel M} {i : Nat} (hin : i < s.n) (hj : joins s i) (hb : (s.sk i).blocked = true)
    (he : (s.sk i).exited = false) (h : wStep s l = some s') :
    i < s'.n ∧ joins s' i ∧ (s'.sk i).blocked = true ∧ (s'.sk i).exited = false := by
  have upd : ∀ (k : Nat) (f : SinkSt M → SinkSt M), (∀ x, (f x).blocked = x.blocked ∧ (f x).exited = x.exited) →
      ((updSink s.sk k f) i).blocked = true ∧ ((updSink s.sk k f) i).exited = false := by
    intro k f hf
    unfold updSink
    split
    · rw [(hf _).1, (hf _).2]; exact ⟨hb, he⟩
    · exact ⟨hb, he⟩
  have begin_ : ∀ (u : WState M) (k : WKind) (t : WTask M), (beginCall u k t).wpc = u.wpc ∧ (beginCall u k t).n = u.n ∧
      (beginCall u k t).sk = u.sk := by
    intro u k t
    unfold beginCall
    split
    · exact ⟨rfl, rfl, rfl⟩
    · split <;> exact ⟨rfl, rfl, rfl⟩
  unfold wStep at h
  split at h
  · cases h
  · cases l with
    | save m => dsimp only at h; split at h <;> (cases h; exact ⟨hin, hj, hb, he⟩)
    | fatal m => dsimp only at h; split at h <;> (cases h; exact ⟨hin, hj, hb, he⟩)
    | add =>
      cases h
      unfold addStep
      split
      · exact ⟨hin, hj, hb, he⟩
      · obtain ⟨b1, b2, b3⟩ := begin_ { s with n := s.n + 1, sk := updSink s.sk s.n (fun _ => .fresh) } (.add s.n) (.add s.n)
        unfold joins
        rw [b1, b2, b3]
        have : updSink s.sk s.n (fun _ => .fresh) i = s.sk i := if_neg (by omega)
        dsimp only
        rw [this]
        exact ⟨Nat.lt_succ_of_lt hin, hj, hb, he⟩
    | remove k =>
      dsimp only at h
      split at h
      · cases h
        obtain ⟨b1, b2, b3⟩ := begin_ s (.remove k) (.remove k)
        unfold joins
        rw [b1, b2, b3]
        exact ⟨hin, hj, hb, he⟩
      · cases h
    | clear =>
      cases h
      obtain ⟨b1, b2, b3⟩ := begin_ s .clear .clear
      unfold joins
      rw [b1, b2, b3]
      exact ⟨hin, hj, hb, he⟩
    | ret k =>
      dsimp only at h
      unfold retStep at h
      split at h
      · cases h
      · split at h
        · dsimp only at h
          split at h
          · next c _ _ _ j _ =>
            cases h
            obtain ⟨c1, c2, c3⟩ := client_wpc (s := { s with calls := s.calls.set k { c with returned := true } }) j
            unfold joins
            rw [c1, c2, (c3 i).1, (c3 i).2]
            exact ⟨hin, hj, hb, he⟩
          · cases h; exact ⟨hin, hj, hb, he⟩
        · cases h
    | hold k =>
      dsimp only at h
      split at h
      · cases h
        exact ⟨hin, hj, upd k _ (fun _ => ⟨rfl, rfl⟩)⟩
      · cases h
    | holdFail k c =>
      dsimp only at h
      split at h
      · cases h; exact ⟨hin, hj, hb, he⟩
      · cases h
    | call k c =>
      dsimp only at h
      split at h
      · cases h
        exact ⟨hin, hj, upd k _ (fun _ => ⟨rfl, rfl⟩)⟩
      · cases h
    | release k =>
      dsimp only at h
      split at h
      · cases h
        obtain ⟨c1, c2, c3⟩ := client_wpc (s := { s with sk := updSink s.sk k fun k => { k with refs := k.refs - 1 } }) k
        unfold joins
        rw [c1, c2, (c3 i).1, (c3 i).2]
        exact ⟨hin, hj, upd k _ (fun _ => ⟨rfl, rfl⟩)⟩
      · cases h
    | reap k =>
      dsimp only at h
      split at h
      · cases h
        exact ⟨hin, hj, upd k _ (fun _ => ⟨rfl, rfl⟩)⟩
      · cases h
    | dtor =>
      dsimp only at h
      unfold dtorStep at h
      split at h
      · cases h; exact ⟨hin, hj, hb, he⟩
      · split at h
        · cases h; exact ⟨hin, hj, hb, he⟩
        · cases h
      · split at h
        · cases h; exact ⟨hin, hj, hb, he⟩
        · cases h
      · split at h
        · cases h; exact ⟨hin, hj, hb, he⟩
        · split at h
          · cases h; exact ⟨hin, hj, hb, he⟩
          · cases h
            exact ⟨hin, hj, upd _ _ (fun _ => ⟨rfl, rfl⟩)⟩
      · split at h
        · cases h
          exact ⟨hin, hj, upd _ _ (fun _ => ⟨rfl, rfl⟩)⟩
        · cases h
      · cases h
    | work =>
      dsimp only at h
      rcases hj with hw | ⟨f, hw⟩ <;> simp [workStep, hw, he] at h
    | sinkPop k =>
      dsimp only at h
      unfold sinkPop at h
      split at h
      · split at h
        · cases h
        · cases h
          exact ⟨hin, hj, upd k _ (fun _ => ⟨rfl, rfl⟩)⟩
      · cases h
    | sinkFin k =>
      dsimp only at h
      unfold sinkFin at h
      split at h
      · next hc =>
        have hne : i ≠ k := by rintro rfl; rw [hb] at hc; cases hc.2
        have keep : ∀ f : SinkSt M → SinkSt M, ((updSink s.sk k f) i).blocked = true ∧ ((updSink s.sk k f) i).exited = false := by
          intro f
          have : updSink s.sk k f i = s.sk i := if_neg hne
          rw [this]; exact ⟨hb, he⟩
        split at h
        · cases h
        · cases h; exact ⟨hin, hj, keep _⟩
        · cases h; exact ⟨hin, hj, keep _⟩
      · cases h
    | sinkFatal k m =>
      dsimp only at h
      split at h
      · next hc =>
        have hne : i ≠ k := by rintro rfl; rw [hb] at hc; cases hc.2.1
        split at h
        · cases h; exact ⟨hin, hj, hb, he⟩
        · cases h
          refine ⟨hin, hj, ?_⟩
          show ((updSink s.sk k _) i).blocked = true ∧ ((updSink s.sk k _) i).exited = false
          have : ∀ f, updSink s.sk k f i = s.sk i := fun f => if_neg hne
          rw [this]; exact ⟨hb, he⟩
      · cases h

theorem joins_run {i : Nat} {l : List (WLabel M)} : ∀ {s s' : WState M}, i < s.n → joins s i → (s.sk i).blocked = true →
    (s.sk i).exited = false → wRun s l = some s' → joins s' i ∧ (s'.sk i).blocked = true := by
  induction l with
  | nil => intro s s' _ hj hb _ h; cases h; exact ⟨hj, hb⟩
  | cons a l ih =>
    intro s s' hin hj hb he h
    rw [wRun] at h
    obtain ⟨u, hu, h⟩ := Option.bind_eq_some_iff.1 h
    obtain ⟨a1, a2, a3, a4⟩ := joins_step hin hj hb he hu
    exact ih a1 a2 a3 a4 h

/-- C62, exactly: take any moment at which a fatal event has been handed over and at which nothing more can happen without new input.
The process has ended, unless the worker waits for the thread of a sink which sleeps in a fatal event of its own. -/
theorem C62_exact {ls : List (WLabel M)} {s : WState M} {m : M} (h : wRun WState.start ls = some s) (hu : s.ub = false)
    (hf : .fatal m ∈ handed 0 0 ls) (hst : stuck s) :
    s.wpc = .dead ∨ ∃ i, joins s i ∧ (s.sk i).blocked = true ∧ (s.sk i).running.isSome = true := by
  by_cases hd : s.wpc = .dead
  · exact Or.inl hd
  right
  have hi := allInv_run h
  have hg : ¬ (s.ub = true ∨ s.wpc.isDead = true) := by
    rintro (h | h)
    · rw [hu] at h; cases h
    · cases hw : s.wpc <;> rw [hw] at h <;> first | exact hd hw | cases h
  have hm : .fatal m ∈ s.sub := by
    rw [← sub_handed h] at hf
    obtain ⟨x, hx, hxe⟩ := List.mem_map.1 hf
    cases x <;> cases hxe
    exact hx
  have wait : ∀ i, joins s i → (s.sk i).exited = false → joins s i ∧ (s.sk i).blocked = true ∧ (s.sk i).running.isSome = true := by
    intro i hj he
    have hw := hi.w.sinks.waits i (by rcases hj with hp | ⟨f, hp⟩ <;> simp [waitsOn, hp, pcWaits])
    have hrun : (s.sk i).running ≠ none := by
      intro hr
      have hq : (s.sk i).q = [] := by
        have := hst (.sinkPop i) trivial
        simp only [wStep, if_neg hg, sinkPop, hw.1, hr, he, and_self, if_true] at this
        split at this
        · assumption
        · cases this
      rw [sent_stop (hi.w.sinks.loc i) hw.2.1 hq hr] at he
      cases he
    refine ⟨hj, ?_, Option.isSome_iff_ne_none.2 hrun⟩
    cases hb : (s.sk i).blocked with
    | true => rfl
    | false =>
      exfalso
      have := hst (.sinkFin i) trivial
      simp only [wStep, if_neg hg, sinkFin, hw.1, hb, and_self, if_true] at this
      split at this
      · exact hrun (by assumption)
      · cases this
      · cases this
  have idle : s.wpc = .idle → s.wq = [] → False := by
    intro hw hwq
    have hgone : s.phase.queueGone = false := by
      cases hgo : s.phase.queueGone
      · rfl
      · rw [(hi.w.book.gone hgo).2] at hw; cases hw
    have h1 := hi.w.book.queue hgone
    have h3 : started s = s.completed := by unfold started; rw [hw]; rfl
    rw [hwq, h3] at h1
    have h4 := List.drop_eq_nil_iff.1 h1.symm
    have := hi.w.book.notFinal (by rw [hw]; simp) (.fatal m) (by rw [List.take_of_length_le h4]; exact hm)
    cases this
  have hwork := hst .work trivial
  simp only [wStep, if_neg hg, workStep] at hwork
  split at hwork
  · next hp =>
    exfalso
    refine idle hp ?_
    unfold takeTask at hwork
    split at hwork
    · assumption
    · split at hwork <;> cases hwork
    · cases hwork
    · cases hwork
    · split at hwork <;> cases hwork
    · cases hwork
    · cases hwork
  · cases hwork
  · cases hwork
  · cases hwork
  · split at hwork <;> cases hwork
  · next i hp =>
    refine ⟨i, wait i (Or.inl hp) ?_⟩
    cases he : (s.sk i).exited with
    | false => rfl
    | true => rw [if_pos he] at hwork; cases hwork
  · split at hwork
    · split at hwork <;> cases hwork
    · split at hwork <;> cases hwork
  · next i f hp =>
    refine ⟨i, wait i (Or.inr ⟨f, hp⟩) ?_⟩
    cases he : (s.sk i).exited with
    | false => rfl
    | true => rw [if_pos he] at hwork; cases hwork
  · next hw =>
    exfalso
    obtain ⟨pre, hpp, hpre⟩ := hi.w.book.ended hw
    rw [ended_facts hi hw, List.take_length] at hpp
    rw [hpp] at hm
    rcases List.mem_append.1 hm with hm | hm
    · have := hpre _ hm; cases this
    · rw [List.mem_singleton] at hm; cases hm
  · next hp => exact absurd hp hd

/-- C62: and that wait is for ever, whatever the clients do then. -/
theorem C62_for_ever {ls l : List (WLabel M)} {s s' : WState M} {i : Nat} (h : wRun WState.start ls = some s) (hj : joins s i)
    (hb : (s.sk i).blocked = true) (hr : (s.sk i).running.isSome = true) (h' : wRun s l = some s') :
    s'.wpc ≠ .dead ∧ joins s' i := by
  have hi := allInv_run h
  have hw := hi.w.sinks.waits i (by rcases hj with hp | ⟨f, hp⟩ <;> simp [waitsOn, hp, pcWaits])
  have he : (s.sk i).exited = false := by
    cases hx : (s.sk i).exited with
    | false => rfl
    | true =>
      rw [((hi.w.sinks.loc i).exit hx).2] at hr
      cases hr
  obtain ⟨j1, _⟩ := joins_run hw.1 hj hb he h'
  refine ⟨?_, j1⟩
  intro hd
  rcases j1 with x | ⟨f, x⟩ <;> rw [hd] at x <;> cases x

/-- Both ends occur: a fatal message from outside, and one from the callback of the sink. -/
example : (∃ s : WState Nat, wRun WState.start [.fatal 8, .work, .work, .work] = some s ∧ s.wpc = .dead) ∧
    ∃ s : WState Nat, wRun WState.start [.add, .work, .ret 0, .save 1, .work, .work, .work, .sinkPop 0, .sinkFatal 0 8, .work, .work,
      .work, .work] = some s ∧ joins s 0 ∧ (s.sk 0).blocked = true :=
  ⟨⟨_, rfl, rfl⟩, ⟨_, rfl, Or.inr ⟨true, rfl⟩, rfl⟩⟩

end G3.Props
