import Verif.Spec.Backlog
import Verif.Props.Worker
/-
C118: the messages that wait in memory.
-/
namespace G3.Props
open G3 G3.Spec

variable {M : Type}

/-! ### Counting -/

theorem countP_gotOf (l : List (SItem M)) : (l.filterMap gotOf).length = l.countP messageItem := by
  induction l with
  | nil => rfl
  | cons x l ih => cases x <;> simp [List.countP_cons, List.filterMap_cons, gotOf, messageItem, ih]

theorem sent_count (k : SinkSt M) : (sentMsgs k).length = (received k).length + atSink k := by
  unfold sentMsgs full received atSink
  rw [← countP_gotOf]
  simp only [List.append_assoc, List.filterMap_append, List.length_append]
  cases k.exited <;> simp [gotOf]

theorem pend_count (i : Nat) (pc : WPc M) : (pend i pc).length = onItsWay i pc := by
  cases pc with
  | sending x rest =>
    unfold pend onItsWay
    dsimp only
    by_cases h : i ∈ rest
    · rw [if_pos h]; cases x <;> simp [gotOf, messageItem, h]
    · rw [if_neg h, if_neg (fun a => h a.1)]; rfl
  | _ => rfl

theorem queue_rest {s : WState M} (h : AllInv s) : s.wq = s.sub.drop (started s) := by
  cases hg : s.phase.queueGone
  · exact h.w.book.queue hg
  · obtain ⟨h1, h2⟩ := h.w.book.gone hg
    rw [h1]
    have h3 := ended_facts h h2
    have h4 : started s = s.completed := by unfold started; rw [h2]; rfl
    rw [h4, h3, List.drop_length]

theorem gives_count (l : List (WTask M)) : ((l.map req).flatMap Req.gives).length = l.countP messageTask := by
  induction l with
  | nil => rfl
  | cons t l ih => cases t <;> simp [List.countP_cons, req, Req.gives, messageTask, ih]

theorem gets_more (i : Nat) (l m : List (Req M)) : (gets i (l ++ m)).length ≤ (gets i l).length + (m.flatMap Req.gives).length := by
  by_cases h : ∃ y ∈ l, y.final = true
  · rw [gets_final i l m h]; omega
  · have h' : ∀ y ∈ l, y.final = false := fun y hy => by
      cases hf : y.final
      · rfl
      · exact absurd ⟨y, hy, hf⟩ h
    unfold gets
    rw [served_noFinal l m h', served_self l h', getsFrom_append, List.length_append]
    have h1 := (getsFrom_sublist i (served m) ([] ++ l)).length_le
    have h2 := (flatMap_prefix Req.gives (served_prefix m)).length_le
    omega

theorem started_step {s s' : WState M} {l : WLabel M} (h : wStep s l = some s') : started s ≤ started s' := by
  obtain ⟨_, _, ht⟩ := tr_of_step h
  unfold started
  cases ht <;> simp_all [pushTask, pcBusy]

theorem started_run {ls : List (WLabel M)} : ∀ {s s' : WState M}, wRun s ls = some s' → started s ≤ started s' := by
  induction ls with
  | nil => intro s s' h; cases h; exact Nat.le_refl _
  | cons l ls ih =>
    intro s s' h
    simp only [wRun] at h
    cases hl : wStep s l with
    | none => rw [hl] at h; cases h
    | some u => rw [hl] at h; exact Nat.le_trans (started_step hl) (ih h)

theorem given_cons (r : Req M) (l : List (Req M)) : ((r :: l).flatMap Req.gives).length = r.gives.length + (l.flatMap Req.gives).length := by
  rw [List.flatMap_cons, List.length_append]

/-- A step that hands in the request r, or nothing. -/
theorem handed_one {l : WLabel M} {ls : List (WLabel M)} {r : Req M} {x : List (Req M)} (hr : r.gives.length ≤ if messageStep l then 1 else 0)
    (hx : (x.flatMap Req.gives).length ≤ ls.countP messageStep) : ((r :: x).flatMap Req.gives).length ≤ (l :: ls).countP messageStep := by
  rw [given_cons, List.countP_cons]
  omega

theorem handed_none {l : WLabel M} {ls : List (WLabel M)} {x : List (Req M)} (hx : (x.flatMap Req.gives).length ≤ ls.countP messageStep) :
    (x.flatMap Req.gives).length ≤ (l :: ls).countP messageStep := by
  rw [List.countP_cons]
  omega

theorem handed_if {l : WLabel M} {ls : List (WLabel M)} {d : Nat} {r : Req M} {x : List (Req M)} (hr : r.gives.length ≤ if messageStep l then 1 else 0)
    (hx : (x.flatMap Req.gives).length ≤ ls.countP messageStep) {y : List (Req M)} (hy : (y.flatMap Req.gives).length ≤ ls.countP messageStep) :
    ((if d < 2 then r :: x else y).flatMap Req.gives).length ≤ (l :: ls).countP messageStep := by
  split
  · exact handed_one hr hx
  · exact handed_none hy

theorem handed_count (ls : List (WLabel M)) : ∀ n d, ((handed n d ls).flatMap Req.gives).length ≤ ls.countP messageStep := by
  induction ls with
  | nil => intro n d; simp [handed]
  | cons l ls ih =>
    intro n d
    cases l with
    | dtor =>
      match d with
      | 0 => exact handed_one (Nat.le_refl _) (ih n 1)
      | 1 => exact handed_one (Nat.le_refl _) (ih n 2)
      | d + 2 => exact handed_none (ih n (d + 2))
    | add => exact handed_if (Nat.le_refl _) (ih _ d) (ih _ d)
    | save m => exact handed_if (Nat.le_refl _) (ih n d) (Nat.zero_le _)
    | fatal m => exact handed_if (Nat.le_refl _) (ih n d) (Nat.zero_le _)
    | sinkFatal i m => exact handed_if (Nat.le_refl _) (ih n d) (Nat.zero_le _)
    | remove i => exact handed_if (Nat.le_refl _) (ih n d) (ih n d)
    | clear => exact handed_if (Nat.le_refl _) (ih n d) (ih n d)
    | ret k => exact handed_none (ih n d)
    | hold i => exact handed_none (ih n d)
    | holdFail i c => exact handed_none (ih n d)
    | call i c => exact handed_none (ih n d)
    | release i => exact handed_none (ih n d)
    | reap i => exact handed_none (ih n d)
    | work => exact handed_none (ih n d)
    | sinkPop i => exact handed_none (ih n d)
    | sinkFin i => exact handed_none (ih n d)

/-! ### C118 -/

/-- C118: a message is taken at any moment of the life of the worker, however many are waiting; nobody waits and nothing else changes. -/
theorem C118_never_waits {ls : List (WLabel M)} {s : WState M} (h : wRun WState.start ls = some s) (hu : s.ub = false) (hd : s.wpc ≠ .dead)
    (hb : s.phase.bgNull = false) (m : M) :
    ∃ s', wRun WState.start (ls ++ [.save m]) = some s' ∧ handed 0 0 (ls ++ [.save m]) = handed 0 0 ls ++ [.log m] ∧
      ∀ i, backlog s' i = backlog s i + 1 ∧ received (s'.sk i) = received (s.sk i) := by
  have hd' : s.wpc.isDead = false := by cases hw : s.wpc <;> first | rfl | exact absurd hw hd
  have hs : wStep s (.save m) = some (pushTask s (.save m)) := by
    unfold wStep
    rw [if_neg (by rw [hu, hd']; simp), hb]
    rfl
  have hr : wRun s [.save m] = some (pushTask s (.save m)) := by
    unfold wRun
    rw [hs]
    rfl
  have h' := wRun_append' h hr
  refine ⟨_, h', ?_, fun i => ⟨?_, rfl⟩⟩
  · rw [← sub_handed h', ← sub_handed h]
    simp [pushTask, req]
  · unfold backlog pushTask
    simp [messageTask]
    omega

/-- C118: exactly what is kept. The requests are those that the worker has taken and those in its queue; of what is due to sink i from the former, what
it has not received is on its way or in its queue. -/
theorem C118_account {ls : List (WLabel M)} {s : WState M} (h : wRun WState.start ls = some s) :
    ∃ taken, handed 0 0 ls = taken ++ s.wq.map req ∧
      ∀ i, (gets i taken).length = (received (s.sk i)).length + onItsWay i s.wpc + atSink (s.sk i) := by
  have hi := allInv_run h
  refine ⟨reqs s (started s), ?_, fun i => ?_⟩
  · rw [← sub_handed h, queue_rest hi, reqs_split s (started s)]
  · rw [← hi.w.deliver.got i, List.length_append, sent_count, pend_count]
    omega

/-- C118: nothing that is due is given up: what a sink has not received of its due is in memory. -/
theorem C118_kept {ls : List (WLabel M)} {s : WState M} (h : wRun WState.start ls = some s) (i : Nat) :
    (gets i (handed 0 0 ls)).length ≤ (received (s.sk i)).length + backlog s i := by
  obtain ⟨taken, h1, h2⟩ := C118_account h
  have h3 := gets_more i taken (s.wq.map req)
  rw [← h1, gives_count, h2 i] at h3
  unfold backlog
  omega

/-- C118, full statement in view: the messages that wait are never more than some number given in advance. What is missing (`C118_negation`): there is no
such number. Proved: in any part of any execution the messages that wait for a sink grow by no more than the messages that come in, so that
they are as many as the longest burst since a moment when nothing waited. -/
theorem C118_burst_partial {l1 l2 : List (WLabel M)} {u s : WState M} (h1 : wRun WState.start l1 = some u) (h2 : wRun u l2 = some s) (i : Nat) :
    backlog s i + (received (s.sk i)).length ≤ backlog u i + (received (u.sk i)).length + l2.countP messageStep := by
  have iu := allInv_run h1
  have is := allInv_run (wRun_append' h1 h2)
  have hsub := handed_run l2 u s h2
  have hcnt := handed_count l2 u.n (dcount u.phase)
  have hst := started_run h2
  obtain ⟨new, hnew, _⟩ := (grows_run iu h2).sub
  rw [hnew, List.map_append] at hsub
  have hnew' := List.append_cancel_left hsub
  rw [← hnew', gives_count] at hcnt
  have au := iu.w.deliver.got i
  have as' := is.w.deliver.got i
  have cu := congrArg List.length au
  have cs := congrArg List.length as'
  rw [List.length_append, sent_count, pend_count] at cu cs
  unfold backlog
  rw [queue_rest iu, queue_rest is]
  have hle := iu.w.book.le
  have hsle := is.w.book.le
  have e1 : s.sub.drop (started u) = u.sub.drop (started u) ++ new := by rw [hnew, List.drop_append_of_le_length hle]
  have e2 : s.sub.drop (started u) = (s.sub.take (started s)).drop (started u) ++ s.sub.drop (started s) := by
    conv => lhs; rw [← List.take_append_drop (started s) s.sub]
    rw [List.drop_append_of_le_length (by rw [List.length_take]; omega)]
  have e3 : reqs s (started s) = reqs u (started u) ++ ((s.sub.take (started s)).drop (started u)).map req := by
    unfold reqs
    rw [← List.map_append]
    congr 1
    have : u.sub.take (started u) = (s.sub.take (started s)).take (started u) := by
      rw [List.take_take, Nat.min_eq_left hst, hnew, List.take_append_of_le_length hle]
    rw [this, List.take_append_drop]
  have g := gets_more i (reqs u (started u)) (((s.sub.take (started s)).drop (started u)).map req)
  rw [← e3, gives_count] at g
  have c1 := congrArg (List.countP messageTask) e1
  have c2 := congrArg (List.countP messageTask) e2
  rw [List.countP_append] at c1 c2
  omega

/-- What holds after each round with a slow sink. -/
structure SlowS (m : M) (r : Nat) (s : WState M) : Prop where
  ub : s.ub = false
  pc : s.wpc = .idle
  wq : s.wq = []
  att : s.att = [0]
  n : s.n = 1
  phase : s.phase = .notStarted
  q : (s.sk 0).q = List.replicate r (.msg m)
  run : (s.sk 0).running = none
  ex : (s.sk 0).exited = false
  bl : (s.sk 0).blocked = false

theorem rep_two {α : Type} (x : α) (r : Nat) : List.replicate r x ++ [x, x] = x :: List.replicate (r + 1) x := by
  rw [show [x, x] = List.replicate 2 x from rfl, List.replicate_append_replicate]; rfl

theorem rep_one {α : Type} (x : α) (r : Nat) : List.replicate r x ++ [x] = List.replicate (r + 1) x := List.replicate_succ'.symm

theorem slowSink_round {m : M} {r : Nat} {s : WState M} (h : SlowS m r s) :
    ∃ s', wRun s [.save m, .save m, .work, .work, .work, .work, .work, .work, .sinkPop 0, .sinkFin 0] = some s' ∧ SlowS m (r + 1) s' := by
  obtain ⟨wq, sub, completed, wpc, att, n, sk, err, calls, failed, phase, ub⟩ := s
  obtain ⟨h1, h2, h3, h4, h5, h6, h7, h8, h9, h10⟩ := h
  dsimp only at h1 h2 h3 h4 h5 h6 h7 h8 h9 h10
  subst h1 h2 h3 h4 h5 h6
  simp [wRun, wStep, WPc.isDead, DPhase.bgNull, pushTask, workStep, takeTask, sinkPop, sinkFin, updSink, SinkSt.push, h7, h8, h9, h10]
  rw [rep_two]
  dsimp only
  simp [updSink, h10]
  exact ⟨rfl, rfl, rfl, rfl, rfl, rfl, rfl, rfl, by simp [updSink, h9], by simp [updSink, h10]⟩

theorem slowSink_run (m : M) (r : Nat) : ∃ s, wRun WState.start (slowSink m r) = some s ∧ SlowS m r s := by
  induction r with
  | zero => exact ⟨_, rfl, rfl, rfl, rfl, rfl, rfl, rfl, rfl, rfl, rfl, rfl⟩
  | succ r ih =>
    obtain ⟨s, h1, h2⟩ := ih
    obtain ⟨s', h3, h4⟩ := slowSink_round h2
    exact ⟨s', wRun_append' h1 h3, h4⟩

/-- What holds after each round with a slow worker. -/
structure SlowW (m : M) (r : Nat) (s : WState M) : Prop where
  ub : s.ub = false
  pc : s.wpc = .idle
  wq : s.wq = List.replicate r (.save m)
  att : s.att = [0]
  n : s.n = 1
  phase : s.phase = .notStarted
  q : (s.sk 0).q = []
  run : (s.sk 0).running = none
  ex : (s.sk 0).exited = false
  bl : (s.sk 0).blocked = false

theorem slowWorker_round {m : M} {r : Nat} {s : WState M} (h : SlowW m r s) :
    ∃ s', wRun s [.save m, .save m, .work, .work, .work, .sinkPop 0, .sinkFin 0] = some s' ∧ SlowW m (r + 1) s' := by
  obtain ⟨wq, sub, completed, wpc, att, n, sk, err, calls, failed, phase, ub⟩ := s
  obtain ⟨h1, h2, h3, h4, h5, h6, h7, h8, h9, h10⟩ := h
  dsimp only at h1 h2 h3 h4 h5 h6 h7 h8 h9 h10
  subst h1 h2 h3 h4 h5 h6
  simp [wRun, wStep, WPc.isDead, DPhase.bgNull, pushTask, workStep, takeTask]
  rw [rep_two]
  dsimp only
  simp [wRun, wStep, WPc.isDead, DPhase.bgNull, pushTask, workStep, takeTask, sinkPop, sinkFin, updSink, SinkSt.push, h7, h8, h9, h10]
  exact ⟨rfl, rfl, rfl, rfl, rfl, rfl, by simp [updSink, h7], by simp [updSink, h8], by simp [updSink, h9], by simp [updSink, h10]⟩

theorem slowWorker_run (m : M) (r : Nat) : ∃ s, wRun WState.start (slowWorker m r) = some s ∧ SlowW m r s := by
  induction r with
  | zero => exact ⟨_, rfl, rfl, rfl, rfl, rfl, rfl, rfl, rfl, rfl, rfl, rfl⟩
  | succ r ih =>
    obtain ⟨s, h1, h2⟩ := ih
    obtain ⟨s', h3, h4⟩ := slowWorker_round h2
    exact ⟨s', wRun_append' h1 h3, h4⟩

theorem countP_rep {α : Type} {p : α → Bool} {x : α} (h : p x = true) (r : Nat) : (List.replicate r x).countP p = r := by
  induction r with
  | zero => rfl
  | succ r ih => rw [List.replicate_succ, List.countP_cons_of_pos h, ih]

/-- C118 fails: there is no number that the waiting messages do not exceed, although all threads go on working all the time: with a sink that is half as
fast as the program logs the messages pile up in the queue of the sink, with a worker that is half as fast in the queue of the worker; after r
rounds r messages wait. -/
theorem C118_negation (m : M) (r : Nat) :
    (∃ s, wRun WState.start (slowSink m r) = some s ∧ s.ub = false ∧ s.wq = [] ∧ s.wpc = .idle ∧ atSink (s.sk 0) = r ∧ backlog s 0 = r) ∧
    (∃ s, wRun WState.start (slowWorker m r) = some s ∧ s.ub = false ∧ s.wq.length = r ∧ atSink (s.sk 0) = 0 ∧ backlog s 0 = r) := by
  constructor
  · obtain ⟨s, h1, h⟩ := slowSink_run m r
    have ha : atSink (s.sk 0) = r := by
      unfold atSink
      rw [h.run, h.q]
      exact countP_rep rfl r
    refine ⟨s, h1, h.ub, h.wq, h.pc, ha, ?_⟩
    unfold backlog
    rw [ha, h.wq, h.pc]
    show 0 + 0 + r = r
    omega
  · obtain ⟨s, h1, h⟩ := slowWorker_run m r
    have ha : atSink (s.sk 0) = 0 := by
      unfold atSink
      rw [h.run, h.q]
      rfl
    refine ⟨s, h1, h.ub, by rw [h.wq, List.length_replicate], ha, ?_⟩
    unfold backlog
    rw [ha, h.wq, h.pc, countP_rep rfl r]
    rfl

/-- C118: the rounds are as said. -/
theorem C118_rounds (m : M) (r : Nat) : (slowSink m r).countP messageStep = 2 * r ∧ (slowWorker m r).countP messageStep = 2 * r := by
  induction r with
  | zero => exact ⟨rfl, rfl⟩
  | succ r ih =>
    unfold slowSink slowWorker
    rw [List.countP_append, List.countP_append, ih.1, ih.2]
    exact ⟨rfl, rfl⟩

/-! ### Examples -/

/-- The hypotheses are met with three messages waiting, and the exact account. -/
example : ∃ s, wRun WState.start ([.add, .work, .ret 0, .save 1, .save 2, .work, .work, .save 3, .sinkPop 0] : List (WLabel Nat)) = some s ∧ s.ub = false ∧
    s.wpc ≠ .dead ∧ s.phase.bgNull = false ∧ backlog s 0 = 3 ∧ atSink (s.sk 0) = 1 := ⟨_, rfl, rfl, by decide, rfl, rfl, rfl⟩
example : ∃ s, wRun WState.start ([.add, .work, .ret 0, .save 1, .save 2, .work] : List (WLabel Nat)) = some s ∧ onItsWay 0 s.wpc = 1 ∧ backlog s 0 = 2 :=
  ⟨_, rfl, rfl, rfl⟩

end G3.Props
