import Verif.Props.WorkerLocks
/-
C93, progress: with its locks and wake-ups the worker never gets stuck before everything is delivered.
-/
namespace G3.Props
open G3 G3.Spec

variable {M : Type} {n : Nat} {k k' : KState M}

/-! ### One queue -/

theorem q_stuck {T : Type} {s : QState T} (h : QOne n s)
    (hs : ∀ l : QLabel T, (∀ t op, l ≠ .call t op) → (∀ t, l ≠ .spurious t) → qStep s l = none) :
    (∀ (t : Nat) pc, s.pcs[t]? = some pc → pc = .idle ∨ (t = 0 ∧ pc = .waiting)) ∧ (s.pcs[(0 : Nat)]? = some .waiting → s.q = []) := by
  have hlock : ∀ t, qStep s (.lock t) = none := fun t => hs _ (fun _ _ e => by cases e) (fun _ e => by cases e)
  have hact : ∀ t, qStep s (.act t) = none := fun t => hs _ (fun _ _ e => by cases e) (fun _ e => by cases e)
  have hun : ∀ t, qStep s (.unlock t) = none := fun t => hs _ (fun _ _ e => by cases e) (fun _ e => by cases e)
  have hnot : ∀ t o, qStep s (.notify t o) = none := fun t o => hs _ (fun _ _ e => by cases e) (fun _ e => by cases e)
  have nocrit : ∀ (t : Nat) op, s.pcs[t]? ≠ some (.crit op) := by
    intro t op e
    have := hact t
    simp only [qStep, e] at this
    split at this <;> cases this
  have nofin : ∀ (t : Nat) op r, s.pcs[t]? ≠ some (.fin op r) := by
    intro t op r e
    have := hun t
    cases op <;> simp only [qStep, e] at this <;> cases this
  have free : s.owner = none := by
    cases ho : s.owner with
    | none => rfl
    | some t =>
      exfalso
      have hlt := h.lt t ho
      rw [← h.len] at hlt
      have e : s.pcs[t]? = some s.pcs[t] := List.getElem?_eq_getElem hlt
      have := (h.lock t _ e).2 ho
      cases hp : s.pcs[t] with
      | crit op => rw [hp] at e; exact nocrit t op e
      | fin op r => rw [hp] at e; exact nofin t op r e
      | _ => rw [hp] at this; cases this
  have key : ∀ (t : Nat) pc, s.pcs[t]? = some pc → pc = .idle ∨ (t = 0 ∧ pc = .waiting) := by
    intro t pc e
    cases pc with
    | idle => exact Or.inl rfl
    | want op =>
      exfalso
      have := hlock t
      simp only [qStep, free, e] at this
      cases this
    | woken =>
      exfalso
      have := hlock t
      simp only [qStep, free, e] at this
      cases this
    | crit op => exact absurd e (nocrit t op)
    | fin op r => exact absurd e (nofin t op r)
    | notify =>
      exfalso
      cases hw : s.hasWaiter with
      | false =>
        have := hnot t none
        simp only [qStep, e, hw] at this
        cases this
      | true =>
        unfold QState.hasWaiter at hw
        obtain ⟨p, hp, hq⟩ := List.any_eq_true.1 hw
        obtain ⟨u, hu⟩ := List.mem_iff_getElem?.1 hp
        have := hnot t (some u)
        cases p <;> first | cases hq; done | skip
        simp only [qStep, e, hu] at this
        cases this
    | waiting =>
      right
      refine ⟨?_, rfl⟩
      by_contra ht
      exact h.prod t _ ht e
  refine ⟨key, fun h0 => ?_⟩
  have h1 : 0 < tot blockedCount s.pcs := by
    have := tot_set blockedCount s.pcs 0 _ .idle h0
    simp only [blockedCount] at this
    omega
  have h2 : tot pending s.pcs = 0 := by
    by_contra hc
    obtain ⟨t, p, hp, hq⟩ := tot_pos pending _ (Nat.pos_of_ne_zero hc)
    rcases key t p hp with rfl | ⟨_, rfl⟩ <;> simp [pending] at hq
  have := h.wake h1
  rw [h2] at this
  exact List.length_eq_zero_iff.1 (by omega)

theorem view_stuck {T : Type} {s : QState T} {e : T → Bool} {z : T} (h : ∀ (t : Nat) pc, s.pcs[t]? = some pc → pc = .idle ∨ (t = 0 ∧ pc = .waiting)) :
    qView e z s = s.q := by
  have h0 : popd s = [] := by
    unfold popd
    split
    · next p hp => rcases h _ _ hp with rfl | ⟨_, rfl⟩ <;> rfl
    · rfl
  have h2 : tot (earlyEnd e) s.pcs = 0 := by
    by_contra hc
    obtain ⟨t, p, hp, hq⟩ := tot_pos (earlyEnd e) _ (Nat.pos_of_ne_zero hc)
    rcases h _ _ hp with rfl | ⟨_, rfl⟩ <;> simp [earlyEnd] at hq
  unfold qView
  rw [h0, h2]
  simp

/-! ### The worker -/

/-- Steps that need no new input from a client: everything that the worker thread, the sink threads and a destructor in progress do, the returns of calls, and whatever
threads inside a queue do, apart from wake-ups without reason. -/
def kInternal (k : KState M) : KLabel M → Prop
  | .thr _ (.ret _) => True
  | .thr _ (.reap _) => True
  | .thr t .dtor => k.dthr = some t
  | .thr _ .work => True
  | .thr _ (.sinkPop _) => True
  | .thr _ (.sinkFin _) => True
  | .thr _ _ => False
  | .pop => True
  | .mem (.spurious _) => False
  | .mem _ => True
  | .smem _ (.spurious _) => False
  | .smem _ _ => True

/-- No such step is possible. -/
def kStuck (k : KState M) : Prop := ∀ l, kInternal k l → kStep k l = none

/-- All the threads of the queues are outside, except those that wait for tasks, and those wait in front of empty queues. -/
structure KStill (k : KState M) : Prop where
  wq : ∀ (t : Nat) pc, k.wq.pcs[t]? = some pc → pc = .idle ∨ (t = 0 ∧ pc = .waiting)
  sq : ∀ i (t : Nat) pc, (k.sq i).pcs[t]? = some pc → pc = .idle ∨ (t = 0 ∧ pc = .waiting)
  wempty : k.wq.pcs[(0 : Nat)]? = some .waiting → k.wq.q = []
  sempty : ∀ i, (k.sq i).pcs[(0 : Nat)]? = some .waiting → (k.sq i).q = []

theorem act_enabled {T : Type} {s : QState T} {t : Nat} {x : T} (h : s.pcs[t]? = some (.crit (.push x))) : ∃ s', qStep s (.act t) = some s' := by
  simp only [qStep, h, critical]
  exact ⟨_, rfl⟩

theorem still (h : KInv n k) (hg : ¬ (k.ctl.ub = true ∨ k.ctl.wpc.isDead = true ∨ k.race = true ∨ k.uaf = true)) (hs : kStuck k) : KStill k := by
  have w := q_stuck h.wq (by
    intro l hc hsp
    have hm : k.mem l = none := by
      have := hs (.mem l) (by cases l <;> first | trivial | exact (hsp _ rfl).elim)
      unfold kStep at this
      rw [if_neg hg] at this
      simp only at this
      split at this
      · exact Option.map_eq_none_iff.1 this
      · exact this
    unfold KState.mem at hm
    split at hm
    · exact absurd rfl (hc _ _)
    · next t =>
      split at hm
      · next j hj =>
        exfalso
        unfold KState.put at hm
        split at hm
        · cases hm
        · have := Option.map_eq_none_iff.1 hm
          have hn : (k.number t j).pcs[t]? = some (.crit (.push (numbered k.ctl.n j))) := by
            have := number_eq hj
            rw [this]
            exact List.getElem?_set_self (lt_of_pc hj)
          obtain ⟨_, e⟩ := act_enabled hn
          rw [e] at this; cases this
      · exact Option.map_eq_none_iff.1 hm
    · split at hm <;> exact Option.map_eq_none_iff.1 hm
    · exact Option.map_eq_none_iff.1 hm)
  have s := fun i => q_stuck (h.sq i) (by
    intro l hc hsp
    have hm : k.smem i l = none := by
      have := hs (.smem i l) (by cases l <;> first | trivial | exact (hsp _ rfl).elim)
      unfold kStep at this
      rw [if_neg hg] at this
      simp only at this
      split at this
      · exact Option.map_eq_none_iff.1 this
      · exact this
    unfold KState.smem at hm
    split at hm
    · exact absurd rfl (hc _ _)
    · split at hm <;> exact Option.map_eq_none_iff.1 hm
    · split at hm <;> exact Option.map_eq_none_iff.1 hm
    · exact Option.map_eq_none_iff.1 hm)
  exact ⟨w.1, fun i => (s i).1, w.2, fun i => (s i).2⟩

theorem still_idle (h : KInv n k) (hs : KStill k) {t : Nat} (h0 : 0 < t) (hn : t < n) :
    k.wq.pcs[t]? = some .idle ∧ ∀ i, (k.sq i).pcs[t]? = some .idle := by
  constructor
  · have hlt : t < k.wq.pcs.length := by rw [h.wq.len]; exact hn
    have e := List.getElem?_eq_getElem hlt
    rcases hs.wq t _ e with e' | ⟨e', _⟩
    · rw [e, e']
    · omega
  · intro i
    have hlt : t < (k.sq i).pcs.length := by rw [(h.sq i).len]; exact hn
    have e := List.getElem?_eq_getElem hlt
    rcases hs.sq i t _ e with e' | ⟨e', _⟩
    · rw [e, e']
    · omega

theorem still_out (h : KInv n k) (hs : KStill k) {t : Nat} (h0 : 0 < t) (hn : t < n) : k.out t = true := by
  obtain ⟨a, b⟩ := still_idle h hs h0 hn
  simp [KState.out, a, b, QPc.isIdle]

theorem enterSink_some (h : KInv n k) (hs : KStill k) {t i : Nat} {x : SItem M} (h0 : 0 < t) (hn : t < n) : k.enterSink t i x ≠ none := by
  simp [KState.enterSink, qStep, (still_idle h hs h0 hn).2 i]

theorem stopSink_some (h : KInv n k) (hs : KStill k) {k0 : KState M} {t i : Nat} {r : Bool} (hx : k0.stopSink t i r = none) (e : k0.sq = k.sq) (h0 : 0 < t) (hn : t < n) : False := by
  revert hx
  simp [KState.stopSink, KState.enterSink, qStep, e, (still_idle h hs h0 hn).2 i]

theorem drop_some (h : KInv n k) (hs : KStill k) {k0 : KState M} {t i : Nat} (hx : k0.drop t i = none) (e : k0.sq = k.sq) (h0 : 0 < t) (hn : t < n) : False := by
  unfold KState.drop at hx
  split at hx
  · cases hx
  · exact stopSink_some h hs hx e h0 hn

/-- What the worker with its locks cannot do, the worker without cannot do. -/
theorem stuck_abs (hn : 2 ≤ n) (h : KInv n k) (A : AllInv (abs k)) (hg : ¬ (k.ctl.ub = true ∨ k.ctl.wpc.isDead = true ∨ k.race = true ∨ k.uaf = true))
    (hs : kStuck k) : stuck (abs k) ∧ KStill k ∧ k.hand = none ∧ (k.ctl.wpc = .idle → k.wq.pcs[(0 : Nat)]? = some .waiting) := by
  have S := still h hg hs
  have step : ∀ l, kInternal k l → kStep k l = none := hs
  have out1 : k.out 1 = true := still_out h S (by omega) (by omega)
  have hnw : k.work = none := by
    have := step (.thr 0 .work) trivial
    unfold kStep at this
    rw [if_neg hg] at this
    exact this
  have hhand : k.hand = none := by
    cases hh : k.hand with
    | none => rfl
    | some x =>
      exfalso
      unfold KState.work at hnw
      rw [if_neg (by rw [out1]; simp)] at hnw
      simp only [hh] at hnw
      have := Option.map_eq_none_iff.1 hnw
      cases x <;> simp only [KTask.task] at this <;> unfold takeTask at this <;> simp only at this <;> (try split at this) <;> cases this
  have hwait : k.ctl.wpc = .idle → k.wq.pcs[(0 : Nat)]? = some .waiting := by
    intro hw
    have hlt : 0 < k.wq.pcs.length := by rw [h.wq.len]; omega
    have e := List.getElem?_eq_getElem hlt
    rcases S.wq 0 _ e with e' | ⟨_, e'⟩
    · exfalso
      have := step .pop trivial
      unfold kStep at this
      rw [if_neg hg] at this
      simp only [hw, hhand, qStep, e, e'] at this
      cases this
    · rw [e, e']
  refine ⟨?_, S, hhand, hwait⟩
  have hg' : ¬ ((abs k).ub = true ∨ (abs k).wpc.isDead = true) := by
    rintro (e | e)
    · exact hg (Or.inl e)
    · exact hg (Or.inr (Or.inl e))
  have hwq : (abs k).wq = k.wq.q.map KTask.task := by
    show wView k = _
    unfold wView
    rw [hhand, view_stuck S.wq]; rfl
  have hsq : ∀ i, ((abs k).sk i).q = (k.sq i).q := fun i => view_stuck (S.sq i)
  have raising : ∀ i, k.raising i = false := by
    intro i
    unfold KState.raising
    rw [List.any_eq_false]
    intro p hp
    obtain ⟨t, ht⟩ := List.mem_iff_getElem?.1 hp
    rcases S.wq t p ht with rfl | ⟨_, rfl⟩ <;> simp [raisingPc]
  have calling : ∀ i, k.calling i = false := by
    intro i
    unfold KState.calling
    rw [List.any_eq_false]
    intro p hp
    obtain ⟨t, ht⟩ := List.mem_iff_getElem?.1 hp
    rw [List.getElem?_drop] at ht
    rcases S.sq i (2 + t) p ht with rfl | ⟨e, _⟩
    · simp [QPc.isIdle]
    · omega
  intro l hl
  unfold wStep
  rw [if_neg hg']
  cases l <;> first | exact (show False from hl).elim | skip
  case ret c =>
    show retStep (abs k) c = none
    cases hx : retStep (abs k) c with
    | none => rfl
    | some s' =>
      exfalso
      unfold retStep at hx
      split at hx
      · cases hx
      · next w hc =>
        have hc : k.ctl.calls[c]? = some w := hc
        split at hx
        · next hr =>
          have hlt := lt_of_pc hc
          rw [← h.own] at hlt
          have ho : k.own[c]? = some k.own[c] := List.getElem?_eq_getElem hlt
          obtain ⟨h1, h2⟩ := h.two k.own[c] (List.getElem_mem hlt)
          have := step (.thr k.own[c] (.ret c)) trivial
          unfold kStep at this
          rw [if_neg hg] at this
          simp only [KState.act, hc] at this
          rw [if_pos ⟨ho, still_out h S (by omega) h2, hr.1, hr.2⟩] at this
          split at this
          · exact drop_some h S this rfl (by omega) h2
          · cases this
        · cases hx
  case reap i =>
    show (if i < k.ctl.n ∧ (k.ctl.sk i).reaping = true ∧ (k.ctl.sk i).exited = true then _ else none) = none
    split
    · next hc =>
      exfalso
      have := step (.thr 2 (.reap i)) trivial
      unfold kStep at this
      rw [if_neg hg] at this
      simp only [KState.act] at this
      rw [if_pos ⟨hc.1, hc.2.1, hc.2.2, calling i⟩] at this
      cases this
    · rfl
  case dtor =>
    cases hd : k.dthr with
    | none => exact absurd (h.dthr hd) hl
    | some t =>
      obtain ⟨h1, h2⟩ := h.dtwo t hd
      have := step (.thr t .dtor) hd
      unfold kStep at this
      rw [if_neg hg] at this
      simp only [KState.act, KState.dtor, hd] at this
      rw [if_neg (by simp), if_pos ⟨trivial, still_out h S (by omega) h2⟩] at this
      show dtorStep (abs k) = none
      unfold dtorStep
      have hl' : k.ctl.phase ≠ .notStarted := hl
      show (match k.ctl.phase with | .notStarted => _ | .clearing p => _ | .stopping => _ | .dropping => _ | .waitSink i => _ | .returned => _) = none
      cases hp : k.ctl.phase with
      | notStarted => exact absurd hp hl'
      | clearing p =>
        simp only [hp] at this ⊢
        show (if p < k.ctl.completed then _ else _) = none
        split
        · next hc =>
          exfalso
          rw [if_pos hc] at this
          simp [KState.enter, qStep, (still_idle h S (t := t) (by omega) h2).1] at this
        · rfl
      | stopping =>
        simp only [hp] at this ⊢
        show (if k.ctl.wpc.isEnded then _ else _) = none
        split
        · next hc => rw [if_pos hc] at this; cases this
        · rfl
      | dropping =>
        exfalso
        simp only [hp] at this
        split at this
        · cases this
        · split at this
          · cases this
          · exact stopSink_some h S this rfl (by omega) h2
      | waitSink i =>
        simp only [hp] at this ⊢
        show (if (k.ctl.sk i).exited then _ else _) = none
        split
        · next hc => rw [if_pos hc] at this; cases this
        · rfl
      | returned => rfl
  case work =>
    show workStep (abs k) = none
    unfold KState.work at hnw
    rw [if_neg (by rw [out1]; simp)] at hnw
    simp only [hhand] at hnw
    have wpc : ∀ {p : WPc M}, k.ctl.wpc = p → (abs k).wpc = p := fun e => e
    unfold workStep
    split at hnw
    · next hw =>
      simp only [wpc hw]
      unfold takeTask
      rw [hwq, S.wempty (hwait hw)]; rfl
    · next hw => exact (enterSink_some h S (by omega) (by omega) hnw).elim
    · cases hnw
    · cases hnw
    · split at hnw
      · cases hnw
      · exact (stopSink_some h S hnw rfl (by omega) (by omega)).elim
    · next i hw =>
      split at hnw
      · cases hnw
      · next hx =>
        simp only [wpc hw]
        exact if_neg hx
    · split at hnw
      · split at hnw <;> cases hnw
      · split at hnw
        · cases hnw
        · exact (stopSink_some h S hnw rfl (by omega) (by omega)).elim
    · next i f hw =>
      split at hnw
      · cases hnw
      · next hx =>
        simp only [wpc hw]
        exact if_neg hx
    · next hw => simp only [wpc hw]
    · next hw => simp only [wpc hw]
  case sinkPop i =>
    show sinkPop (abs k) i = none
    unfold sinkPop
    split
    · next hc =>
      have hlt : 0 < (k.sq i).pcs.length := by rw [(h.sq i).len]; omega
      have e := List.getElem?_eq_getElem hlt
      have hq : (k.sq i).q = [] := by
        rcases S.sq i 0 _ e with e' | ⟨_, e'⟩
        · exfalso
          have := step (.thr 0 (.sinkPop i)) trivial
          unfold kStep at this
          rw [if_neg hg] at this
          simp only [KState.act] at this
          rw [if_pos ⟨hc.1, hc.2.1, hc.2.2⟩] at this
          simp only [qStep, e, e'] at this
          cases this
        · exact S.sempty i (by rw [e, e'])
      rw [hsq i, hq]
    · rfl
  case sinkFin i =>
    have := step (.thr 0 (.sinkFin i)) trivial
    unfold kStep at this
    rw [if_neg hg] at this
    simp only [KState.act, raising i] at this
    have := Option.map_eq_none_iff.1 this
    show sinkFin (abs k) i = none
    unfold sinkFin at this ⊢
    show (if i < k.ctl.n ∧ (k.ctl.sk i).blocked = false then (match (k.ctl.sk i).running with | none => _ | some .stop => _ | some x => _) else none) = none
    split at this
    · next hc =>
      rw [if_pos hc]
      split at this
      · next hr => simp only [hr]
      · cases this
      · cases this
    · next hc => exact if_neg hc

/-- C93: where nothing can go on without new input, unless the process has ended, everything that entered the worker is delivered, no thread is inside an operation
of a queue except those that wait for work, every call has returned and a destructor that was begun is finished. In particular no wake-up is lost and no lock is held for ever. -/
theorem C93_drains {ls : List (KLabel M)} (hn : 2 ≤ n) (h : kRun (KState.start n) ls = some k) (hr : k.race = false) (hu : k.ctl.ub = false)
    (hd : k.ctl.wpc ≠ .dead) (hb : ∀ i, (k.ctl.sk i).blocked = false) (hs : kStuck k) :
    (∀ i, received (k.ctl.sk i) = gets i (k.ctl.sub.map req)) ∧
    k.wq.q = [] ∧ k.hand = none ∧ (∀ i, i < k.ctl.n → (k.sq i).q = [] ∧ (k.ctl.sk i).running = none) ∧
    (∀ (t : Nat) pc, 0 < t → k.wq.pcs[t]? = some pc → pc = .idle) ∧ (∀ i (t : Nat) pc, 0 < t → (k.sq i).pcs[t]? = some pc → pc = .idle) ∧
    (∀ c ∈ k.ctl.calls, c.returned = true) ∧ ((k.dthr = none ∧ k.ctl.phase = .notStarted) ∨ k.ctl.phase = .returned) := by
  obtain ⟨hi, ws, hw⟩ := sim_run h hr
  have A := allInv_run hw
  have hdead : k.ctl.wpc.isDead = false := by
    cases hp : k.ctl.wpc <;> first | rfl | exact absurd hp hd
  obtain ⟨hst, S, hh, _⟩ := stuck_abs hn hi A (by simp [hu, hdead, hr, hi.uaf]) hs
  have Q := quiet_of_stuck A hu hd hb hst
  have hwq : wView k = k.wq.q.map KTask.task := by
    unfold wView
    rw [hh, view_stuck S.wq]; rfl
  have hsq : ∀ i, ((abs k).sk i).q = (k.sq i).q := fun i => view_stuck (S.sq i)
  have hset : settled (abs k) := by
    rcases Q.worker with ⟨e | e, e'⟩
    · exact Or.inl ⟨e, e'⟩
    · exact Or.inr (Or.inl e)
  refine ⟨?_, ?_, hh, ?_, ?_, ?_, Q.calls, ?_⟩
  · intro i
    have e := sub_handed hw
    rw [show k.ctl.sub.map req = (abs k).sub.map req from rfl, e]
    by_cases hin : i < k.ctl.n
    · exact C02_complete hw hset i (Q.sinks i hin).1 (Q.sinks i hin).2.1
    · have f := A.w.sinks.fresh i (by show k.ctl.n ≤ i; omega)
      exact C02_complete hw hset i (by rw [f]; rfl) (by rw [f]; rfl)
  · have := Q.worker.2
    rw [show (abs k).wq = wView k from rfl, hwq] at this
    exact List.map_eq_nil_iff.1 this
  · intro i hin
    have := Q.sinks i hin
    rw [hsq i] at this
    exact ⟨this.1, this.2.1⟩
  · intro t pc h0 e
    rcases S.wq t pc e with e' | ⟨e', _⟩
    · exact e'
    · omega
  · intro i t pc h0 e
    rcases S.sq i t pc e with e' | ⟨e', _⟩
    · exact e'
    · omega
  · rcases Q.dtor with e | e
    · left
      refine ⟨?_, e⟩
      cases ht : k.dthr with
      | none => rfl
      | some t =>
        exfalso
        obtain ⟨pc, h1, h2⟩ := hi.pend t ht e
        rcases S.wq t pc h1 with rfl | ⟨_, rfl⟩ <;> cases h2
    · exact Or.inr e

end G3.Props
