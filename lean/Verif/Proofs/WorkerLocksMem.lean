import Verif.Proofs.WorkerLocksSim
/-
Lemmas for Verif.Props.WorkerLocks: steps inside the queues.
-/
namespace G3.Props
open G3 G3.Spec

variable {M : Type} {n : Nat} {k k' : KState M}

/-- Threads of sinks. -/
theorem sim_sink (h : KInv n k) (A : AllInv (abs k)) (hu : k.ctl.ub = false) (hd : k.ctl.wpc.isDead = false) {t i : Nat} {l : WLabel M}
    (hl : l = .sinkPop i ∨ l = .sinkFin i ∨ ∃ m, l = .sinkFatal i m) (hs : k.act t l = some k') : SimTo n k k' (lin k (.thr t l)) := by
  have lv := live hu hd
  rcases hl with rfl | rfl | ⟨m, rfl⟩
  · simp only [KState.act] at hs
    split at hs
    · next hc =>
      obtain ⟨c1, c2, c3⟩ := hc
      obtain ⟨q, hq, rfl⟩ := Option.map_eq_some_iff.1 hs
      refine sim_none ⟨kinv_spop h hq ⟨c1, ?_, fun _ => ⟨c2, c3⟩, fun e => by omega, fun e => by omega⟩, (abs_sq (view_call_pop hq))⟩
      cases hx : (k.ctl.sk i).destroyed
      · rfl
      · have := (A.w.sinks.loc i).des hx
        rw [show ((abs k).sk i).exited = (k.ctl.sk i).exited from rfl, c3] at this; cases this
    · cases hs
  · simp only [KState.act] at hs
    split at hs
    · cases hs
    next hr =>
    have hr : k.raising i = false := by simpa using hr
    obtain ⟨c, hc, rfl⟩ := Option.map_eq_some_iff.1 hs
    unfold sinkFin at hc
    split at hc
    · next hg =>
      have hg' : i < (abs k).n ∧ ((abs k).sk i).blocked = false := hg
      split at hc
      · cases hc
      · next hrun =>
        have hrun' : ((abs k).sk i).running = some .stop := hrun
        cases hc
        refine sim_one ⟨kinv_sk h ?_ ?_ ?_, ?_⟩
        · intro u pc _ _ g
          refine ⟨g.des, fun e => ?_, g.two⟩
          have := (g.zero e).1; rw [hrun] at this; cases this
        · intro u pc x _ _ g
          exact ⟨fun e => (g.stop e).1, g.refs⟩
        · intro u pc m p1 p2 g
          exact (not_raising hr p1 p2).elim
        · simp only [wStep, if_neg lv, sinkFin, if_pos hg', hrun']
          congr 1
          exact wext rfl rfl rfl rfl rfl rfl (sk_c (k := k) (i := i) (g := fun x => { x with running := none, exited := true })
            (f := fun x => { x with running := none, exited := true }) rfl).symm rfl rfl rfl rfl rfl
      · next x hns hrun =>
        have hrun' : ((abs k).sk i).running = some x := hrun
        cases hc
        refine sim_one ⟨kinv_sk h ?_ ?_ ?_, ?_⟩
        · intro u pc _ _ g
          refine ⟨g.des, fun e => ?_, g.two⟩
          have := (g.zero e).1; rw [hrun] at this; cases this
        · intro u pc x _ _ g
          exact ⟨fun e => (g.stop e).1, g.refs⟩
        · intro u pc m p1 p2 g
          exact (not_raising hr p1 p2).elim
        · simp only [wStep, if_neg lv, sinkFin, if_pos hg', hrun']
          cases x with
          | stop => exact absurd rfl hns
          | _ =>
            refine congrArg some ?_
            exact wext rfl rfl rfl rfl rfl rfl (sk_c (k := k) (i := i) (g := fun y => { y with running := none, done := y.done ++ [_] })
              (f := fun y => { y with running := none, done := y.done ++ [_] }) rfl).symm rfl rfl rfl rfl rfl
    · cases hc
  · simp only [KState.act] at hs
    split at hs
    · next hc =>
      obtain ⟨c1, c2, c3, c4, c5⟩ := hc
      obtain ⟨f1, f2, f3⟩ := free_get c1
      split at hs
      · next hb =>
        cases hs
        rw [show lin k (.thr t (.sinkFatal i m)) = some (.sinkFatal i m) from if_pos hb]
        refine sim_one ⟨kinv_ub h, ?_⟩
        have hg : i < (abs k).n ∧ ((abs k).sk i).blocked = false ∧ ((abs k).sk i).running.any (fun x => !x.isStop) = true := ⟨c2, c3, c5⟩
        simp only [wStep, if_neg lv, if_pos hg]
        rw [show (abs k).phase = k.ctl.phase from rfl, if_pos hb]
        rfl
      · next hb =>
        rw [show lin k (.thr t (.sinkFatal i m)) = none from if_neg hb]
        refine sim_enter h f1 rfl hs ⟨fun j e => ?_, fun j o e => ?_, fun e => ?_, fun e => ?_, fun e => absurd e f3⟩ (fun j o e => ?_)
        · cases e
        · cases e; exact ⟨c2, c3, c5⟩
        · cases e
        · cases e
        · cases e; exact c4
    · cases hs

/-- The number of a new sink is filled in. -/
def numbered (n : Nat) : KTask M → KTask M
  | .add _ => .add n
  | j => j

theorem number_eq {t : Nat} {j : KTask M} (hp : k.wq.pcs[t]? = some (.crit (.push j))) :
    k.number t j = { k.wq with pcs := k.wq.pcs.set t (.crit (.push (numbered k.ctl.n j))) } := by
  have same : k.wq = { k.wq with pcs := k.wq.pcs.set t (.crit (.push j)) } := by
    have : k.wq.pcs.set t (.crit (.push j)) = k.wq.pcs := by
      apply List.ext_getElem?
      intro u
      by_cases e : u = t
      · subst e; rw [List.getElem?_set_self (lt_of_pc hp), hp]
      · rw [List.getElem?_set_ne (fun h => e h.symm)]
    rw [this]
  cases j <;> first | rfl | exact same

theorem qone_subst {T : Type} {s : QState T} {t : Nat} {x y : T} (h : QOne n s) (hp : s.pcs[t]? = some (.crit (.push x))) :
    QOne n { s with pcs := s.pcs.set t (.crit (.push y)) } := by
  have b := tot_set blockedCount s.pcs t _ (.crit (.push y)) hp
  have p := tot_set pending s.pcs t _ (.crit (.push y)) hp
  refine ⟨by simp [h.len], ?_, ?_, ?_, h.lt, ?_⟩
  · intro pc e
    rcases get_set e with ⟨e1, e2⟩ | ⟨_, e2⟩
    · subst e1; have := h.cons _ hp; cases this
    · exact h.cons pc e2
  · intro u pc hu e
    rcases get_set e with ⟨e1, e2⟩ | ⟨_, e2⟩
    · subst e2; exact ⟨y, rfl⟩
    · exact h.prod u pc hu e2
  · intro u pc e
    rcases get_set e with ⟨e1, e2⟩ | ⟨_, e2⟩
    · subst e1; subst e2; have := h.lock u _ hp; exact this
    · exact h.lock u pc e2
  · intro hb
    have := h.wake
    simp only [blockedCount, pending] at b p
    unfold WakeInv at this
    simp only at hb ⊢
    have h1 := this (by omega)
    omega

theorem sim_put (h : KInv n k) (A : AllInv (abs k)) (hu : k.ctl.ub = false) (hd : k.ctl.wpc.isDead = false) {t : Nat} {j : KTask M}
    (hp : k.wq.pcs[t]? = some (.crit (.push j))) (hs : k.put t j = some k') (hr : k'.race = false) : SimTo n k k' (handOver j) := by
  have lv := live hu hd
  have ht0 : t ≠ 0 := by
    intro e; subst e
    have := h.wq.cons _ hp; cases this
  have g := h.we t _ j hp rfl
  unfold KState.put at hs
  split at hs
  · cases hs; cases hr
  next hg =>
  rw [number_eq hp] at hs
  obtain ⟨q, hq, rfl⟩ := Option.map_eq_some_iff.1 hs
  have hp1 : ({ k.wq with pcs := k.wq.pcs.set t (.crit (.push (numbered k.ctl.n j))) } : QState (KTask M)).pcs[t]? = some (.crit (.push (numbered k.ctl.n j))) := by
    simp only; exact List.getElem?_set_self (lt_of_pc hp)
  have q1 : QOne n q := qone_step (l := .act t) (qone_subst h.wq hp) trivial hq
  have hf := frame_act hp1 hq
  have hpcs : q.pcs = k.wq.pcs.set t (.fin (.push (numbered k.ctl.n j)) .unit) := by
    rw [hf.2]; simp
  have hv := view_act_push (z := KTask.done) isEnd_eq ht0 hp1 hq
  have hnum : isEnd (numbered k.ctl.n j) = isEnd j := by cases j <;> rfl
  have htot : tot (earlyEnd isEnd) (k.wq.pcs.set t (.crit (.push (numbered k.ctl.n j)))) = tot (earlyEnd isEnd) k.wq.pcs := by
    have := tot_set (earlyEnd isEnd) k.wq.pcs t _ (.crit (.push (numbered k.ctl.n j))) hp
    simp only [earlyEnd, hnum] at this
    omega
  have hview : qView isEnd .done ({ k.wq with pcs := k.wq.pcs.set t (.crit (.push (numbered k.ctl.n j))) } : QState (KTask M)) = qView isEnd .done k.wq := by
    unfold qView
    rw [popd_set_ne (s := k.wq) ht0 rfl]
    simp only [htot]
  rw [hnum] at hv
  simp only [hview, htot] at hv
  by_cases hj : j = .done
  · subst hj
    obtain ⟨d1, d2⟩ := g.done rfl
    refine sim_none ⟨kinv_put h q1 hpcs ⟨_, hp⟩ (fun _ _ _ _ _ => id) (fun _ _ _ _ _ _ g _ => g) (fun _ _ _ _ _ _ => id) rfl (Nat.le_refl _) h.own (Or.inl rfl)
      (fun e => absurd (show k.ctl.phase = .notStarted from e) (by rw [d1]; simp)) h.dthr, ?_⟩
    exact abs_wq (k := k) (hv.1 rfl)
  have hje : isEnd j = false := by
    cases e : isEnd j
    · rfl
    · exact absurd (isEnd_eq j e) hj
  have hb : k.ctl.phase.bgNull = false := by
    cases hb : k.ctl.phase.bgNull
    · rfl
    · exfalso
      have hdt : k.dthr = some t := by
        by_contra hc
        exact hg ⟨hb, hc⟩
      rcases g.dtor hdt with e | e
      · rw [(g.clear e).1] at hb; cases hb
      · exact hj e
  have hph : (abs k).phase = k.ctl.phase := rfl
  have hb' : (abs k).phase.bgNull ≠ true := by rw [hph, hb]; simp
  have hr' : (abs k).phase ≠ .returned := by
    intro e; rw [hph] at e; rw [e] at hb; cases hb
  have h0 : tot (earlyEnd isEnd) k.wq.pcs = 0 := early_none (fun u pc x e1 e2 => by
    cases hx : isEnd x with
    | false => rfl
    | true =>
      have := ((h.we u pc x e1 e2).done (isEnd_eq x hx)).1
      rw [this] at hb; cases hb)
  have hv' := hv.2 hje h0
  have hwq : ∀ c o, (abs { k with wq := q, ctl := c, own := o }).wq = (abs k).wq ++ [(numbered k.ctl.n j).task] := by
    intro c o
    simp [abs, wView, hv']
  -- everything that stays
  have a0 : ∀ (c : WState M), c.n = k.ctl.n → c.sk = k.ctl.sk → c.wpc = k.ctl.wpc → c.att = k.ctl.att → (c.phase = k.ctl.phase ∨ k.ctl.phase = .notStarted) →
      ∀ i (u : Nat) pc, (k.sq i).pcs[u]? = some pc → pc.isIdle = false → NIs k.ctl k.dthr i u → NIs c k.dthr i u := by
    intro c h1 h2 h3 h4 h5 i u pc _ _ g
    refine ⟨by rw [h1]; exact g.lt, by rw [h2]; exact g.des, by rw [h2]; exact g.zero, by rw [h3, h4]; exact g.one, ?_⟩
    intro e
    rcases g.two e with g | g | g
    · rw [h2]; exact Or.inl g
    · rw [h2]; exact Or.inr (Or.inl g)
    · rcases h5 with h5 | h5
      · rw [h5]; exact Or.inr (Or.inr g)
      · rw [h5] at g; cases g.1
  have b0 : ∀ (c : WState M), c.sk = k.ctl.sk → c.wpc = k.ctl.wpc →
      ∀ i (u : Nat) pc x, (k.sq i).pcs[u]? = some pc → earlyPc pc = some x → Es k.ctl i u x → NIs k.ctl k.dthr i u → Es c i u x := by
    intro c h2 h3 i u pc x _ _ g _
    exact ⟨by rw [h2, h3]; exact g.stop, by rw [h3]; exact g.send, by rw [h2]; exact g.refs, g.call⟩
  have e0 : ∀ (c : WState M), c.n = k.ctl.n → c.sk = k.ctl.sk → c.phase = k.ctl.phase →
      ∀ (u : Nat) pc x, u ≠ t → k.wq.pcs[u]? = some pc → earlyPc pc = some x → Ew k.ctl k.dthr u x → Ew c k.dthr u x := by
    intro c h1 h2 h3 u pc x _ _ _ g
    exact ⟨by rw [h1]; exact g.remove, by rw [h1, h2]; exact g.fatal, by rw [h3]; exact g.clear, by rw [h3]; exact g.done, g.dtor⟩
  have p0 : j ≠ .dtorClear → k.ctl.phase = .notStarted → k.ctl.phase = .notStarted ∧ k.dthr ≠ some t := by
    intro e1 e2
    refine ⟨e2, fun e3 => ?_⟩
    rcases g.dtor e3 with e | e
    · exact e1 e
    · exact hj e
  cases j with
  | save m =>
    refine sim_one ⟨kinv_put h q1 hpcs ⟨_, hp⟩ (a0 _ rfl rfl rfl rfl (Or.inl rfl)) (b0 _ rfl rfl) (e0 _ rfl rfl rfl) rfl (Nat.le_refl _) h.own (Or.inl rfl) (p0 (by simp)) h.dthr,
      ?_⟩
    simp only [wStep, if_neg lv, if_neg hb']
    exact congrArg some (wext (hwq _ _).symm rfl rfl rfl rfl rfl rfl rfl rfl rfl rfl rfl)
  | fatal m =>
    refine sim_one ⟨kinv_put h q1 hpcs ⟨_, hp⟩ (a0 _ rfl rfl rfl rfl (Or.inl rfl)) (b0 _ rfl rfl) (e0 _ rfl rfl rfl) rfl (Nat.le_refl _) h.own (Or.inl rfl) (p0 (by simp)) h.dthr,
      ?_⟩
    simp only [wStep, if_neg lv, if_neg hb']
    exact congrArg some (wext (hwq _ _).symm rfl rfl rfl rfl rfl rfl rfl rfl rfl rfl rfl)
  | remove i =>
    refine sim_one ⟨kinv_put h q1 hpcs ⟨_, hp⟩ (a0 _ rfl rfl rfl rfl (Or.inl rfl)) (b0 _ rfl rfl) (e0 _ rfl rfl rfl) rfl (Nat.le_refl _) ?_ (Or.inr rfl) (p0 (by simp)) h.dthr,
      ?_⟩
    · simp [KTask.sync, KTask.effect, h.own]
    have hi : i < (abs k).n := g.remove i rfl
    simp only [wStep, if_neg lv, if_pos hi, beginCall, if_neg hr', if_neg hb']
    exact congrArg some (wext (hwq _ _).symm rfl rfl rfl rfl rfl rfl rfl rfl rfl rfl rfl)
  | clear =>
    refine sim_one ⟨kinv_put h q1 hpcs ⟨_, hp⟩ (a0 _ rfl rfl rfl rfl (Or.inl rfl)) (b0 _ rfl rfl) (e0 _ rfl rfl rfl) rfl (Nat.le_refl _) ?_ (Or.inr rfl) (p0 (by simp)) h.dthr,
      ?_⟩
    · simp [KTask.sync, KTask.effect, h.own]
    simp only [wStep, if_neg lv, beginCall, if_neg hr', if_neg hb']
    exact congrArg some (wext (hwq _ _).symm rfl rfl rfl rfl rfl rfl rfl rfl rfl rfl rfl)
  | dtorClear =>
    obtain ⟨d1, d2⟩ := g.clear rfl
    refine sim_one ⟨kinv_put h q1 hpcs ⟨_, hp⟩ (a0 _ rfl rfl rfl rfl (Or.inr d1)) (b0 _ rfl rfl) ?_ rfl (Nat.le_refl _) h.own (Or.inl rfl) (fun e => by cases e) (fun e => by rw [d2] at e; cases e),
      ?_⟩
    · intro u pc x e1 e2 e3 g
      refine ⟨g.remove, g.fatal, fun e => ?_, fun e => ?_, g.dtor⟩
      · have := (g.clear e).2; rw [d2] at this; cases this; exact absurd rfl e1
      · have := (g.done e).1; rw [d1] at this; cases this
    have d1' : (abs k).phase = .notStarted := d1
    simp only [wStep, if_neg lv, dtorStep, d1']
    exact congrArg some (wext (hwq _ _).symm rfl rfl rfl rfl rfl rfl rfl rfl rfl rfl rfl)
  | sinkFatal i m =>
    obtain ⟨f1, f2, f3⟩ := g.fatal i m rfl
    have same : ∀ i', (updSink k.ctl.sk i (fun x => { x with blocked := true }) i').destroyed = (k.ctl.sk i').destroyed ∧
        (updSink k.ctl.sk i (fun x => { x with blocked := true }) i').running = (k.ctl.sk i').running ∧
        (updSink k.ctl.sk i (fun x => { x with blocked := true }) i').exited = (k.ctl.sk i').exited ∧
        (updSink k.ctl.sk i (fun x => { x with blocked := true }) i').refs = (k.ctl.sk i').refs ∧
        (updSink k.ctl.sk i (fun x => { x with blocked := true }) i').reaping = (k.ctl.sk i').reaping ∧
        (updSink k.ctl.sk i (fun x => { x with blocked := true }) i').stopSent = (k.ctl.sk i').stopSent := by
      intro i'
      by_cases e : i' = i
      · subst e; simp [updSink_self]
      · simp [updSink_ne _ _ e]
    refine sim_one ⟨kinv_put h q1 hpcs ⟨_, hp⟩ ?_ ?_ ?_ rfl (Nat.le_refl _) h.own (Or.inl rfl) (p0 (by simp)) h.dthr, ?_⟩
    · intro i' u pc _ _ g
      obtain ⟨s1, s2, s3, s4, s5, s6⟩ := same i'
      exact ⟨g.lt, by simp only [KTask.effect]; rw [s1]; exact g.des, by simp only [KTask.effect]; rw [s2, s3]; exact g.zero, g.one,
        by simp only [KTask.effect]; rw [s4, s5]; exact g.two⟩
    · intro i' u pc x _ _ g _
      obtain ⟨s1, s2, s3, s4, s5, s6⟩ := same i'
      exact ⟨by simp only [KTask.effect]; rw [s6]; exact g.stop, g.send, by simp only [KTask.effect]; rw [s4]; exact g.refs, g.call⟩
    · intro u pc x e1 e2 e3 g
      refine ⟨g.remove, fun i' m' e => ?_, g.clear, g.done, g.dtor⟩
      have ne : i' ≠ i := by
        intro e'
        subst e'; subst e
        exact e1 (h.uniq u t _ _ i' m' m e2 e3 hp rfl)
      simp only [KTask.effect, updSink_ne _ _ ne]
      exact g.fatal i' m' e
    have hg' : i < (abs k).n ∧ ((abs k).sk i).blocked = false ∧ ((abs k).sk i).running.any (fun x => !x.isStop) = true := ⟨f1, f2, f3⟩
    simp only [wStep, if_neg lv, if_pos hg', if_neg hb']
    exact congrArg some (wext (hwq _ _).symm rfl rfl rfl rfl rfl
      (sk_c (k := k) (i := i) (g := fun x => { x with blocked := true }) (f := fun x => { x with blocked := true }) rfl).symm rfl rfl rfl rfl rfl)
  | add i =>
    refine sim_one ⟨kinv_put h q1 hpcs ⟨_, hp⟩ ?_ ?_ ?_ rfl (Nat.le_succ _) ?_ (Or.inr rfl) (p0 (by simp)) h.dthr, ?_⟩
    · intro i' u pc _ _ g
      have e : i' ≠ k.ctl.n := fun e => by have := g.lt; omega
      exact ⟨Nat.lt_succ_of_lt g.lt, by simp only [KTask.effect, updSink_ne _ _ e]; exact g.des, by simp only [KTask.effect, updSink_ne _ _ e]; exact g.zero, g.one,
        by simp only [KTask.effect, updSink_ne _ _ e]; exact g.two⟩
    · intro i' u pc x _ _ g g'
      have e : i' ≠ k.ctl.n := fun e => by have := g'.lt; omega
      exact ⟨by simp only [KTask.effect, updSink_ne _ _ e]; exact g.stop, g.send, by simp only [KTask.effect, updSink_ne _ _ e]; exact g.refs, g.call⟩
    · intro u pc x e1 e2 e3 g
      refine ⟨fun i hi => Nat.lt_succ_of_lt (g.remove i hi), ?_, g.clear, g.done, g.dtor⟩
      intro i' m' hx
      have g := g.fatal i' m' hx
      have e : i' ≠ k.ctl.n := fun e => by omega
      simp only [KTask.effect, updSink_ne _ _ e]
      exact ⟨Nat.lt_succ_of_lt g.1, g.2⟩
    · simp [KTask.sync, KTask.effect, h.own]
    simp only [wStep, if_neg lv, addStep, beginCall, if_neg hr', if_neg hb']
    exact congrArg some (wext (hwq _ _).symm rfl rfl rfl rfl rfl (sk_new h).symm rfl rfl rfl rfl rfl)
  | done => exact absurd rfl hj

/-- A step inside a queue is of a thread inside it. -/
theorem actor {T : Type} {s s' : QState T} {l : QLabel T} (h : qStep s l = some s') (hc : ∀ t op, l ≠ .call t op) : ∃ (t : Nat) (pc : QPc T), s.pcs[t]? = some pc ∧ pc.isIdle = false := by
  cases l with
  | call t op => exact absurd rfl (hc t op)
  | lock t =>
    simp only [qStep] at h
    split at h
    · cases h
    · split at h
      · next hp => exact ⟨t, _, hp, rfl⟩
      · next hp => exact ⟨t, _, hp, rfl⟩
      · cases h
  | act t =>
    simp only [qStep] at h
    split at h
    · next hp => exact ⟨t, _, hp, rfl⟩
    · cases h
  | unlock t =>
    simp only [qStep] at h
    split at h
    · next hp => exact ⟨t, _, hp, rfl⟩
    · next hp => exact ⟨t, _, hp, rfl⟩
    · cases h
  | notify t u =>
    simp only [qStep] at h
    split at h
    · next hp => exact ⟨t, _, hp, rfl⟩
    · cases h
  | spurious t =>
    simp only [qStep] at h
    split at h
    · next hp => exact ⟨t, _, hp, rfl⟩
    · cases h

theorem act_crit {T : Type} {s s' : QState T} {t : Nat} (h : qStep s (.act t) = some s') : ∃ op, s.pcs[t]? = some (.crit op) := by
  simp only [qStep] at h
  split at h
  · next hp => exact ⟨_, hp⟩
  · cases h

theorem entering_none {o : Option (QPc (KTask M))} (h : ∀ j, o ≠ some (.crit (.push j))) : entering o = none := by
  unfold entering
  split
  · next j => exact absurd rfl (h j)
  · rfl

theorem enteringSink_none {i t : Nat} {o : Option (QPc (SItem M))} (h : ∀ j, o ≠ some (.crit (.push j))) : enteringSink i t o = none := by
  unfold enteringSink
  split
  · exact absurd rfl (h _)
  · exact absurd rfl (h _)
  · exact absurd rfl (h _)
  · rfl

theorem leavingSink_none {i : Nat} {o : Option (QPc (SItem M))} (h : ∀ x, o ≠ some (.fin .waitPop (.item x))) : leavingSink i o = none := by
  unfold leavingSink
  split
  · exact absurd rfl (h _)
  · rfl

/-- Steps inside the worker's queue. -/
theorem sim_mem (h : KInv n k) (A : AllInv (abs k)) (hu : k.ctl.ub = false) (hd : k.ctl.wpc.isDead = false) {l : QLabel (KTask M)}
    (hs : k.mem l = some k') (hr : k'.race = false) : SimTo n k k' (lin k (.mem l)) := by
  have other : ∀ {q : QState (KTask M)}, qStep k.wq l = some q → (∀ t op, l ≠ .call t op) → (∀ t x, l = .act t → k.wq.pcs[t]? ≠ some (.crit (.push x))) →
      (∀ t x, l = .unlock t → k.wq.pcs[t]? ≠ some (.fin .waitPop (.item x))) → SimTo n k { k with wq := q } none := by
    intro q hq h1 h2 h3
    refine sim_none ⟨kinv_mem h hq h1 ?_, (abs_wq (view_other h.wq hq h1 h2 h3))⟩
    intro t pc _ _ e1 e2 e3
    subst e1
    obtain ⟨op, ho⟩ := act_crit hq
    rw [ho] at e2
    cases e2
    cases op with
    | push x => exact h2 t x rfl ho
    | _ => cases e3
  cases l with
  | call t op => cases hs
  | act t =>
    simp only [KState.mem] at hs
    split at hs
    · next j hp =>
      rw [show lin k (.mem (.act t)) = handOver j by simp only [lin, hp, entering]]
      exact sim_put h A hu hd hp hs hr
    · next hne =>
      obtain ⟨q, hq, rfl⟩ := Option.map_eq_some_iff.1 hs
      rw [show lin k (.mem (.act t)) = none from entering_none hne]
      refine other hq (by simp) ?_ (by simp)
      intro u x e
      cases e
      exact hne x
  | unlock t =>
    simp only [KState.mem] at hs
    split at hs
    · next x hp =>
      obtain ⟨q, hq, rfl⟩ := Option.map_eq_some_iff.1 hs
      have ht : t = 0 := by
        by_contra hc
        obtain ⟨y, hy⟩ := h.wq.prod t _ hc hp
        cases hy
      subst ht
      obtain ⟨z1, z2⟩ := (h.wni 0 _ hp rfl).zero rfl
      have hpc : q.pcs = k.wq.pcs.set 0 .idle := by
        simp only [qStep, hp] at hq
        cases hq; rfl
      have k1 : KInv n { k with wq := q } := kinv_mem h hq (by simp) (by simp)
      refine sim_none ⟨?_, ?_⟩
      · exact { wq := k1.wq, sq := k1.sq
                wni := fun t pc h1 h2 => ⟨fun e => (by
                  subst e
                  simp only [hpc, List.getElem?_set_self (lt_of_pc hp)] at h1
                  cases h1; cases h2), (k1.wni t pc h1 h2).one⟩
                we := k1.we, uniq := k1.uniq, pend := k1.pend, dthr := k1.dthr, dtwo := k1.dtwo, hand := fun _ _ => z1, sni := k1.sni, se := k1.se, fresh := k1.fresh
                own := k1.own, two := k1.two, uaf := k1.uaf }
      · refine wext ?_ rfl rfl rfl rfl rfl rfl rfl rfl rfl rfl rfl
        have := view_unlock_pop (e := isEnd) (z := KTask.done) hp hq
        simp only [abs, wView, z2, this]
        simp
    · next hne =>
      obtain ⟨q, hq, rfl⟩ := Option.map_eq_some_iff.1 hs
      refine other hq (by simp) (by simp) ?_
      intro u x e
      cases e
      exact hne x
  | lock t =>
    obtain ⟨q, hq, rfl⟩ := Option.map_eq_some_iff.1 hs
    exact other hq (by simp) (by simp) (by simp)
  | notify t u =>
    obtain ⟨q, hq, rfl⟩ := Option.map_eq_some_iff.1 hs
    exact other hq (by simp) (by simp) (by simp)
  | spurious t =>
    obtain ⟨q, hq, rfl⟩ := Option.map_eq_some_iff.1 hs
    exact other hq (by simp) (by simp) (by simp)

/-- A step inside the queue of a sink is of a thread inside it. -/
theorem smem_actor {i : Nat} {l : QLabel (SItem M)} (hs : k.smem i l = some k') : (∃ (t : Nat) (pc : QPc (SItem M)), (k.sq i).pcs[t]? = some pc ∧ pc.isIdle = false) := by
  cases l with
  | call t op => cases hs
  | act t =>
    simp only [KState.smem] at hs
    split at hs <;> · obtain ⟨q, hq, _⟩ := Option.map_eq_some_iff.1 hs; exact actor hq (by simp)
  | unlock t =>
    simp only [KState.smem] at hs
    split at hs <;> · obtain ⟨q, hq, _⟩ := Option.map_eq_some_iff.1 hs; exact actor hq (by simp)
  | lock t => obtain ⟨q, hq, _⟩ := Option.map_eq_some_iff.1 hs; exact actor hq (by simp)
  | notify t u => obtain ⟨q, hq, _⟩ := Option.map_eq_some_iff.1 hs; exact actor hq (by simp)
  | spurious t => obtain ⟨q, hq, _⟩ := Option.map_eq_some_iff.1 hs; exact actor hq (by simp)

/-- Steps inside the queue of a sink. -/
theorem sim_smem (h : KInv n k) (A : AllInv (abs k)) (hu : k.ctl.ub = false) (hd : k.ctl.wpc.isDead = false) {i : Nat} {l : QLabel (SItem M)}
    (hs : k.smem i l = some k') : SimTo n k k' (lin k (.smem i l)) := by
  have lv := live hu hd
  have hi : i < k.ctl.n := by
    obtain ⟨t, pc, h1, h2⟩ := smem_actor hs
    exact (h.sni i t pc h1 h2).lt
  have other : ∀ {q : QState (SItem M)}, qStep (k.sq i) l = some q → (∀ t op, l ≠ .call t op) → (∀ t x, l = .act t → (k.sq i).pcs[t]? ≠ some (.crit (.push x))) →
      (∀ t x, l = .unlock t → (k.sq i).pcs[t]? ≠ some (.fin .waitPop (.item x))) → SimTo n k { k with sq := updQ k.sq i q } none := by
    intro q hq h1 h2 h3
    exact sim_none ⟨kinv_smem h hq h1 hi, (abs_sq (view_other (h.sq i) hq h1 h2 h3))⟩
  cases l with
  | call t op => cases hs
  | act t =>
    simp only [KState.smem] at hs
    split at hs
    · next x hp =>
      obtain ⟨q, hq, rfl⟩ := Option.map_eq_some_iff.1 hs
      have k1 : KInv n { k with sq := updQ k.sq i q } := kinv_smem h hq (by simp) hi
      have ht0 : t ≠ 0 := by
        intro e; subst e
        have := (h.sq i).cons _ hp; cases this
      have hv := view_act_push (z := SItem.stop) isStop_eq ht0 hp hq
      have hf := frame_act hp hq
      have g := h.se i t _ x hp rfl
      cases hx : x.isStop with
      | true =>
        rw [if_neg (by simp)]
        have := isStop_eq x hx
        subst this
        rw [show lin k (.smem i (.act t)) = none by simp only [lin, hp, enteringSink]]
        exact sim_none ⟨k1, (abs_sq (hv.1 hx))⟩
      | false =>
        have ho : owned k.ctl i = true := by
          by_cases h1 : t = 1
          · obtain ⟨r, hw⟩ := g.send hx h1
            exact owned_iff.2 (Or.inr (Or.inl ((A.w.sinks.rest x (i :: r) hw).1 i (by simp))))
          · exact owned_iff.2 (Or.inl (g.refs hx (by omega)))
        have hal := alive_ctl A hi ho
        have h0 : tot (earlyEnd SItem.isStop) (k.sq i).pcs = 0 := early_none (fun u pc y e1 e2 => by
          cases hy : y.isStop with
          | false => rfl
          | true =>
            have := ((h.se i u pc y e1 e2).stop hy).1
            rw [hal.1] at this; cases this)
        have hv' : sView q = sView (k.sq i) ++ [x] := hv.2 hx h0
        by_cases h1 : t = 1
        · rw [if_pos ⟨h1, rfl⟩]
          obtain ⟨r, hw⟩ := g.send hx h1
          have hse : (sentOne k.ctl) = { k.ctl with wpc := .sending x r } := by
            unfold sentOne; rw [hw]
          rw [hse]
          have hlab : lin k (.smem i (.act t)) = some .work := by
            simp only [lin, hp]
            cases x with
            | stop => cases hx
            | _ => simp [enteringSink, h1]
          rw [hlab]
          refine sim_one ⟨?_, ?_⟩
          · refine kinv_ctl (k := { k with sq := updQ k.sq i q }) (c := { k.ctl with wpc := .sending x r }) k1 ?_ ?_ ?_ ?_ ?_ (Nat.le_refl _) h.own id h.dthr
            · intro j u pc _ _ g
              refine ⟨g.lt, g.des, g.zero, fun e => ?_, g.two⟩
              rcases g.one e with ⟨y, r', e1, e2⟩ | e1 | ⟨f, e1⟩
              · exact Or.inl ⟨x, r, rfl, e2⟩
              · rw [show _ = k.ctl.wpc from rfl, hw] at e1; cases e1
              · rw [show _ = k.ctl.wpc from rfl, hw] at e1; cases e1
            · intro j u pc y e1 e2 g _
              have hn1 : u ≠ 1 := by
                intro e
                subst e
                cases hy : y.isStop with
                | true =>
                  rcases (g.stop hy).2 rfl with e | ⟨f, e⟩ <;> · rw [show _ = k.ctl.wpc from rfl, hw] at e; cases e
                | false =>
                  obtain ⟨r', e3⟩ := g.send hy rfl
                  rw [show _ = k.ctl.wpc from rfl, hw] at e3
                  cases e3
                  simp only [updQ_self] at e1
                  rw [hf.2, ← h1, List.getElem?_set_self (lt_of_pc hp)] at e1
                  cases e1; cases e2
              exact ⟨fun hy => ⟨(g.stop hy).1, fun e => absurd e hn1⟩, fun _ e => absurd e hn1, g.refs, g.call⟩
            · intro u pc _ _ g
              refine ⟨fun e => ?_, g.one⟩
              have := (g.zero e).1
              rw [show _ = k.ctl.wpc from rfl, hw] at this; cases this
            · intro u pc y _ _ g
              exact ⟨g.remove, g.fatal, g.clear, g.done, g.dtor⟩
            · intro y _ e
              rw [show _ = k.ctl.wpc from rfl, hw] at e; cases e
          · simp only [wStep, if_neg lv]
            unfold workStep
            rw [show (abs k).wpc = k.ctl.wpc from rfl, hw]
            refine congrArg some (wext rfl rfl rfl rfl rfl rfl ?_ rfl rfl rfl rfl rfl)
            refine (sk_q (k := k) (i := i) (q := q) (f := fun y => y.push x) ?_).symm
            rw [hv']
            rfl
        · rw [if_neg (fun e => h1 e.1)]
          obtain ⟨c, rfl⟩ := g.call hx (by omega)
          rw [show lin k (.smem i (.act t)) = some (.call i c) by simp only [lin, hp, enteringSink, if_neg h1]]
          refine sim_one ⟨k1, ?_⟩
          have hg : i < (abs k).n ∧ 0 < ((abs k).sk i).refs := ⟨hi, g.refs hx (by omega)⟩
          simp only [wStep, if_neg lv, if_pos hg]
          refine congrArg some (wext rfl rfl rfl rfl rfl rfl ?_ rfl rfl rfl rfl rfl)
          refine (sk_q (k := k) (i := i) (q := q) (f := fun y => y.push (.call c)) ?_).symm
          rw [hv']
          rfl
    · next hne =>
      obtain ⟨q, hq, rfl⟩ := Option.map_eq_some_iff.1 hs
      rw [show lin k (.smem i (.act t)) = none from enteringSink_none hne]
      refine other hq (by simp) ?_ (by simp)
      intro u x e
      cases e
      exact hne x
  | unlock t =>
    simp only [KState.smem] at hs
    split at hs
    · next x hp =>
      obtain ⟨q, hq, rfl⟩ := Option.map_eq_some_iff.1 hs
      have ht : t = 0 := by
        by_contra hc
        obtain ⟨y, hy⟩ := (h.sq i).prod t _ hc hp
        cases hy
      subst ht
      have g := h.sni i 0 _ hp rfl
      have hpc : q.pcs = (k.sq i).pcs.set 0 .idle := by
        simp only [qStep, hp] at hq
        cases hq; rfl
      have k1 : KInv n { k with sq := updQ k.sq i q } := kinv_smem h hq (by simp) hi
      rw [show lin k (.smem i (.unlock 0)) = some (.sinkPop i) by simp only [lin, hp, leavingSink]]
      refine sim_one ⟨kinv_sk k1 ?_ ?_ ?_, ?_⟩
      · intro u pc e1 e2 g
        refine ⟨g.des, fun e => ?_, g.two⟩
        subst e
        simp only [updQ_self, hpc, List.getElem?_set_self (lt_of_pc hp)] at e1
        cases e1; cases e2
      · intro u pc y _ _ g
        exact ⟨fun e => (g.stop e).1, g.refs⟩
      · intro u pc m _ _ g'
        have := (g'.fatal i m rfl).2.2
        rw [show _ = (k.ctl.sk i).running from rfl, (g.zero rfl).1] at this; cases this
      · have hg : i < (abs k).n ∧ ((abs k).sk i).running = none ∧ ((abs k).sk i).exited = false := ⟨hi, (g.zero rfl).1, (g.zero rfl).2⟩
        have hv : ((abs k).sk i).q = x :: sView q := view_unlock_pop hp hq
        simp only [wStep, if_neg lv, sinkPop, if_pos hg]
        rw [hv]
        refine congrArg some (wext rfl rfl rfl rfl rfl rfl ?_ rfl rfl rfl rfl rfl)
        exact (sk_cq (k := k) (i := i) (q := q) (g := fun y => { y with running := some x }) (f := fun y => { y with q := sView q, running := some x }) rfl).symm
    · next hne =>
      obtain ⟨q, hq, rfl⟩ := Option.map_eq_some_iff.1 hs
      rw [show lin k (.smem i (.unlock t)) = none from leavingSink_none hne]
      refine other hq (by simp) (by simp) ?_
      intro u x e
      cases e
      exact hne x
  | lock t =>
    obtain ⟨q, hq, rfl⟩ := Option.map_eq_some_iff.1 hs
    exact other hq (by simp) (by simp) (by simp)
  | notify t u =>
    obtain ⟨q, hq, rfl⟩ := Option.map_eq_some_iff.1 hs
    exact other hq (by simp) (by simp) (by simp)
  | spurious t =>
    obtain ⟨q, hq, rfl⟩ := Option.map_eq_some_iff.1 hs
    exact other hq (by simp) (by simp) (by simp)

/-- One step. -/
theorem sim_step (h : KInv n k) (A : AllInv (abs k)) {l : KLabel M} (hs : kStep k l = some k') (hr : k'.race = false) : SimTo n k k' (lin k l) := by
  unfold kStep at hs
  split at hs
  · cases hs
  next hn =>
  simp only [not_or, Bool.not_eq_true] at hn
  obtain ⟨hu, hd, hr0, _⟩ := hn
  cases l with
  | thr t l =>
    simp only at hs
    cases l with
    | save m => exact sim_begin h hu hd (Or.inl ⟨m, Or.inl rfl⟩) hs
    | fatal m => exact sim_begin h hu hd (Or.inl ⟨m, Or.inr rfl⟩) hs
    | add => exact sim_begin h hu hd (Or.inr (Or.inl rfl)) hs
    | remove i => exact sim_begin h hu hd (Or.inr (Or.inr (Or.inr ⟨i, rfl⟩))) hs
    | clear => exact sim_begin h hu hd (Or.inr (Or.inr (Or.inl rfl))) hs
    | ret c => exact sim_client h A hu hd (Or.inl ⟨c, rfl⟩) hs
    | hold i => exact sim_client h A hu hd (Or.inr ⟨i, Or.inl rfl⟩) hs
    | holdFail i c => exact sim_client h A hu hd (Or.inr ⟨i, Or.inr (Or.inl ⟨c, Or.inl rfl⟩)⟩) hs
    | call i c => exact sim_client h A hu hd (Or.inr ⟨i, Or.inr (Or.inl ⟨c, Or.inr rfl⟩)⟩) hs
    | release i => exact sim_client h A hu hd (Or.inr ⟨i, Or.inr (Or.inr (Or.inl rfl))⟩) hs
    | reap i => exact sim_client h A hu hd (Or.inr ⟨i, Or.inr (Or.inr (Or.inr rfl))⟩) hs
    | dtor => exact sim_dtor h A hu hd hs
    | work => exact sim_work h A hu hd hs
    | sinkPop i => exact sim_sink h A hu hd (Or.inl rfl) hs
    | sinkFin i => exact sim_sink h A hu hd (Or.inr (Or.inl rfl)) hs
    | sinkFatal i m => exact sim_sink h A hu hd (Or.inr (Or.inr ⟨m, rfl⟩)) hs
  | pop =>
    simp only at hs
    split at hs
    · next hw hh =>
      obtain ⟨q, hq, rfl⟩ := Option.map_eq_some_iff.1 hs
      exact sim_none ⟨kinv_pop h hq hw hh, (abs_wq (view_call_pop hq))⟩
    · cases hs
  | mem l =>
    simp only at hs
    split at hs
    · obtain ⟨_, _, rfl⟩ := Option.map_eq_some_iff.1 hs
      cases hr
    · exact sim_mem h A hu hd hs hr
  | smem i l =>
    simp only at hs
    split at hs
    · next hdes =>
      exfalso
      obtain ⟨_, e, _⟩ := Option.map_eq_some_iff.1 hs
      obtain ⟨t, pc, h1, h2⟩ := smem_actor e
      have := (h.sni i t pc h1 h2).des
      rw [hdes] at this; cases this
    · exact sim_smem h A hu hd hs

end G3.Props
