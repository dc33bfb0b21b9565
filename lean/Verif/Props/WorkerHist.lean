import Verif.Props.WorkerDeliver
/-
The requests of a schedule, and further invariants of the worker model.
-/
namespace G3.Props
open G3 G3.Spec

variable {M : Type}

/-! ### The requests of a schedule -/

/-- The requests that the clients of a schedule make, in order. `n` sinks exist, `d` steps of the destructor have been made: the first
detaches all sinks, the second closes the worker; afterwards nothing is accepted. -/
def handed : Nat → Nat → List (WLabel M) → List (Req M)
  | _, _, [] => []
  | n, d, .save m :: r => if d < 2 then .log m :: handed n d r else []
  | n, d, .fatal m :: r => if d < 2 then .fatal m :: handed n d r else []
  | n, d, .sinkFatal _ m :: r => if d < 2 then .fatal m :: handed n d r else []
  | n, d, .add :: r => if d < 2 then .attach n :: handed (n + 1) d r else handed (n + 1) d r
  | n, d, .remove i :: r => if d < 2 then .detach i :: handed n d r else handed n d r
  | n, d, .clear :: r => if d < 2 then .detachAll :: handed n d r else handed n d r
  | n, 0, .dtor :: r => .detachAll :: handed n 1 r
  | n, 1, .dtor :: r => .close :: handed n 2 r
  | n, d, .dtor :: r => handed n d r
  | n, d, .ret _ :: r => handed n d r
  | n, d, .hold _ :: r => handed n d r
  | n, d, .holdFail _ _ :: r => handed n d r
  | n, d, .call _ _ :: r => handed n d r
  | n, d, .release _ :: r => handed n d r
  | n, d, .reap _ :: r => handed n d r
  | n, d, .work :: r => handed n d r
  | n, d, .sinkPop _ :: r => handed n d r
  | n, d, .sinkFin _ :: r => handed n d r

/-- How far the destructor is. -/
def dcount : DPhase → Nat
  | .notStarted => 0
  | .clearing _ => 1
  | _ => 2

theorem bgNull_dcount (p : DPhase) : p.bgNull = false ↔ dcount p < 2 := by cases p <;> simp [DPhase.bgNull, dcount]

/-- No step is possible after undefined behaviour. -/
theorem run_ub {s s' : WState M} {ls : List (WLabel M)} (hu : s.ub = true) (h : wRun s ls = some s') : ls = [] ∧ s' = s := by
  cases ls with
  | nil => cases h; exact ⟨rfl, rfl⟩
  | cons l ls =>
    exfalso
    simp only [wRun] at h
    have : wStep s l = none := by unfold wStep; rw [if_pos (Or.inl hu)]
    rw [this] at h; cases h

theorem handed_step {s s' : WState M} {l : WLabel M} (h : wStep s l = some s') (ls : List (WLabel M)) (hub : s'.ub = true → ls = []) :
    s.sub.map req ++ handed s.n (dcount s.phase) (l :: ls) = s'.sub.map req ++ handed s'.n (dcount s'.phase) ls := by
  unfold wStep at h
  split at h
  · cases h
  · cases l with
    | save m =>
      simp only at h
      cases hb : s.phase.bgNull with
      | true =>
        rw [hb, if_pos rfl] at h; cases h
        have : ¬ dcount s.phase < 2 := fun hl => by rw [(bgNull_dcount _).2 hl] at hb; cases hb
        simp [hub rfl, handed, this]
      | false =>
        rw [hb, if_neg (by simp)] at h; cases h
        rw [handed, if_pos ((bgNull_dcount _).1 hb)]
        simp [pushTask, req]
    | fatal m =>
      simp only at h
      cases hb : s.phase.bgNull with
      | true =>
        rw [hb, if_pos rfl] at h; cases h
        have : ¬ dcount s.phase < 2 := fun hl => by rw [(bgNull_dcount _).2 hl] at hb; cases hb
        simp [hub rfl, handed, this]
      | false =>
        rw [hb, if_neg (by simp)] at h; cases h
        rw [handed, if_pos ((bgNull_dcount _).1 hb)]
        simp [pushTask, req]
    | sinkFatal i m =>
      simp only at h
      split at h
      · cases hb : s.phase.bgNull with
        | true =>
          rw [hb, if_pos rfl] at h; cases h
          have : ¬ dcount s.phase < 2 := fun hl => by rw [(bgNull_dcount _).2 hl] at hb; cases hb
          simp [hub rfl, handed, this]
        | false =>
          rw [hb, if_neg (by simp)] at h; cases h
          rw [handed, if_pos ((bgNull_dcount _).1 hb)]
          simp [pushTask, req]
      · cases h
    | add =>
      simp only [addStep, beginCall] at h
      split at h
      · next hr =>
        cases h
        simp [hub rfl, handed, hr, dcount]
      · next hr =>
        cases hb : s.phase.bgNull with
        | true =>
          rw [hb, if_pos rfl] at h; cases h
          have : ¬ dcount s.phase < 2 := fun hl => by rw [(bgNull_dcount _).2 hl] at hb; cases hb
          simp only [handed, if_neg this]
        | false =>
          rw [hb, if_neg (by simp)] at h; cases h
          rw [handed, if_pos ((bgNull_dcount _).1 hb)]
          simp [pushTask, req]
    | remove i =>
      simp only [beginCall] at h
      split at h
      · split at h
        · next hr =>
          cases h
          simp [hub rfl, handed, hr, dcount]
        · cases hb : s.phase.bgNull with
          | true =>
            rw [hb, if_pos rfl] at h; cases h
            have : ¬ dcount s.phase < 2 := fun hl => by rw [(bgNull_dcount _).2 hl] at hb; cases hb
            simp only [handed, if_neg this]
          | false =>
            rw [hb, if_neg (by simp)] at h; cases h
            rw [handed, if_pos ((bgNull_dcount _).1 hb)]
            simp [pushTask, req]
      · cases h
    | clear =>
      simp only [beginCall] at h
      split at h
      · next hr =>
        cases h
        simp [hub rfl, handed, hr, dcount]
      · cases hb : s.phase.bgNull with
        | true =>
          rw [hb, if_pos rfl] at h; cases h
          have : ¬ dcount s.phase < 2 := fun hl => by rw [(bgNull_dcount _).2 hl] at hb; cases hb
          simp only [handed, if_neg this]
        | false =>
          rw [hb, if_neg (by simp)] at h; cases h
          rw [handed, if_pos ((bgNull_dcount _).1 hb)]
          simp [pushTask, req]
    | dtor =>
      simp only [dtorStep] at h
      split at h
      · next hp => cases h; rw [hp]; simp [dcount, handed, pushTask, req]
      · next p hp =>
        split at h
        · cases h; rw [hp]; simp [dcount, handed, pushTask, req]
        · cases h
      · next hp =>
        split at h
        · cases h; rw [hp]; simp [dcount, handed]
        · cases h
      · next hp =>
        split at h
        · cases h; rw [hp]; simp [dcount, handed]
        · split at h
          · cases h; simp only [hp]; simp [dcount, handed]
          · cases h; rw [hp]; simp [dcount, handed]
      · next i hp =>
        split at h
        · cases h; rw [hp]; simp [dcount, handed]
        · cases h
      · cases h
    | ret k =>
      simp only [retStep, clientDrop] at h
      repeat' (split at h)
      all_goals first
        | (cases h; done)
        | (cases h; rfl)
    | release i =>
      simp only [clientDrop] at h
      repeat' (split at h)
      all_goals first
        | (cases h; done)
        | (cases h; rfl)
        | (injection h with h; subst h; split <;> rfl)
    | work =>
      simp only [workStep, takeTask] at h
      repeat' (split at h)
      all_goals first
        | (cases h; done)
        | (cases h; rfl)
    | sinkPop i =>
      simp only [sinkPop] at h
      repeat' (split at h)
      all_goals first
        | (cases h; done)
        | (cases h; rfl)
    | sinkFin i =>
      simp only [sinkFin] at h
      repeat' (split at h)
      all_goals first
        | (cases h; done)
        | (cases h; rfl)
    | hold i =>
      simp only at h
      split at h
      · cases h; rfl
      · cases h
    | holdFail i c =>
      simp only at h
      split at h
      · cases h; rfl
      · cases h
    | call i c =>
      simp only at h
      split at h
      · cases h; rfl
      · cases h
    | reap i =>
      simp only at h
      split at h
      · cases h; rfl
      · cases h

theorem handed_run (ls : List (WLabel M)) : ∀ s s' : WState M, wRun s ls = some s' →
    s'.sub.map req = s.sub.map req ++ handed s.n (dcount s.phase) ls := by
  induction ls with
  | nil => intro s s' h; cases h; simp [handed]
  | cons l ls ih =>
    intro s s' h
    simp only [wRun] at h
    cases hl : wStep s l with
    | none => rw [hl] at h; cases h
    | some u =>
      rw [hl] at h
      rw [handed_step hl ls (fun hu => (run_ub hu h).1), ← ih u s' h]

/-- The ghost list of tasks is the sequence of requests of the schedule. -/
theorem sub_handed {ls : List (WLabel M)} {s : WState M} (h : wRun WState.start ls = some s) : s.sub.map req = handed 0 0 ls := by
  have := handed_run ls _ s h
  simpa [WState.start, dcount] using this

/-! ### More invariants -/

/-- Sink i is being taken out of the list by `_sinks.clear()` or by the destructor. -/
def clearsNow (s : WState M) (i : Nat) : Prop := (∃ f, s.wpc = .clrWait i f) ∨ s.phase = .waitSink i

structure XInv (s : WState M) : Prop where
  retAtt : s.phase = .returned → s.att = []
  attSub : ∀ i, (i ∈ s.att ∨ clearsNow s i) → attached i (reqs s s.completed) = true
  rmNoAdd : ∀ p i, s.sub[p]? = some (.remove i) → .add i ∉ s.sub.drop p

theorem xinv_start : XInv (WState.start : WState M) := by
  refine ⟨fun h => (by cases h), ?_, fun p i h => (by simp [WState.start] at h)⟩
  rintro i (h | ⟨f, h⟩ | h) <;> cases h

theorem drop_append_mem {α} {l m : List α} {p : Nat} {x : α} (h : x ∈ (l ++ m).drop p) : x ∈ l.drop p ∨ x ∈ m := by
  rcases Nat.le_total p l.length with hp | hp
  · rw [List.drop_append_of_le_length hp, List.mem_append] at h; exact h
  · rw [List.drop_append] at h
    rcases List.mem_append.1 h with h | h
    · exact Or.inl h
    · exact Or.inr (List.mem_of_mem_drop h)

theorem rmNoAdd_push {s : WState M} (h : XInv s) (hc : CallsInv s) (t : WTask M) (ht : ∀ i, t = .add i → s.n ≤ i) :
    ∀ p i, (s.sub ++ [t])[p]? = some (.remove i) → .add i ∉ (s.sub ++ [t]).drop p := by
  intro p i hp hm
  rcases Nat.lt_or_ge p s.sub.length with hl | hl
  · rw [List.getElem?_append_left hl] at hp
    rcases drop_append_mem hm with h1 | h1
    · exact h.rmNoAdd p i hp h1
    · rw [List.mem_singleton] at h1
      have h2 := ht i h1.symm
      have h3 := hc.rms i (List.mem_iff_getElem?.2 ⟨p, hp⟩)
      omega
  · rw [List.getElem?_append_right hl] at hp
    cases hx : p - s.sub.length with
    | zero =>
      rw [hx] at hp
      cases hp
      rcases drop_append_mem hm with h1 | h1
      · rw [List.drop_eq_nil_of_le hl] at h1; cases h1
      · rw [List.mem_singleton] at h1; cases h1
    | succ m => rw [hx] at hp; cases hp

/-- For most places of the worker thread the list of sinks is known exactly. -/
theorem attSub_of {s : WState M} (hb : Book s) (hd : DInv s) (h1 : ∀ f, s.wpc ≠ .clearing f) (h2 : ∀ i f, s.wpc ≠ .clrWait i f)
    (h3 : s.wpc ≠ .ended) : ∀ i, (i ∈ s.att ∨ clearsNow s i) → attached i (reqs s s.completed) = true := by
  rintro i (hi | ⟨f, hf⟩ | hp)
  · have ha := hd.att
    have ht := hb.task
    unfold attRel at ha
    cases hw : s.wpc <;> rw [hw] at ha ht <;> simp only at ha
    case idle => exact (ha i).1 hi
    case sending => exact (ha i).1 hi
    case rmHeld j =>
      have := (ha i).1 hi
      rw [reqs_succ ht, attached_snoc, Bool.and_eq_true, Bool.or_eq_true] at this
      rcases this.1 with h | h
      · exact h
      · cases h
    case rmWait j =>
      have := (ha i).1 hi
      rw [reqs_succ ht, attached_snoc, Bool.and_eq_true, Bool.or_eq_true] at this
      rcases this.1 with h | h
      · exact h
      · cases h
    case clearing f => exact absurd hw (h1 f)
    case clrWait j f => exact absurd hw (h2 j f)
    case ended => exact absurd hw h3
    case dead => rw [ha] at hi; cases hi
  · exact absurd hf (h2 i f)
  · exact absurd (hb.gone (by rw [hp]; rfl)).2 h3

theorem xinv_ext {s s' : WState M} (hb : Book s) (hc : CallsInv s) (h : XInv s) (h1 : s'.att = s.att) (h2 : s'.wpc = s.wpc) (h3 : s'.completed = s.completed)
    (h4 : s'.phase = s.phase ∨ (s'.phase ≠ .returned ∧ (∀ i, s'.phase ≠ .waitSink i)))
    (h5 : s'.sub = s.sub ∨ ∃ t, s'.sub = s.sub ++ [t] ∧ ∀ i, t = .add i → s.n ≤ i) : XInv s' := by
  have hle : s.completed ≤ s.sub.length := by have := hb.le; unfold started at this; omega
  refine ⟨?_, ?_, ?_⟩
  · intro hp
    rw [h1]
    rcases h4 with h4 | h4
    · rw [h4] at hp; exact h.retAtt hp
    · exact absurd hp h4.1
  · intro i hi
    have hr : reqs s' s'.completed = reqs s s.completed := by
      rw [h3]
      rcases h5 with h5 | ⟨t, h5, _⟩
      · unfold reqs; rw [h5]
      · exact reqs_ext ⟨_, h5⟩ hle
    rw [hr]
    apply h.attSub
    rcases hi with hi | ⟨f, hf⟩ | hp
    · rw [h1] at hi; exact Or.inl hi
    · rw [h2] at hf; exact Or.inr (Or.inl ⟨f, hf⟩)
    · rcases h4 with h4 | h4
      · rw [h4] at hp; exact Or.inr (Or.inr hp)
      · exact absurd hp (h4.2 i)
  · rcases h5 with h5 | ⟨t, h5, h6⟩
    · rw [h5]; exact h.rmNoAdd
    · rw [h5]; exact rmNoAdd_push h hc t h6

/-- Steps of the worker thread. -/
theorem xinv_work {s s' : WState M} (hb : Book s) (h : XInv s) (h1 : s'.sub = s.sub) (h2 : s'.phase = s.phase) (hne : s.wpc ≠ .ended)
    (h3 : ∀ i, (i ∈ s'.att ∨ clearsNow s' i) → attached i (reqs s' s'.completed) = true) : XInv s' := by
  refine ⟨?_, h3, by rw [h1]; exact h.rmNoAdd⟩
  intro hp
  rw [h2] at hp
  exact absurd (hb.gone (by rw [hp]; rfl)).2 hne

theorem xinv_tr {s s' : WState M} (ht : Tr s s') (hb : Book s) (hc : CallsInv s) (hd : DInv s) (hb' : Book s') (hd' : DInv s') (h : XInv s) : XInv s' := by
  cases ht with
  | ub => exact xinv_ext hb hc h rfl rfl rfl (Or.inl rfl) (Or.inl rfl)
  | save => exact xinv_ext hb hc h rfl rfl rfl (Or.inl rfl) (Or.inr ⟨_, rfl, fun i hi => by cases hi⟩)
  | fatal => exact xinv_ext hb hc h rfl rfl rfl (Or.inl rfl) (Or.inr ⟨_, rfl, fun i hi => by cases hi⟩)
  | addQ => exact xinv_ext hb hc h rfl rfl rfl (Or.inl rfl) (Or.inr ⟨_, rfl, fun i hi => by cases hi; exact Nat.le_refl _⟩)
  | addN => exact xinv_ext hb hc h rfl rfl rfl (Or.inl rfl) (Or.inl rfl)
  | rmQ => exact xinv_ext hb hc h rfl rfl rfl (Or.inl rfl) (Or.inr ⟨_, rfl, fun i hi => by cases hi⟩)
  | rmN => exact xinv_ext hb hc h rfl rfl rfl (Or.inl rfl) (Or.inl rfl)
  | clrQ => exact xinv_ext hb hc h rfl rfl rfl (Or.inl rfl) (Or.inr ⟨_, rfl, fun i hi => by cases hi⟩)
  | clrN => exact xinv_ext hb hc h rfl rfl rfl (Or.inl rfl) (Or.inl rfl)
  | retAddKeep => exact xinv_ext hb hc h rfl rfl rfl (Or.inl rfl) (Or.inl rfl)
  | retAddDrop => exact xinv_ext hb hc h rfl rfl rfl (Or.inl rfl) (Or.inl rfl)
  | retOther => exact xinv_ext hb hc h rfl rfl rfl (Or.inl rfl) (Or.inl rfl)
  | hold => exact xinv_ext hb hc h rfl rfl rfl (Or.inl rfl) (Or.inl rfl)
  | holdFail => exact xinv_ext hb hc h rfl rfl rfl (Or.inl rfl) (Or.inl rfl)
  | call => exact xinv_ext hb hc h rfl rfl rfl (Or.inl rfl) (Or.inl rfl)
  | relKeep => exact xinv_ext hb hc h rfl rfl rfl (Or.inl rfl) (Or.inl rfl)
  | relDrop => exact xinv_ext hb hc h rfl rfl rfl (Or.inl rfl) (Or.inl rfl)
  | reap => exact xinv_ext hb hc h rfl rfl rfl (Or.inl rfl) (Or.inl rfl)
  | dStart => exact xinv_ext hb hc h rfl rfl rfl (Or.inr ⟨by simp, by simp⟩) (Or.inr ⟨_, rfl, fun i hi => by cases hi⟩)
  | dStop => exact xinv_ext hb hc h rfl rfl rfl (Or.inr ⟨by simp, by simp⟩) (Or.inr ⟨_, rfl, fun i hi => by cases hi⟩)
  | dJoin => exact xinv_ext hb hc h rfl rfl rfl (Or.inr ⟨by simp, by simp⟩) (Or.inl rfl)
  | dRet hp ha =>
    refine ⟨fun _ => ha, ?_, h.rmNoAdd⟩
    rintro i (hi | ⟨f, hf⟩ | hq)
    · exact h.attSub i (Or.inl hi)
    · exact h.attSub i (Or.inr (Or.inl ⟨f, hf⟩))
    · cases hq
  | dKeep i r hp ha ho =>
    refine ⟨fun hq => (by simp only at hq; rw [hp] at hq; cases hq), ?_, h.rmNoAdd⟩
    rintro j (hj | hj)
    · exact h.attSub j (Or.inl (by rw [ha]; exact List.mem_cons_of_mem _ hj))
    · exact h.attSub j (Or.inr hj)
  | dDrop i r hp ha ho =>
    refine ⟨fun hq => (by cases hq), ?_, h.rmNoAdd⟩
    rintro j (hj | ⟨f, hf⟩ | hj)
    · exact h.attSub j (Or.inl (by rw [ha]; exact List.mem_cons_of_mem _ hj))
    · exact h.attSub j (Or.inr (Or.inl ⟨f, hf⟩))
    · cases hj; exact h.attSub i (Or.inl (by rw [ha]; simp))
  | dReap i hp he => exact xinv_ext hb hc h rfl rfl rfl (Or.inr ⟨by simp, by simp⟩) (Or.inl rfl)
  | tSaveNone m r hw => exact xinv_work hb h rfl rfl (by rw [hw]; simp) (attSub_of hb' hd' (by simp [hw]) (by simp [hw]) (by simp [hw]))
  | tSave m r hw => exact xinv_work hb h rfl rfl (by rw [hw]; simp) (attSub_of hb' hd' (by simp) (by simp) (by simp))
  | tFatal m r hw => exact xinv_work hb h rfl rfl (by rw [hw]; simp) (attSub_of hb' hd' (by simp) (by simp) (by simp))
  | tAdd i r hw => exact xinv_work hb h rfl rfl (by rw [hw]; simp) (attSub_of hb' hd' (by simp [hw]) (by simp [hw]) (by simp [hw]))
  | tRmYes i r hw => exact xinv_work hb h rfl rfl (by rw [hw]; simp) (attSub_of hb' hd' (by simp) (by simp) (by simp))
  | tRmNo i r hw => exact xinv_work hb h rfl rfl (by rw [hw]; simp) (attSub_of hb' hd' (by simp [hw]) (by simp [hw]) (by simp [hw]))
  | tClear r hw hq =>
    refine xinv_work hb h rfl rfl (by rw [hw]; simp) ?_
    rintro j (hj | ⟨f, hf⟩ | hj)
    · exact h.attSub j (Or.inl hj)
    · cases hf
    · exact h.attSub j (Or.inr (Or.inr hj))
  | tDone r hw hq =>
    refine xinv_work hb h rfl rfl (by rw [hw]; simp) ?_
    obtain ⟨e1, e2, e3, e4, e5⟩ := dinv_take hb hd hw hq
    intro j hj
    show attached j (reqs s (s.completed + 1)) = true
    rw [e5 j]
    have : attached j (reqs s s.completed) = true := by
      rcases hj with hj | ⟨f, hf⟩ | hj
      · exact h.attSub j (Or.inl hj)
      · cases hf
      · exact h.attSub j (Or.inr (Or.inr hj))
    rw [this]; rfl
  | send x i rest hw => exact xinv_work hb h rfl rfl (by rw [hw]; simp) (attSub_of hb' hd' (by simp) (by simp) (by simp))
  | sendEndF m hw =>
    refine xinv_work hb h rfl rfl (by rw [hw]; simp) ?_
    rintro j (hj | ⟨f, hf⟩ | hj)
    · exact h.attSub j (Or.inl hj)
    · cases hf
    · exact h.attSub j (Or.inr (Or.inr hj))
  | sendEnd x hw => exact xinv_work hb h rfl rfl (by rw [hw]; simp) (attSub_of hb' hd' (by simp) (by simp) (by simp))
  | rmKeep i hw => exact xinv_work hb h rfl rfl (by rw [hw]; simp) (attSub_of hb' hd' (by simp) (by simp) (by simp))
  | rmDrop i hw => exact xinv_work hb h rfl rfl (by rw [hw]; simp) (attSub_of hb' hd' (by simp) (by simp) (by simp))
  | rmReap i hw => exact xinv_work hb h rfl rfl (by rw [hw]; simp) (attSub_of hb' hd' (by simp) (by simp) (by simp))
  | clrEndF hw => exact xinv_work hb h rfl rfl (by rw [hw]; simp) (attSub_of hb' hd' (by simp) (by simp) (by simp))
  | clrEnd hw => exact xinv_work hb h rfl rfl (by rw [hw]; simp) (attSub_of hb' hd' (by simp) (by simp) (by simp))
  | clrKeep f i r hw ha ho =>
    refine xinv_work hb h rfl rfl (by rw [hw]; simp) ?_
    rintro j (hj | hj)
    · exact h.attSub j (Or.inl (by rw [ha]; exact List.mem_cons_of_mem _ hj))
    · exact h.attSub j (Or.inr hj)
  | clrDrop f i r hw ha ho =>
    refine xinv_work hb h rfl rfl (by rw [hw]; simp) ?_
    rintro j (hj | ⟨f, hf⟩ | hj)
    · exact h.attSub j (Or.inl (by rw [ha]; exact List.mem_cons_of_mem _ hj))
    · cases hf; exact h.attSub i (Or.inl (by rw [ha]; simp))
    · exact h.attSub j (Or.inr (Or.inr hj))
  | clrReap i f hw he =>
    refine xinv_work hb h rfl rfl (by rw [hw]; simp) ?_
    rintro j (hj | ⟨g, hf⟩ | hj)
    · exact h.attSub j (Or.inl hj)
    · cases hf
    · exact h.attSub j (Or.inr (Or.inr hj))
  | sPop => exact xinv_ext hb hc h rfl rfl rfl (Or.inl rfl) (Or.inl rfl)
  | sFinStop => exact xinv_ext hb hc h rfl rfl rfl (Or.inl rfl) (Or.inl rfl)
  | sFin => exact xinv_ext hb hc h rfl rfl rfl (Or.inl rfl) (Or.inl rfl)
  | sFatal => exact xinv_ext hb hc h rfl rfl rfl (Or.inl rfl) (Or.inr ⟨_, rfl, fun i hi => by cases hi⟩)

theorem xinv_run {ls : List (WLabel M)} {s : WState M} (h : wRun WState.start ls = some s) : WInv s ∧ XInv s := by
  refine wrun_induct (P := fun s => WInv s ∧ XInv s) ?_ ls _ s ⟨⟨book_start, calls_start, sinv_start, dinv_start⟩, xinv_start⟩ h
  intro u u' l ⟨a, b⟩ hs
  have a' := winv_step a hs
  obtain ⟨_, _, ht⟩ := tr_of_step hs
  exact ⟨a', xinv_tr ht a.book a.calls a.deliver a'.book a'.deliver b⟩

end G3.Props
