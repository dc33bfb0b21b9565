import Verif.Proofs.SinkUseInv
import Verif.Spec.SinkUse
import Mathlib.Tactic.ByContra
/-
C94: sinks that use the library from their callbacks.
-/
namespace G3.Props
open G3 G3.Spec

variable {M : Type}

/-! ### What is delivered does not depend on it -/

/-- C94: whatever the callbacks of sinks do in the library, the worker and the sinks behave as if clients had done it: every execution is one of the
model without such callbacks. So every theorem about what is delivered, and in which order, holds for these programs as well. -/
theorem C94_refines {ls : List (ULabel M)} {u : UState M} (h : uRun UState.start ls = some u) : wRun WState.start (ls.filterMap proj) = some u.w :=
  proj_run h

/-- C94: in particular, what a sink has received is at every moment a prefix of what it is to receive. -/
theorem C94_prefix {ls : List (ULabel M)} {u : UState M} (h : uRun UState.start ls = some u) (i : Nat) :
    received (u.w.sk i) <+: gets i (handed 0 0 (ls.filterMap proj)) := C02_prefix (proj_run h) i

/-! ### Threads that wait for each other -/

/-- Which thread of the library waits for which. -/
inductive Waits (u : UState M) : Th → Th → Prop
  | ending (i j) : u.pc i = .ending j → (u.w.sk j).exited = false → Waits u (.sink i) (.sink j)
  | getting (i j p) : u.pc i = .getting j p → (u.w.sk j).done.length ≤ p → Waits u (.sink i) (.sink j)
  | sync (i k c) : u.pc i = .sync k → u.w.calls[k]? = some c → ready u.w c = false → Waits u (.sink i) .worker
  | worker (i) : workerWaits u.w i → (u.w.sk i).exited = false → Waits u .worker (.sink i)

/-- A thread is as it was: a sink has finished no further task and its callback is where it was; the worker has finished no further
task. -/
def Same (u u' : UState M) : Th → Prop
  | .worker => u'.w.wpc = u.w.wpc ∧ u'.w.completed = u.w.completed
  | .sink i => u'.pc i = u.pc i ∧ (u'.w.sk i).done = (u.w.sk i).done ∧ (u'.w.sk i).exited = (u.w.sk i).exited

theorem waits_pc {u : UState M} {i : Nat} {t : Th} (h : Waits u (.sink i) t) : u.pc i ≠ .user := by
  cases h with
  | ending _ j hp => rw [hp]; simp
  | getting _ j p hp => rw [hp]; simp
  | sync _ k c hp => rw [hp]; simp

/-- No step of a thread that waits is possible. -/
theorem waits_step {u u' : UState M} {l : ULabel M} (hs : UTr u l u') {i : Nat} {t : Th}
    (hw : Waits u (.sink i) t) :
    u'.pc i = u.pc i ∧ proj l ≠ some (.sinkFin i) := by
  have hp := waits_pc hw
  have ne : ∀ k, inCallback u k = true → k ≠ i := by
    rintro k hc rfl
    exact hp (inUser_of hc).pc
  have pcs : ∀ (k : Nat) (p : UPc), k ≠ i → putAt u.pc k p i = u.pc i := fun k p hk => putAt_ne _ _ fun e => hk e.symm
  have hret : ∀ k w, u.pc i = .sync k → wStep u.w (.ret k) = some w → False := by
    intro k w e hr
    cases hw with
    | ending _ j hq => rw [e] at hq; cases hq
    | getting _ j p hq => rw [e] at hq; cases hq
    | sync _ k' c hq hc hrd =>
      rw [e] at hq
      cases hq
      obtain ⟨_, _, hret, _⟩ := clTr_step hr
      obtain ⟨c', hc', _, hrd', _⟩ := hret k rfl
      rw [hc] at hc'; cases hc'
      rw [hrd] at hrd'; cases hrd'
  cases hs with
  | base l w hb hw =>
    refine ⟨rfl, ?_⟩
    intro e
    cases e
    simp only [baseOk, Bool.and_eq_true, decide_eq_true_eq] at hb
    exact hp hb.1
  | log k m w hc hw => exact ⟨rfl, by simp [proj]⟩
  | hold k j w hc hw => exact ⟨rfl, by simp [proj]⟩
  | holdFail k j c w hc hw => exact ⟨rfl, by simp [proj]⟩
  | call k j c w hc hj hw => exact ⟨rfl, by simp [proj]⟩
  | relKeep k j w hc hj hw hr => exact ⟨pcs _ _ (ne k hc), by simp [proj]⟩
  | relSelf k w hc hj hw hr => exact ⟨rfl, by simp [proj]⟩
  | relEnd k j w hc hj hw hr hne => exact ⟨pcs _ _ (ne k hc), by simp [proj]⟩
  | reap k j w hq hr =>
    refine ⟨pcs _ _ ?_, by simp [proj]⟩
    rintro rfl
    cases hw with
    | ending _ j' hq' he =>
      rw [hq] at hq'
      cases hq'
      unfold wStep at hr
      split at hr
      · cases hr
      · simp only at hr
        split at hr
        · next hc => rw [he] at hc; cases hc.2.2
        · cases hr
    | getting _ j p hq' => rw [hq] at hq'; cases hq'
    | sync _ k' c hq' => rw [hq] at hq'; cases hq'
  | get k j p c hc hl hx => exact ⟨pcs _ _ (ne k hc), by simp [proj]⟩
  | got k j p hq hl =>
    refine ⟨pcs _ _ ?_, by simp [proj]⟩
    rintro rfl
    cases hw with
    | ending _ j' hq' => rw [hq] at hq'; cases hq'
    | getting _ j' p' hq' hle => rw [hq] at hq'; cases hq'; omega
    | sync _ k' c hq' => rw [hq] at hq'; cases hq'
  | syncUb k _ l' w hl hc hw hu => exact ⟨rfl, by cases hl <;> simp [proj]⟩
  | sync k _ l' w hl hc hw hu => exact ⟨pcs _ _ (ne k hc), by cases hl <;> simp [proj]⟩
  | retKeep k q w hq hr hj =>
    refine ⟨pcs _ _ ?_, by simp [proj]⟩
    rintro rfl; exact hret _ _ hq hr
  | retSelf k q w hq hr hj => exact ⟨rfl, by simp [proj]⟩
  | retEnd k q j w hq hr hj =>
    refine ⟨pcs _ _ ?_, by simp [proj]⟩
    rintro rfl; exact hret _ _ hq hr

theorem deadlock_step {u u' : UState M} {l : ULabel M} {C : Th → Prop} (h : UInv u) (hs : uStep u l = some u') (hd : Deadlock (Waits u) C) :
    Deadlock (Waits u') C ∧ ∀ t, C t → Same u u' t := by
  obtain ⟨ho, ht⟩ := uTr_of_step hs
  have hinv' := uinv_step h hs
  -- the sinks of the group
  have sinks : ∀ i, C (.sink i) → u'.pc i = u.pc i ∧ proj l ≠ some (.sinkFin i) := by
    intro i hi
    obtain ⟨t, htc, hw⟩ := hd.2 _ hi
    exact waits_step ht hw
  have dn : ∀ i, C (.sink i) → (u'.w.sk i).done = (u.w.sk i).done ∧ (u'.w.sk i).exited = (u.w.sk i).exited := by
    intro i hi
    rcases proj_step ht with ⟨l', e, hw⟩ | ⟨_, hw⟩
    · exact skTr_done (skTr_step h.body.all hw i) (fun e' => (sinks i hi).2 (by rw [e, e']))
    · rw [hw]; exact ⟨rfl, rfl⟩
  -- the worker
  have wk : C .worker → ∃ i, C (.sink i) ∧ workerWaits u.w i ∧ (u.w.sk i).exited = false ∧ u'.w.wpc = u.w.wpc ∧ u'.w.completed = u.w.completed := by
    intro hc
    obtain ⟨t, htc, hw⟩ := hd.2 _ hc
    cases hw with
    | worker i hi he =>
      refine ⟨i, htc, hi, he, ?_⟩
      rcases proj_step ht with ⟨l', e, hw⟩ | ⟨_, hw⟩
      · have hlt : i < u.w.n := (h.body.all.w.sinks.waits i (by
          rcases hi with hp | ⟨f, hp⟩ <;> simp [waitsOn, hp, pcWaits])).1
        have := heldUp_step (i := i) (pc := u.w.wpc) (n := u.w.completed) ⟨hi, rfl, rfl, he, hlt⟩ (fun e' => (sinks i htc).2 (by rw [e, e'])) hw
        exact ⟨this.pc, this.done⟩
      · rw [hw]; exact ⟨rfl, rfl⟩
  refine ⟨⟨hd.1, ?_⟩, ?_⟩
  · intro t hc
    obtain ⟨t', hc', hw⟩ := hd.2 t hc
    refine ⟨t', hc', ?_⟩
    cases hw with
    | ending i j hp he => exact .ending i j (by rw [(sinks i hc).1]; exact hp) (by rw [(dn j hc').2]; exact he)
    | getting i j p hp hl => exact .getting i j p (by rw [(sinks i hc).1]; exact hp) (by rw [(dn j hc').1]; exact hl)
    | sync i k c hp hk hr =>
      obtain ⟨j, _, hj, _, hpc, hcomp⟩ := wk hc'
      obtain ⟨_, _, c', hk', hr'⟩ := hinv'.body.syncs i k (by rw [(sinks i hc).1]; exact hp)
      have hcc : c' = c := by
        rcases proj_step ht with ⟨l', e, hw⟩ | ⟨_, hw⟩
        · obtain ⟨b, hb, _⟩ := (grows_run h.body.all (by rw [wRun, hw]; rfl : wRun u.w [l'] = some u'.w)).calls k c hk
          rw [hb] at hk'
          cases hk'
          obtain ⟨_, _, c0, hk0, hr0⟩ := h.body.syncs i k hp
          rw [hk] at hk0; cases hk0
          simp only at hr'
          subst hr'
          obtain ⟨a1, a2, a3⟩ := c
          simp only at hr0
          rw [hr0]
        · rw [hw, hk] at hk'; cases hk'; rfl
      subst hcc
      refine .sync i k c' (by rw [(sinks i hc).1]; exact hp) hk' ?_
      unfold ready at hr ⊢
      cases hpos : c'.pos with
      | none => rw [hpos] at hr; cases hr
      | some p =>
        rw [hpos] at hr
        simp only [Bool.or_eq_false_iff, decide_eq_false_iff_not] at hr ⊢
        refine ⟨by rw [hcomp]; exact hr.1, ?_⟩
        cases hg : u'.w.phase.queueGone with
        | false => rfl
        | true =>
          have := (hinv'.body.all.w.book.gone hg).2
          rw [hpc] at this
          rcases hj with hj | ⟨f, hj⟩ <;> rw [hj] at this <;> cases this
    | worker i hi he =>
      obtain ⟨_, _, _, _, hpc, _⟩ := wk hc
      exact .worker i (by unfold workerWaits; rw [hpc]; exact hi) (by rw [(dn i hc').2]; exact he)
  · intro t hc
    cases t with
    | worker => obtain ⟨_, _, _, _, hpc, hcomp⟩ := wk hc; exact ⟨hpc, hcomp⟩
    | sink i => exact ⟨(sinks i hc).1, dn i hc⟩

/-- C94: threads that wait for each other wait for ever. Whatever the rest of the program does, none of them ever finishes another task, and in
particular no sink among them ever writes another message. -/
theorem C94_forever {ls l : List (ULabel M)} {u u' : UState M} {C : Th → Prop} (h : uRun UState.start ls = some u) (hr : uRun u l = some u')
    (hd : Deadlock (Waits u) C) : Deadlock (Waits u') C ∧ ∀ t, C t → Same u u' t := by
  have hi := uinv_run h
  clear h
  induction l generalizing u with
  | nil => cases hr; exact ⟨hd, fun t _ => by cases t <;> simp [Same]⟩
  | cons a l ih =>
    rw [uRun] at hr
    obtain ⟨v, hv, hr⟩ := Option.bind_eq_some_iff.1 hr
    obtain ⟨h1, h2⟩ := deadlock_step hi hv hd
    obtain ⟨h3, h4⟩ := ih hr h1 (uinv_step hi hv)
    refine ⟨h3, fun t hc => ?_⟩
    have a1 := h2 t hc
    have a2 := h4 t hc
    cases t with
    | worker => exact ⟨a2.1.trans a1.1, a2.2.trans a1.2⟩
    | sink i => exact ⟨a2.1.trans a1.1, a2.2.1.trans a1.2.1, a2.2.2.trans a1.2.2⟩

/-! ### Where a run without new input ends -/

/-- Steps that need no new input: those of the worker model (`internal`), a callback giving up its references, and the end of a wait. -/
def uInternal (u : UState M) : ULabel M → Prop
  | .base l => internal u.w l
  | .release _ _ => True
  | .reap _ _ => True
  | .got _ => True
  | .ret _ _ => True
  | _ => False

/-- No such step is possible. -/
def uStuck (u : UState M) : Prop := ∀ l, uInternal u l → uStep u l = none

/-- Everything is at rest: every queue is empty, no thread is at work or waits in the library, every call has returned. -/
def UQuiet (u : UState M) : Prop := Quiet u.w ∧ ∀ i, u.pc i = .user ∧ u.held i = []

theorem sink_busy_of {k : SinkSt M} (h : LInv k) (hs : k.stopSent = true) (he : k.exited = false) (hq : k.running = none → k.q = []) :
    k.running ≠ none := by
  intro hr
  have := sent_stop h hs (hq hr) hr
  rw [he] at this; cases this

theorem over_false {u : UState M} (h : over u = false) : u.terminated = false ∧ u.w.ub = false ∧ u.w.wpc.isDead = false := by
  unfold over at h
  simpa [Bool.or_eq_false_iff, and_assoc] using h

theorem stuck_cases {u : UState M} (hi : UInv u) (ho : over u = false) (hb : ∀ i, (u.w.sk i).blocked = false) (hst : uStuck u) :
    UQuiet u ∨ Deadlock (Waits u) (fun t => match t with
      | .worker => ∃ i, workerWaits u.w i
      | .sink i => i < u.w.n ∧ (u.w.sk i).running ≠ none) := by
  obtain ⟨hterm, hub, hdead⟩ := over_false ho
  have hg : ¬ (u.w.ub = true ∨ u.w.wpc.isDead = true) := by rw [hub, hdead]; simp
  have hd : u.w.wpc ≠ .dead := by intro e; rw [e] at hdead; cases hdead
  have stepB : ∀ l, internal u.w l → baseOk u l = true → wStep u.w l = none := by
    intro l hl hk
    have h1 := hst (.base l) hl
    have hoo : ¬ ((u.terminated || u.w.ub || u.w.wpc.isDead) = true) := by rw [hterm, hub, hdead]; simp
    unfold uStep at h1
    rw [if_neg hoo] at h1
    simp only [hk, if_true] at h1
    cases hw : wStep u.w l with
    | none => rfl
    | some w => rw [hw] at h1; cases h1
  -- a sink that is not executing a task has nothing to execute
  have hq : ∀ i, i < u.w.n → (u.w.sk i).running = none → (u.w.sk i).q = [] := by
    intro i hin hr
    cases he : (u.w.sk i).exited with
    | true => exact ((hi.body.all.w.sinks.loc i).exit he).1
    | false =>
      have := stepB (.sinkPop i) trivial rfl
      simp only [wStep, if_neg hg, sinkPop, hin, hr, he, and_self, if_true] at this
      split at this
      · assumption
      · cases this
  have hbusy : ∀ j, j < u.w.n → (u.w.sk j).stopSent = true → (u.w.sk j).exited = false → (u.w.sk j).running ≠ none :=
    fun j hj hs he => sink_busy_of (hi.body.all.w.sinks.loc j) hs he (hq j hj)
  have uout : ∀ l, uInternal u l → uStep u l = none := hst
  have hoo : ¬ ((u.terminated || u.w.ub || u.w.wpc.isDead) = true) := by rw [hterm, hub, hdead]; simp
  by_cases hany : ∃ i, i < u.w.n ∧ (u.w.sk i).running ≠ none
  · right
    obtain ⟨i0, h0⟩ := hany
    refine ⟨⟨.sink i0, h0⟩, ?_⟩
    intro t ht
    cases t with
    | worker =>
      obtain ⟨i, hw⟩ := ht
      have hww := hi.body.all.w.sinks.waits i (by rcases hw with hp | ⟨f, hp⟩ <;> simp [waitsOn, hp, pcWaits])
      have he : (u.w.sk i).exited = false := by
        cases he : (u.w.sk i).exited with
        | false => rfl
        | true =>
          have := stepB .work trivial rfl
          simp only [wStep, if_neg hg] at this
          rcases hw with hp | ⟨f, hp⟩ <;> simp [workStep, hp, he] at this
      exact ⟨.sink i, ⟨hww.1, hbusy i hww.1 hww.2.1 he⟩, .worker i hw he⟩
    | sink i =>
      obtain ⟨hin, hrun⟩ := ht
      -- its callback waits
      cases hp : u.pc i with
      | user =>
        exfalso
        by_cases hh : u.held i = []
        · have := stepB (.sinkFin i) trivial (by simp [baseOk, hp, hh])
          simp only [wStep, if_neg hg, sinkFin, hin, hb i, and_self, if_true] at this
          split at this
          · next hn => exact hrun hn
          · cases this
          · cases this
        · obtain ⟨j, r, hj⟩ := List.exists_cons_of_ne_nil hh
          have hjm : j ∈ u.held i := by rw [hj]; simp
          obtain ⟨a, b, _⟩ := held_owned hi hjm
          obtain ⟨_, x, hx, hxs⟩ := hi.body.busy i (Or.inr hh)
          have hc : inCallback u i = true := inCallback_iff.2 ⟨hin, ⟨x, hx, hxs⟩, hb i, hp⟩
          have h1 := uout (.release i j) trivial
          unfold uStep at h1
          rw [if_neg hoo] at h1
          simp only [hc, hjm, decide_true, Bool.and_self, if_true] at h1
          simp only [wStep, if_neg hg, a, b, and_self, if_true, Option.map_some] at h1
          cases h1
      | ending j =>
        obtain ⟨hne, hjn, hrp, hrr⟩ := hi.body.ends i j hp
        have he : (u.w.sk j).exited = false := by
          cases he : (u.w.sk j).exited with
          | false => rfl
          | true =>
            have h1 := uout (.reap i j) trivial
            unfold uStep at h1
            rw [if_neg hoo] at h1
            simp only [hp, if_true, wStep, if_neg hg, hjn, hrp, he, and_self, Option.map_some] at h1
            cases h1
        exact ⟨.sink j, ⟨hjn, hbusy j hjn ((hi.body.all.w.sinks.loc j).reap hrp).1 he⟩, .ending i j hp he⟩
      | getting j q =>
        obtain ⟨hjn, c, hc⟩ := hi.body.gets i j q hp
        have hle : (u.w.sk j).done.length ≤ q := by
          by_contra hlt
          have h1 := uout (.got i) trivial
          unfold uStep at h1
          rw [if_neg hoo] at h1
          simp only [hp] at h1
          rw [if_pos (by omega)] at h1
          cases h1
        refine ⟨.sink j, ⟨hjn, ?_⟩, .getting i j q hp hle⟩
        intro hr
        rw [taskList, hr, hq j hjn hr] at hc
        have := (List.getElem?_eq_some_iff.1 hc).1
        simp at this
        omega
      | sync k =>
        obtain ⟨hcl, _, c, hc, hcr⟩ := hi.body.syncs i k hp
        have hnr : ready u.w c = false := by
          cases hrd : ready u.w c with
          | false => rfl
          | true =>
            have h1 := uout (.ret i k) trivial
            unfold uStep at h1
            rw [if_neg hoo] at h1
            simp only [hp, if_true, wStep, if_neg hg, retStep, hc, hcr, hrd, and_self] at h1
            cases hkd : c.kind <;> rw [hkd] at h1 <;> cases h1
        refine ⟨.worker, ?_, .sync i k c hp hc hnr⟩
        -- the worker waits for some sink
        have hwork := stepB .work trivial rfl
        simp only [wStep, if_neg hg, workStep] at hwork
        have hpos : ∃ q, c.pos = some q ∧ q < u.w.sub.length ∧ u.w.completed ≤ q ∧ u.w.phase.queueGone = false := by
          unfold ready at hnr
          cases hq : c.pos with
          | none => rw [hq] at hnr; cases hnr
          | some q =>
            rw [hq] at hnr
            simp only [Bool.or_eq_false_iff, decide_eq_false_iff_not] at hnr
            exact ⟨q, rfl, (List.getElem?_eq_some_iff.1 (hi.body.all.w.calls.pos c (List.mem_of_getElem? hc) q hq)).1, by omega, hnr.2⟩
        obtain ⟨q, _, hql, hqc, hgone⟩ := hpos
        split at hwork
        · next hpc =>
          exfalso
          have hwq : u.w.wq = [] := by
            unfold takeTask at hwork
            split at hwork
            · assumption
            · split at hwork <;> cases hwork
            · cases hwork
            · cases hwork
            · split at hwork <;> cases hwork
            · cases hwork
            · cases hwork
          have h1 := hi.body.all.w.book.queue hgone
          have h3 : started u.w = u.w.completed := by unfold started; rw [hpc]; rfl
          rw [hwq, h3] at h1
          have := List.drop_eq_nil_iff.1 h1.symm
          omega
        · cases hwork
        · cases hwork
        · cases hwork
        · split at hwork <;> cases hwork
        · next j hpc => exact ⟨j, Or.inl hpc⟩
        · split at hwork
          · split at hwork <;> cases hwork
          · split at hwork <;> cases hwork
        · next j f hpc => exact ⟨j, Or.inr ⟨f, hpc⟩⟩
        · next hpc =>
          exfalso
          have := ended_facts hi.body.all hpc
          omega
        · next hpc => exact absurd hpc hd
  · left
    have hnone : ∀ i, i < u.w.n → (u.w.sk i).running = none := by
      intro i hin
      by_contra hne
      exact hany ⟨i, hin, hne⟩
    have hrest : ∀ i, u.pc i = .user ∧ u.held i = [] := by
      intro i
      by_contra hne
      have hor : u.pc i ≠ .user ∨ u.held i ≠ [] := by
        by_cases hp : u.pc i = .user
        · exact Or.inr fun e => hne ⟨hp, e⟩
        · exact Or.inl hp
      obtain ⟨hin, x, hx, _⟩ := hi.body.busy i hor
      rw [hnone i hin] at hx; cases hx
    refine ⟨quiet_of_stuck hi.body.all hub hd hb ?_, hrest⟩
    intro l hl
    refine stepB l hl ?_
    cases l with
    | ret k =>
      simp only [baseOk, decide_eq_true_eq]
      cases hcl : u.caller k with
      | none => rfl
      | some i => have := hi.body.callers i k hcl hterm; rw [(hrest i).1] at this; cases this
    | reap j =>
      simp only [baseOk, decide_eq_true_eq]
      cases hcl : u.reaper j with
      | none => rfl
      | some i => have := hi.body.reaps i j hcl hterm; rw [(hrest i).1] at this; cases this
    | sinkFin i => simp [baseOk, hrest i]
    | hold => cases hl
    | call => cases hl
    | release => cases hl
    | sinkFatal => cases hl
    | _ => rfl

/-- C94, exactly when a program whose sinks use the library comes to a standstill: where nothing more can happen without new input, everything is
at rest, or there are threads that wait for each other. (No sink is asleep in a fatal event of its own, see C62.) -/
theorem C94_exact {ls : List (ULabel M)} {u : UState M} (h : uRun UState.start ls = some u) (ho : over u = false)
    (hb : ∀ i, (u.w.sk i).blocked = false) (hst : uStuck u) : UQuiet u ∨ ∃ C, Deadlock (Waits u) C :=
  (stuck_cases (uinv_run h) ho hb hst).imp id fun hd => ⟨_, hd⟩

/-- C94: everything at rest: every sink has received all it is to receive. -/
theorem C94_rest {ls : List (ULabel M)} {u : UState M} (h : uRun UState.start ls = some u) (hq : UQuiet u) (i : Nat) (hi : i < u.w.n) :
    received (u.w.sk i) = gets i (handed 0 0 (ls.filterMap proj)) := by
  refine C02_complete (proj_run h) ?_ i (hq.1.sinks i hi).1 (hq.1.sinks i hi).2.1
  rcases hq.1.worker with ⟨hw | hw, hwq⟩
  · exact Or.inl ⟨hw, hwq⟩
  · exact Or.inr (Or.inl hw)

end G3.Props
