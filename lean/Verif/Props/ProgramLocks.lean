import Verif.Model.ProgramLocks
import Verif.Props.ProgramThreads
import Verif.Props.WorkerLocksEnd
import Verif.Props.WorkerLocksOrder
/-
C84, down to the locks: programs with LOG statements on any number of threads that are anywhere inside the queues, from the statements to the text in the file.
-/
namespace G3.Props
open G3 G3.Spec

variable {full : Bool} {size : Int} {n : Nat}

/-! ### What a step does to the threads inside the worker's queue -/

section
variable {M : Type} {k k' : KState M}

/-- A message that is about to enter the queue was so before, or the thread has just begun. -/
theorem early_back {l : KLabel M} (hs : kStep k l = some k') (hr : k'.race = false) {t : Nat} {pc : QPc (KTask M)} {x : KTask M} (hp : k'.wq.pcs[t]? = some pc)
    (he : earlyPc pc = some x) : (∃ p, k.wq.pcs[t]? = some p ∧ earlyPc p = some x) ∨ (∃ w, l = .thr t w ∧ begins w x) ∨
      (l = .thr t .dtor ∧ (x = .dtorClear ∨ x = .done)) := by
  match l, wmove hs hr with
  | _, .keep h1 _ _ => rw [h1] at hp; exact Or.inl ⟨pc, hp, he⟩
  | _, .client (t := u) (w := w) hb _ h2 _ =>
    rw [h2] at hp
    rcases get_set hp with ⟨rfl, rfl⟩ | ⟨_, e⟩
    · cases he; exact Or.inr (Or.inl ⟨w, rfl, hb⟩)
    · exact Or.inl ⟨pc, e, he⟩
  | _, .clear (t := u) _ h2 _ =>
    rw [h2] at hp
    rcases get_set hp with ⟨rfl, rfl⟩ | ⟨_, e⟩
    · cases he; exact Or.inr (Or.inr ⟨rfl, Or.inl rfl⟩)
    · exact Or.inl ⟨pc, e, he⟩
  | _, .final (t := u) _ h2 _ =>
    rw [h2] at hp
    rcases get_set hp with ⟨rfl, rfl⟩ | ⟨_, e⟩
    · cases he; exact Or.inr (Or.inr ⟨rfl, Or.inr rfl⟩)
    · exact Or.inl ⟨pc, e, he⟩
  | _, .pop _ h2 _ =>
    rw [h2] at hp
    rcases get_set hp with ⟨rfl, rfl⟩ | ⟨_, e⟩
    · cases he
    · exact Or.inl ⟨pc, e, he⟩
  | _, .inside hc _ hq h1 _ =>
    rw [h1] at hp
    obtain ⟨p, e1, e2, _⟩ := frame_mem hq hc t pc hp
    exact Or.inl ⟨p, e1, e2 x he⟩
  | _, .put (t := u) _ h2 _ =>
    rw [h2] at hp
    rcases get_set hp with ⟨rfl, rfl⟩ | ⟨_, e⟩
    · cases he
    · exact Or.inl ⟨pc, e, he⟩

/-- A thread inside the queue was there before, or has just begun. -/
theorem busy_back {l : KLabel M} (hs : kStep k l = some k') (hr : k'.race = false) {t : Nat} {pc : QPc (KTask M)} (hp : k'.wq.pcs[t]? = some pc)
    (he : pc.isIdle = false) : (∃ p, k.wq.pcs[t]? = some p ∧ p.isIdle = false) ∨ (∃ w x, l = .thr t w ∧ begins w x) ∨ l = .thr t .dtor ∨ t = 0 := by
  match l, wmove hs hr with
  | _, .keep h1 _ _ => rw [h1] at hp; exact Or.inl ⟨pc, hp, he⟩
  | _, .client (t := u) (w := w) hb _ h2 _ =>
    rw [h2] at hp
    rcases get_set hp with ⟨rfl, rfl⟩ | ⟨_, e⟩
    · exact Or.inr (Or.inl ⟨w, _, rfl, hb⟩)
    · exact Or.inl ⟨pc, e, he⟩
  | _, .clear (t := u) _ h2 _ =>
    rw [h2] at hp
    rcases get_set hp with ⟨rfl, rfl⟩ | ⟨_, e⟩
    · exact Or.inr (Or.inr (Or.inl rfl))
    · exact Or.inl ⟨pc, e, he⟩
  | _, .final (t := u) _ h2 _ =>
    rw [h2] at hp
    rcases get_set hp with ⟨rfl, rfl⟩ | ⟨_, e⟩
    · exact Or.inr (Or.inr (Or.inl rfl))
    · exact Or.inl ⟨pc, e, he⟩
  | _, .pop _ h2 _ =>
    rw [h2] at hp
    rcases get_set hp with ⟨rfl, rfl⟩ | ⟨_, e⟩
    · exact Or.inr (Or.inr (Or.inr rfl))
    · exact Or.inl ⟨pc, e, he⟩
  | _, .inside hc _ hq h1 _ =>
    rw [h1] at hp
    obtain ⟨p, e1, _, e2⟩ := frame_mem hq hc t pc hp
    exact Or.inl ⟨p, e1, e2 he⟩
  | _, .put (t := u) h1 h2 _ =>
    rw [h2] at hp
    rcases get_set hp with ⟨rfl, rfl⟩ | ⟨_, e⟩
    · exact Or.inl ⟨_, h1, rfl⟩
    · exact Or.inl ⟨pc, e, he⟩

/-- Once it is in, it is no longer about to enter. -/
theorem put_gone {t : Nat} {j : KTask M} (hj : k.wq.pcs[t]? = some (.crit (.push j))) (hs : kStep k (.mem (.act t)) = some k') (hr : k'.race = false)
    {pc : QPc (KTask M)} (hp : k'.wq.pcs[t]? = some pc) : earlyPc pc = none := by
  unfold kStep at hs
  split at hs
  · cases hs
  simp only at hs
  split at hs
  · obtain ⟨_, _, rfl⟩ := Option.map_eq_some_iff.1 hs; cases hr
  · simp only [KState.mem, hj] at hs
    unfold KState.put at hs
    split at hs
    · cases hs; cases hr
    · obtain ⟨q, hq, rfl⟩ := Option.map_eq_some_iff.1 hs
      have hlt := lt_of_pc hj
      rw [number_eq hj] at hq
      have hc : ({ k.wq with pcs := k.wq.pcs.set t (.crit (.push (numbered k.ctl.n j))) } : QState (KTask M)).pcs[t]? = some (.crit (.push (numbered k.ctl.n j))) :=
        List.getElem?_set_self hlt
      obtain ⟨_, b⟩ := frame_act hc hq
      have hp : q.pcs[t]? = some pc := hp
      rw [b] at hp
      rcases get_set hp with ⟨_, rfl⟩ | ⟨e, _⟩
      · rfl
      · exact absurd rfl e

end

/-! ### The simulation -/

/-- The state without locks. -/
def absL (s : LState) : PState := ⟨s.reg, s.th, abs s.k, s.trace, s.acc⟩

/-- Whoever is about to enter a message has it from the statement it is in. -/
def HeldInv (full : Bool) (size : Int) (s : LState) : Prop := ∀ (t : Nat) (pc : QPc (KTask LogMessage)) x, s.k.wq.pcs[t]? = some pc → earlyPc pc = some x →
  (∀ m, x = .save m → ∃ st, (s.th t).held = some st ∧ st.op full size = some (.log m)) ∧ ∀ m, x ≠ .fatal m

theorem setThread_ne {th : Nat → PThread} {t u : Nat} {x : PThread} (h : u ≠ t) : setThread th t x u = th u := if_neg h

/-- Changes of a thread outside the queue do not matter. -/
theorem linv_other {s s' : LState} {t : Nat} (h : HeldInv full size s) (hk : s'.k = s.k) (ht : s.k.wq.pcs[t]? = some .idle) (hth : ∀ u, u ≠ t → s'.th u = s.th u) : HeldInv full size s' := by
  intro u pc x hp he
  rw [hk] at hp
  have hu : u ≠ t := by intro e; subst e; rw [ht] at hp; cases hp; cases he
  rw [hth u hu]
  exact h u pc x hp he

theorem entersLog_some {k : KState LogMessage} {l : KLabel LogMessage} {t : Nat} (h : entersLog k l = some t) :
    l = .mem (.act t) ∧ ∃ m, k.wq.pcs[t]? = some (.crit (.push (.save m))) := by
  unfold entersLog at h
  split at h
  · split at h
    · next m hm => cases h; exact ⟨rfl, m, hm⟩
    · cases h
  · cases h

/-- What other steps stand for is not a logging call. -/
theorem lin_plain {s : LState} (h : HeldInv full size s) {l : KLabel LogMessage} (hb : beginsLog l = false) (he : entersLog s.k l = none) {y : WLabel LogMessage}
    (hy : lin s.k l = some y) : isLogLabel y = false := by
  cases l with
  | thr t w =>
    cases w <;> first
      | (cases hb; done)
      | (simp only [lin] at hy; cases hy; rfl)
      | (simp only [lin] at hy; split at hy <;> cases hy <;> rfl)
      | (cases hy; done)
      | (simp only [lin, working] at hy; split at hy <;> cases hy <;> rfl)
  | pop => cases hy
  | mem l =>
    cases l with
    | act t =>
      simp only [lin, entering] at hy
      split at hy
      · next j hj =>
        cases j with
        | save m => simp only [entersLog, hj] at he; cases he
        | fatal m => exact absurd rfl ((h t _ _ hj rfl).2 m)
        | _ => first | (cases hy; done) | (cases hy; rfl)
      · cases hy
    | _ => cases hy
  | smem i l =>
    cases l with
    | act t =>
      simp only [lin, enteringSink] at hy
      split at hy
      · cases hy
      · split at hy <;> cases hy <;> rfl
      · split at hy <;> cases hy; rfl
      · cases hy
    | unlock t =>
      simp only [lin, leavingSink] at hy
      split at hy <;> cases hy; rfl
    | _ => cases hy

/-- What a step of the program with locks is without: nothing, a step of a thread, or a step of the worker. -/
theorem lsim_step {s s' : LState} {l : LLabel} (hg : Going n s.k) (hi : HeldInv full size s) (hs : lStep full size s l = some s') (hr : s'.k.race = false) :
    Going n s'.k ∧ HeldInv full size s' ∧ ∃ pls, ptRun full size (absL s) pls = some (absL s') ∧ ∀ y, .worker y ∈ pls → ∃ x, l = .locks x ∧ lin s.k x = some y := by
  have one : ∀ t, ptStep full size (absL s) (.thread t) = some (absL s') →
      ∃ pls, ptRun full size (absL s) pls = some (absL s') ∧ ∀ y, .worker y ∈ pls → ∃ x, l = .locks x ∧ lin s.k x = some y := by
    intro t h
    refine ⟨[.thread t], by rw [ptRun, h]; rfl, ?_⟩
    intro y hy
    rcases List.mem_singleton.1 hy with e
    cases e
  cases l with
  | thread t =>
    simp only [lStep] at hs
    split at hs
    · cases hs
    next hf =>
    have hf : s.k.free t = true := by simpa using hf
    have hidle : s.k.wq.pcs[t]? = some .idle := (out_get (free_get hf).2.1).1
    split at hs
    · next st hst =>
      unfold beginLog at hs
      split at hs
      · next hop =>
        cases hs
        refine ⟨hg, linv_other hi rfl hidle (fun u hu => setThread_ne hu), one t ?_⟩
        have e : (absL s).th t = s.th t := rfl
        simp only [ptStep, e, hst, handOver, hop]
        rfl
      · next m hop =>
        obtain ⟨k', hk, rfl⟩ := Option.map_eq_some_iff.1 hs
        have hr' : k'.race = false := by
          split at hr <;> exact hr
        obtain ⟨g', sm⟩ := going_step hg hk hr'
        by_cases hb : s.k.ctl.phase.bgNull = true
        · simp only [if_pos hb]
          simp only [lin, if_pos hb] at sm
          refine ⟨g', ?_, ?_⟩
          · have hk' := hk
            unfold kStep at hk'
            split at hk'
            · cases hk'
            simp only [KState.act, hf, Bool.true_eq_false, if_false, if_pos hb] at hk'
            cases hk'
            intro u pc x hp he
            have hp2 : s.k.wq.pcs[u]? = some pc := hp
            have hu : u ≠ t := by intro e; subst e; rw [hidle] at hp2; cases hp2; cases he
            show (∀ m, x = .save m → ∃ st, (setThread s.th t _ u).held = some st ∧ _) ∧ _
            rw [setThread_ne hu]
            exact hi u pc x hp2 he
          · have := one t (by
              have e : (absL s).th t = s.th t := rfl
              have e2 : (absL s).worker = abs s.k := rfl
              simp only [ptStep, e, hst, handOver, hop, e2, sm.2, if_pos hb]
              rfl)
            simpa only [if_pos hb] using this
        · simp only [if_neg hb]
          simp only [lin, if_neg hb] at sm
          refine ⟨g', ?_, [], ?_, by simp⟩
          · intro u pc x hp he
            rcases early_back hk hr' hp he with ⟨p, h1, h2⟩ | ⟨w, h1, h2⟩ | ⟨h1, _⟩
            · exact hi u p x h1 h2
            · cases h1
              have h2 : x = .save m := h2
              subst h2
              exact ⟨fun m' e => by cases e; exact ⟨st, hst, hop⟩, fun m' e => by cases e⟩
            · cases h1
          · show some (absL s) = some (absL { s with k := k' })
            simp only [absL, sm.2]
      · cases hs
    · next hst =>
      have e : (absL s).th t = s.th t := rfl
      unfold nextUseL at hs
      split at hs
      · cases hs
      · next o p htd =>
        cases hs
        refine ⟨hg, linv_other hi rfl hidle (fun u hu => setThread_ne hu), one t ?_⟩
        simp only [ptStep, e, hst, nextUse, htd]
        rfl
      · next st p htd =>
        cases hs
        refine ⟨hg, linv_other hi rfl hidle (fun u hu => setThread_ne hu), one t ?_⟩
        simp only [ptStep, e, hst, nextUse, htd]
        rfl
  | locks l =>
    simp only [lStep, locksStep] at hs
    split at hs
    · cases hs
    next hb =>
    have hb : beginsLog l = false := by simpa using hb
    obtain ⟨k', hk, hs⟩ := Option.map_eq_some_iff.1 hs
    have hr' : k'.race = false := by
      subst hs
      split at hr
      · exact hr
      · split at hr <;> exact hr
    obtain ⟨g', sm⟩ := going_step hg hk hr'
    have keep : ∀ (u : Nat) (pc : QPc (KTask LogMessage)) x, k'.wq.pcs[u]? = some pc → earlyPc pc = some x →
        (∃ p, s.k.wq.pcs[u]? = some p ∧ earlyPc p = some x) ∨ ((∀ m, x ≠ .save m) ∧ ∀ m, x ≠ .fatal m) := by
      intro u pc x hp he
      rcases early_back hk hr' hp he with h | ⟨w, h1, h2⟩ | ⟨_, h2⟩
      · exact Or.inl h
      · refine Or.inr ?_
        subst h1
        cases w <;> first | (cases hb; done) | exact h2.elim | (cases h2; exact ⟨nofun, nofun⟩)
      · refine Or.inr ?_
        rcases h2 with rfl | rfl <;> exact ⟨nofun, nofun⟩
    cases he : entersLog s.k l with
    | some t =>
      obtain ⟨rfl, m, hm⟩ := entersLog_some he
      obtain ⟨st, hst, hop⟩ := (hi t _ _ hm rfl).1 m rfl
      simp only [he, hst] at hs
      subst hs
      have hl : lin s.k (.mem (.act t)) = some (.save m) := by simp only [lin, hm]; rfl
      rw [hl] at sm
      refine ⟨g', ?_, one t ?_⟩
      · intro u pc x hp hx
        have hp2 : k'.wq.pcs[u]? = some pc := hp
        have hu : u ≠ t := by intro e; subst e; rw [put_gone hm hk hr' hp2] at hx; cases hx
        show (∀ m, x = .save m → ∃ st, (setThread s.th t _ u).held = some st ∧ _) ∧ _
        rw [setThread_ne hu]
        rcases keep u pc x hp2 hx with ⟨p, h1, h2⟩ | ⟨h1, h2⟩
        · exact hi u p x h1 h2
        · exact ⟨fun m e => absurd e (h1 m), h2⟩
      · have e : (absL s).th t = s.th t := rfl
        have e2 : (absL s).worker = abs s.k := rfl
        simp only [ptStep, e, hst, G3.handOver, hop, e2, sm.2]
        rfl
    | none =>
      simp only [he] at hs
      subst hs
      refine ⟨g', ?_, ?_⟩
      · intro u pc x hp hx
        rcases keep u pc x hp hx with ⟨p, h1, h2⟩ | ⟨h1, h2⟩
        · exact hi u p x h1 h2
        · exact ⟨fun m e => absurd e (h1 m), h2⟩
      · cases hl : lin s.k l with
        | none =>
          rw [hl] at sm
          refine ⟨[], ?_, by simp⟩
          show some (absL s) = some (absL { s with k := k' })
          simp only [absL, sm.2]
        | some y =>
          rw [hl] at sm
          refine ⟨[.worker y], ?_, ?_⟩
          · have hpl := lin_plain hi hb he hl
            have e2 : (absL s).worker = abs s.k := rfl
            simp only [ptRun, ptStep, hpl, Bool.false_eq_true, if_false, e2, sm.2]
            rfl
          · intro z hz
            rcases List.mem_singleton.1 hz with e
            cases e
            exact ⟨l, rfl, hl⟩

/-- Nobody is about to enter a message. -/
def NoLogInside (k : KState LogMessage) : Prop := ∀ (t : Nat) (pc : QPc (KTask LogMessage)) x, k.wq.pcs[t]? = some pc → earlyPc pc = some x →
  (∀ m, x ≠ .save m) ∧ ∀ m, x ≠ .fatal m

theorem held_start {k : KState LogMessage} (h : NoLogInside k) (progs : Nat → List PStep) : HeldInv full size (LState.start k progs) :=
  fun t pc x hp he => ⟨fun m e => absurd e ((h t pc x hp he).1 m), (h t pc x hp he).2⟩

theorem ptRun_append {a b : List PLabel} : ∀ {s u v : PState}, ptRun full size s a = some u → ptRun full size u b = some v → ptRun full size s (a ++ b) = some v := by
  induction a with
  | nil => intro s u v h1 h2; cases h1; exact h2
  | cons l a ih =>
    intro s u v h1 h2
    obtain ⟨w, hw, h1⟩ := Option.bind_eq_some_iff.1 h1
    rw [List.cons_append, ptRun, hw]
    exact ih h1 h2

theorem lRun_race {ls : List LLabel} : ∀ {s s' : LState}, lRun full size s ls = some s' → s'.k.race = false → s.k.race = false := by
  induction ls with
  | nil => intro s s' h hr; cases h; exact hr
  | cons l ls ih =>
    intro s s' h hr
    obtain ⟨u, hu, h⟩ := Option.bind_eq_some_iff.1 h
    have hr := ih h hr
    cases l with
    | thread t =>
      simp only [lStep] at hu
      split at hu
      · cases hu
      · split at hu
        · unfold beginLog at hu
          split at hu
          · cases hu; exact hr
          · obtain ⟨k', hk, _⟩ := Option.map_eq_some_iff.1 hu
            exact (kStep_sane hk).2.2.1
          · cases hu
        · unfold nextUseL at hu
          split at hu <;> cases hu <;> exact hr
    | locks l =>
      simp only [lStep, locksStep] at hu
      split at hu
      · cases hu
      · obtain ⟨k', hk, _⟩ := Option.map_eq_some_iff.1 hu
        exact (kStep_sane hk).2.2.1

/-- The steps of a schedule in Model/WorkerLocks. -/
theorem lStep_k {s s' : LState} {l : LLabel} (h : lStep full size s l = some s') :
    s'.k = s.k ∨ ∃ x, kStep s.k x = some s'.k ∧ ((∃ t m, x = .thr t (.save m)) ∨ l = .locks x) := by
  cases l with
  | thread t =>
    simp only [lStep] at h
    split at h
    · cases h
    · split at h
      · unfold beginLog at h
        split at h
        · cases h; exact Or.inl rfl
        · next m _ =>
          obtain ⟨k', hk, rfl⟩ := Option.map_eq_some_iff.1 h
          refine Or.inr ⟨_, ?_, Or.inl ⟨t, m, rfl⟩⟩
          rw [hk]
          split <;> rfl
        · cases h
      · unfold nextUseL at h
        split at h <;> cases h <;> exact Or.inl rfl
  | locks l =>
    simp only [lStep, locksStep] at h
    split at h
    · cases h
    · obtain ⟨k', hk, rfl⟩ := Option.map_eq_some_iff.1 h
      refine Or.inr ⟨l, ?_, Or.inr rfl⟩
      rw [hk]
      split
      · rfl
      · split <;> rfl

theorem lRun_k {ls : List LLabel} : ∀ {s s' : LState}, lRun full size s ls = some s' →
    ∃ kls, kRun s.k kls = some s'.k ∧ ∀ x ∈ kls, (∃ t m, x = .thr t (.save m)) ∨ .locks x ∈ ls := by
  induction ls with
  | nil => intro s s' h; cases h; exact ⟨[], rfl, by simp⟩
  | cons l ls ih =>
    intro s s' h
    obtain ⟨u, hu, h⟩ := Option.bind_eq_some_iff.1 h
    obtain ⟨kls, h1, h2⟩ := ih h
    have h2 : ∀ x ∈ kls, (∃ t m, x = .thr t (.save m)) ∨ .locks x ∈ l :: ls := fun x hx => (h2 x hx).imp id (List.mem_cons_of_mem _)
    rcases lStep_k hu with e | ⟨x, e1, e2⟩
    · exact ⟨kls, by rw [← e]; exact h1, h2⟩
    · refine ⟨x :: kls, by rw [kRun, e1]; exact h1, ?_⟩
      intro y hy
      rcases List.mem_cons.1 hy with rfl | hy
      · exact e2.imp id (fun e => by rw [← e]; exact List.mem_cons_self)
      · exact h2 y hy

/-- A property of the locks along a schedule, and the program without locks. `P` has to be kept by the steps. -/
theorem lsim_run {P : KState LogMessage → Prop} {Q : WLabel LogMessage → Prop} {ls : List LLabel} : ∀ {s s' : LState}, Going n s.k → HeldInv full size s → P s.k →
    (∀ k k' x, Going n k → P k → kStep k x = some k' → k'.race = false → ((∃ t m, x = .thr t (.save m)) ∨ .locks x ∈ ls) → P k') →
    (∀ k x y, P k → .locks x ∈ ls → lin k x = some y → isLogLabel y = false → Q y) →
    lRun full size s ls = some s' → s'.k.race = false →
    Going n s'.k ∧ HeldInv full size s' ∧ P s'.k ∧ ∃ pls, ptRun full size (absL s) pls = some (absL s') ∧ ∀ y, .worker y ∈ pls → Q y := by
  induction ls with
  | nil => intro s s' hg hi hP _ _ h _; cases h; exact ⟨hg, hi, hP, [], rfl, by simp⟩
  | cons l ls ih =>
    intro s s' hg hi hP kp kq h hr
    obtain ⟨u, hu, h⟩ := Option.bind_eq_some_iff.1 h
    have hru := lRun_race h hr
    obtain ⟨g1, i1, pls, p1, p2⟩ := lsim_step hg hi hu hru
    have hPu : P u.k := by
      rcases lStep_k hu with e | ⟨x, e1, e2⟩
      · rw [e]; exact hP
      · exact kp _ _ x hg hP e1 hru (e2.imp id (fun e => by rw [← e]; exact List.mem_cons_self))
    obtain ⟨g2, i2, hP2, qls, q1, q2⟩ := ih g1 i1 hPu (fun k k' x a b c d e => kp k k' x a b c d (e.imp id (List.mem_cons_of_mem _)))
      (fun k x y a b => kq k x y a (List.mem_cons_of_mem _ b)) h hr
    refine ⟨g2, i2, hP2, pls ++ qls, ptRun_append p1 q1, ?_⟩
    intro y hy
    rcases List.mem_append.1 hy with hy | hy
    · obtain ⟨x, rfl, hx⟩ := p2 y hy
      refine kq s.k x y hP List.mem_cons_self hx ?_
      by_contra hc
      have hc : isLogLabel y = true := by simpa using hc
      have : ∀ (a : List PLabel) (s s' : PState), ptRun full size s a = some s' → ∀ z, .worker z ∈ a → isLogLabel z = false := by
        intro a
        induction a with
        | nil => intro s s' _ z hz; cases hz
        | cons b a iha =>
          intro s s' hrun z hz
          obtain ⟨v, hv, hrun⟩ := Option.bind_eq_some_iff.1 hrun
          rcases List.mem_cons.1 hz with rfl | hz
          · simp only [ptStep] at hv
            split at hv
            · cases hv
            · next hx => simpa using hx
          · exact iha v s' hrun z hz
      rw [this pls _ _ p1 y hy] at hc
      cases hc
    · exact q2 y hy

/-- C84, with the locks: whatever a program does while its threads, the worker and the sinks are anywhere inside the queues, is what it does in some schedule in which to hand over
a message is one step: same levels, same registry, same statements handed over in the same order. -/
theorem C84_locks_refine (progs : Nat → List PStep) {pre : List (KLabel LogMessage)} {k0 : KState LogMessage} (h0 : kRun (KState.start n) pre = some k0) (hq : NoLogInside k0)
    {ls : List LLabel} {s : LState} (hr : lRun full size (LState.start k0 progs) ls = some s) (hrace : s.k.race = false) :
    ∃ pls, ptRun full size (PState.start (abs k0) progs) pls = some (absL s) := by
  have hr0 := lRun_race hr hrace
  obtain ⟨_, _, _, pls, h, _⟩ := lsim_run (P := fun _ => True) (Q := fun _ => True) (going_run h0 hr0) (held_start hq progs) trivial (fun _ _ _ _ _ _ _ _ => trivial)
    (fun _ _ _ _ _ _ _ => trivial) hr hrace
  exact ⟨pls, h⟩

/-- C84, with the locks: what a thread has handed over at any moment are its executed statements in order, except perhaps the one it is in. -/
theorem C84_locks_prefix (size : Nat) (hsz : 1 ≤ size) (progs : Nat → List PStep) {pre : List (KLabel LogMessage)} {k0 : KState LogMessage}
    (h0 : kRun (KState.start n) pre = some k0) (hq : NoLogInside k0) {ls : List LLabel} {s : LState} (hr : lRun full size (LState.start k0 progs) ls = some s)
    (hrace : s.k.race = false) (hd : Documented sInit (uses s.trace)) (t : Nat) :
    ∃ rest, ofThread t s.trace ++ rest = progs t ∧ ofThread t (executedBy sInit s.trace) = ofThread t s.acc ++ (s.th t).held.toList := by
  obtain ⟨pls, h⟩ := C84_locks_refine progs h0 hq hr hrace
  exact C84_prefix full size hsz progs h hd t

/-! ### Only logging and what goes on by itself -/

/-- Steps of the worker thread, the sink threads, inside the queues, and returning calls. -/
def kBackground {M : Type} : KLabel M → Prop
  | .thr _ w => background w
  | _ => True

/-- No thread is about to push a call to a sink. -/
def NoCallInside {M : Type} (k : KState M) : Prop := ∀ i, tot owedS (k.sq i).pcs = 0

section
variable {M : Type} {k k' : KState M}

theorem owedS_pos {s : QState (SItem M)} {t : Nat} {c : Nat} (h : s.pcs[t]? = some (.crit (.push (.call c)))) : 0 < tot owedS s.pcs := by
  have h1 := tot_set owedS _ _ _ (.idle : QPc (SItem M)) h
  have h2 : owedS (.crit (.push (.call c : SItem M))) = 1 := rfl
  have h3 : owedS (.idle : QPc (SItem M)) = 0 := rfl
  omega

/-- The steps meant here. -/
def endStep : KLabel M → Prop
  | .thr _ (.save _) => True
  | .thr _ .dtor => True
  | l => kBackground l

theorem nocall_step (hg : Going n k) (h : NoCallInside k) {l : KLabel M} (hl : endStep l) (hs : kStep k l = some k') (hr : k'.race = false) : NoCallInside k' := by
  have same : k'.sq = k.sq → NoCallInside k' := fun e i => by rw [e]; exact h i
  have more : NoMore k k' → NoCallInside k' := fun m i => Nat.le_zero.1 (by rw [← h i]; exact m.s i)
  unfold kStep at hs
  split at hs
  · cases hs
  cases l with
  | thr t w =>
    cases w with
    | save m =>
      simp only [KState.act, KState.enter] at hs
      split at hs
      · cases hs
      · split at hs
        · cases hs; exact same rfl
        · obtain ⟨_, _, rfl⟩ := Option.map_eq_some_iff.1 hs; exact same rfl
    | dtor =>
      simp only [KState.act] at hs
      rcases dtor_shape hs with ⟨_, _, q, _, rfl⟩ | ⟨hd, _⟩
      · exact same rfl
      · exact more (nomore_dtor hd hs).1
    | ret c => exact more (owed_thr (t := t) (w := .ret c) hg.all trivial hs).1
    | work => exact more (owed_thr (t := t) (w := .work) hg.all trivial hs).1
    | sinkPop c => exact more (owed_thr (t := t) (w := .sinkPop c) hg.all trivial hs).1
    | sinkFin c => exact more (owed_thr (t := t) (w := .sinkFin c) hg.all trivial hs).1
    | _ => exact hl.elim
  | pop =>
    simp only at hs
    split at hs
    · obtain ⟨_, _, rfl⟩ := Option.map_eq_some_iff.1 hs; exact same rfl
    · cases hs
  | mem l =>
    simp only at hs
    split at hs
    · obtain ⟨_, _, rfl⟩ := Option.map_eq_some_iff.1 hs; exact same rfl
    · refine same ?_
      unfold KState.mem at hs
      split at hs
      · cases hs
      · split at hs
        · unfold KState.put at hs
          split at hs
          · cases hs; rfl
          · obtain ⟨_, _, rfl⟩ := Option.map_eq_some_iff.1 hs; rfl
        · obtain ⟨_, _, rfl⟩ := Option.map_eq_some_iff.1 hs; rfl
      · split at hs <;> (obtain ⟨_, _, rfl⟩ := Option.map_eq_some_iff.1 hs; rfl)
      · obtain ⟨_, _, rfl⟩ := Option.map_eq_some_iff.1 hs; rfl
  | smem i l =>
    simp only at hs
    split at hs
    · obtain ⟨_, _, rfl⟩ := Option.map_eq_some_iff.1 hs; exact same rfl
    · unfold KState.smem at hs
      split at hs
      · cases hs
      · split at hs
        · obtain ⟨_, hq, rfl⟩ := Option.map_eq_some_iff.1 hs
          exact more (nomore_sq (by split <;> rfl) (by split <;> rfl) hq (fun _ _ e => by cases e))
        · obtain ⟨_, hq, rfl⟩ := Option.map_eq_some_iff.1 hs
          exact more (nomore_sq rfl rfl hq (fun _ _ e => by cases e))
      · split at hs <;>
          (obtain ⟨_, hq, rfl⟩ := Option.map_eq_some_iff.1 hs; exact more (nomore_sq rfl rfl hq (fun _ _ e => by cases e)))
      · next h1 _ _ =>
        obtain ⟨_, hq, rfl⟩ := Option.map_eq_some_iff.1 hs
        exact more (nomore_sq rfl rfl hq (fun t op e => h1 t op e))

/-- What these steps stand for. -/
theorem lin_ending (h : NoCallInside k) {l : KLabel M} (hl : endStep l) {y : WLabel M} (hy : lin k l = some y) :
    background y ∨ (∃ t, l = .thr t .dtor ∧ y = .dtor) ∨ (∃ t m, l = .thr t (.save m)) ∨
      ∃ (t : Nat) (j : KTask M), k.wq.pcs[t]? = some (.crit (.push j)) ∧ Spec.handOver j = some y := by
  cases l with
  | thr t w =>
    cases w with
    | save m => exact Or.inr (Or.inr (Or.inl ⟨t, m, rfl⟩))
    | dtor =>
      simp only [lin] at hy
      split at hy
      · cases hy
      · cases hy; exact Or.inr (Or.inl ⟨t, rfl, rfl⟩)
    | ret c => cases hy; exact Or.inl trivial
    | sinkFin c => cases hy; exact Or.inl trivial
    | sinkPop c => cases hy
    | work =>
      simp only [lin, working] at hy
      split at hy <;> cases hy
      exact Or.inl trivial
    | _ => exact hl.elim
  | pop => cases hy
  | mem l =>
    cases l with
    | act t =>
      simp only [lin, entering] at hy
      split at hy
      · next j hj => exact Or.inr (Or.inr (Or.inr ⟨t, j, hj, hy⟩))
      · cases hy
    | _ => cases hy
  | smem i l =>
    cases l with
    | act t =>
      simp only [lin, enteringSink] at hy
      split at hy
      · cases hy
      · next c hc => have := owedS_pos hc; rw [h i] at this; exact absurd this (Nat.lt_irrefl _)
      · split at hy <;> cases hy
        exact Or.inl trivial
      · cases hy
    | unlock t =>
      simp only [lin, leavingSink] at hy
      split at hy <;> cases hy
      exact Or.inl trivial
    | _ => cases hy

/-- Apart from the destructor, no thread is inside the worker's queue. -/
def OthersOut (k : KState M) : Prop := ∀ (v : Nat) pc, 2 ≤ v → k.dthr ≠ some v → k.wq.pcs[v]? = some pc → pc = .idle

/-- The thread that destroys the worker stays the same. -/
theorem dthr_step {l : KLabel M} (hl : endStep l) (hs : kStep k l = some k') : (∀ t, k.dthr = some t → k'.dthr = some t) ∧ ∀ t, l = .thr t .dtor → k'.dthr = some t := by
  unfold kStep at hs
  split at hs
  · cases hs
  have same : k'.dthr = k.dthr → (∀ t, l ≠ .thr t .dtor) → (∀ t, k.dthr = some t → k'.dthr = some t) ∧ ∀ t, l = .thr t .dtor → k'.dthr = some t :=
    fun e hn => ⟨fun t h => by rw [e]; exact h, fun t h => absurd h (hn t)⟩
  cases l with
  | thr t w =>
    by_cases hw : w = .dtor
    · subst hw
      rcases dtor_shape hs with ⟨h1, _, q, _, rfl⟩ | ⟨h1, h2, _⟩
      · exact ⟨fun u h => (by rw [h1] at h; cases h), fun u h => by cases h; rfl⟩
      · exact ⟨fun u h => by rw [h1] at h; cases h; exact h2, fun u h => by cases h; exact h2⟩
    · refine same ?_ (fun u e => hw (by cases e; rfl))
      rcases act_shape hs hw with ⟨h, _⟩ | ⟨_, _, _, _, rfl, _⟩
      · exact h.dthr
      · rfl
  | pop =>
    refine same ?_ (fun _ e => by cases e)
    simp only at hs
    split at hs
    · obtain ⟨_, _, rfl⟩ := Option.map_eq_some_iff.1 hs; rfl
    · cases hs
  | mem l =>
    refine same ?_ (fun _ e => by cases e)
    simp only at hs
    split at hs
    · obtain ⟨_, _, rfl⟩ := Option.map_eq_some_iff.1 hs; rfl
    · unfold KState.mem at hs
      split at hs
      · cases hs
      · split at hs
        · unfold KState.put at hs
          split at hs
          · cases hs; rfl
          · obtain ⟨_, _, rfl⟩ := Option.map_eq_some_iff.1 hs; rfl
        · obtain ⟨_, _, rfl⟩ := Option.map_eq_some_iff.1 hs; rfl
      · split at hs <;> (obtain ⟨_, _, rfl⟩ := Option.map_eq_some_iff.1 hs; rfl)
      · obtain ⟨_, _, rfl⟩ := Option.map_eq_some_iff.1 hs; rfl
  | smem i l =>
    refine same ?_ (fun _ e => by cases e)
    simp only at hs
    split at hs
    · obtain ⟨_, _, rfl⟩ := Option.map_eq_some_iff.1 hs; rfl
    · unfold KState.smem at hs
      split at hs
      · cases hs
      · split at hs <;> (obtain ⟨_, _, rfl⟩ := Option.map_eq_some_iff.1 hs; rfl)
      · split at hs <;> (obtain ⟨_, _, rfl⟩ := Option.map_eq_some_iff.1 hs; rfl)
      · obtain ⟨_, _, rfl⟩ := Option.map_eq_some_iff.1 hs; rfl

/-- The steps until the destructor of the worker returns. -/
def closing : KLabel M → Prop
  | .thr _ .dtor => True
  | l => kBackground l

theorem closing_ending {l : KLabel M} (h : closing l) : endStep l := by
  cases l with
  | thr t w => cases w <;> first | exact h.elim | trivial
  | _ => trivial

theorem closing_begins {t : Nat} {w : WLabel M} {x : KTask M} (h : closing (.thr t w)) (hb : begins w x) : False := by
  cases w <;> first | exact h.elim | exact hb.elim

theorem others_step (h : OthersOut k) {l : KLabel M} (hl : closing l) (hs : kStep k l = some k') (hr : k'.race = false) : OthersOut k' := by
  intro v pc hv hd hp
  obtain ⟨d1, d2⟩ := dthr_step (closing_ending hl) hs
  by_contra hc
  have hb : pc.isIdle = false := by
    cases hx : pc.isIdle with
    | false => rfl
    | true => exact absurd (idle_of hx) hc
  rcases busy_back hs hr hp hb with ⟨p, h1, h2⟩ | ⟨w, x, h1, h2⟩ | h1 | h1
  · have := h v p hv (fun e => hd (d1 v e)) h1
    subst this
    cases h2
  · subst h1; exact closing_begins hl h2
  · exact hd (d2 v h1)
  · omega

theorem others_run {ls : List (KLabel M)} : ∀ {k k' : KState M}, OthersOut k → (∀ x ∈ ls, closing x) → kRun k ls = some k' → k'.race = false → OthersOut k' := by
  induction ls with
  | nil => intro k k' h _ hr _; cases hr; exact h
  | cons l ls ih =>
    intro k k' h hl hr hrace
    obtain ⟨u, hu, hr⟩ := Option.bind_eq_some_iff.1 hr
    exact ih (others_step h (hl l List.mem_cons_self) hu (race_run hr hrace)) (fun x hx => hl x (List.mem_cons_of_mem _ hx)) hr hrace

/-- Then only the destructor sends to the worker. -/
theorem others_early (hg : Going n k) (h : OthersOut k) {t : Nat} {pc : QPc (KTask M)} {x : KTask M} (hp : k.wq.pcs[t]? = some pc) (he : earlyPc pc = some x) :
    x = .dtorClear ∨ x = .done := by
  have hb := early_busy he
  have ht : 2 ≤ t := by
    rcases t with _ | _ | t
    · have := hg.inv.wq.cons pc hp
      cases pc with
      | want op => have this : op = .waitPop := this; subst this; cases he
      | crit op => have this : op = .waitPop := this; subst this; cases he
      | _ => cases he
    · exact absurd rfl (hg.inv.wni _ _ hp hb).one
    · omega
  refine (hg.inv.we t pc x hp he).dtor ?_
  by_contra hd
  have := h t pc ht hd hp
  subst this
  cases he

/-- From there to the end, without locks. -/
theorem close_run {ls : List (KLabel M)} : ∀ {k k' : KState M}, Going n k → OthersOut k → NoCallInside k → (∀ x ∈ ls, closing x) → kRun k ls = some k' → k'.race = false →
    wRun (abs k) (linRun k ls) = some (abs k') ∧ ∀ y ∈ linRun k ls, y = .dtor ∨ background y := by
  induction ls with
  | nil => intro k k' _ _ _ _ hr _; cases hr; exact ⟨rfl, by intro y hy; cases hy⟩
  | cons l ls ih =>
    intro k k' hg ho hc hl hr hrace
    obtain ⟨u, hu, hr⟩ := Option.bind_eq_some_iff.1 hr
    have hru := race_run hr hrace
    have hll := hl l List.mem_cons_self
    obtain ⟨g', sm⟩ := going_step hg hu hru
    obtain ⟨h1, h2⟩ := ih g' (others_step ho hll hu hru) (nocall_step hg hc (closing_ending hll) hu hru) (fun x hx => hl x (List.mem_cons_of_mem _ hx)) hr hrace
    simp only [linRun, hu]
    cases hlin : lin k l with
    | none =>
      rw [hlin] at sm
      rw [sm.2] at h1
      exact ⟨h1, h2⟩
    | some y =>
      rw [hlin] at sm
      refine ⟨?_, ?_⟩
      · show wRun (abs k) (y :: linRun u ls) = _
        rw [wRun, sm.2]
        exact h1
      · intro z hz
        rcases List.mem_cons.1 hz with rfl | hz
        · rcases lin_ending hc (closing_ending hll) hlin with h | ⟨_, _, h⟩ | ⟨t, m, h⟩ | ⟨t, j, hj, h⟩
          · exact Or.inr h
          · exact Or.inl h
          · subst h; exact hll.elim
          · rcases others_early hg ho hj rfl with rfl | rfl
            · cases h; exact Or.inl rfl
            · cases h
        · exact h2 z hz

theorem first_dtor : ∀ (l : List (WLabel M)), (∀ y ∈ l, y = .dtor ∨ background y) →
    (∀ y ∈ l, background y) ∨ ∃ a b, l = a ++ .dtor :: b ∧ (∀ y ∈ a, background y) ∧ ∀ y ∈ b, y = .dtor ∨ background y
  | [], _ => Or.inl (by intro y hy; cases hy)
  | x :: l, h => by
    have ht : ∀ y ∈ l, y = .dtor ∨ background y := fun y hy => h y (List.mem_cons_of_mem _ hy)
    rcases h x List.mem_cons_self with rfl | hx
    · exact Or.inr ⟨[], l, rfl, by simp, ht⟩
    · rcases first_dtor l ht with h1 | ⟨a, b, h1, h2, h3⟩
      · refine Or.inl ?_
        intro y hy
        rcases List.mem_cons.1 hy with rfl | hy
        · exact hx
        · exact h1 y hy
      · refine Or.inr ⟨x :: a, b, by rw [h1]; rfl, ?_, h3⟩
        intro y hy
        rcases List.mem_cons.1 hy with rfl | hy
        · exact hx
        · exact h2 y hy

theorem phase_background {w w' : WState M} {x : WLabel M} (hx : (∃ m, x = .save m) ∨ background x) (hs : wStep w x = some w') : w'.phase = w.phase := by
  unfold wStep at hs
  split at hs
  · cases hs
  rcases hx with ⟨m, rfl⟩ | hx
  · simp only at hs
    split at hs <;> cases hs <;> rfl
  · cases x <;> first | exact hx.elim | skip
    · simp only [retStep] at hs
      (repeat' (split at hs)) <;> cases hs <;> first | rfl | (unfold clientDrop; split <;> rfl)
    · simp only [workStep, takeTask] at hs
      (repeat' (split at hs)) <;> cases hs <;> rfl
    · simp only [sinkPop] at hs
      (repeat' (split at hs)) <;> cases hs <;> rfl
    · simp only [sinkFin] at hs
      (repeat' (split at hs)) <;> cases hs <;> rfl

theorem phase_run {ls : List (WLabel M)} : ∀ {w w' : WState M}, (∀ x ∈ ls, (∃ m, x = .save m) ∨ background x) → wRun w ls = some w' → w'.phase = w.phase := by
  induction ls with
  | nil => intro w w' _ h; cases h; rfl
  | cons l ls ih =>
    intro w w' hx h
    obtain ⟨u, hu, h⟩ := Option.bind_eq_some_iff.1 h
    rw [ih (fun x h => hx x (List.mem_cons_of_mem _ h)) h, phase_background (hx l List.mem_cons_self) hu]

end

/-! ### From the statements to the file -/

/-- No thread of the program is inside a queue. -/
structure ClientsOut (k : KState LogMessage) : Prop where
  worker : ∀ (t : Nat) pc, 2 ≤ t → k.wq.pcs[t]? = some pc → pc = .idle
  sinks : ∀ i (t : Nat) pc, 2 ≤ t → (k.sq i).pcs[t]? = some pc → pc = .idle

theorem two_le_of_early {M : Type} {k : KState M} (hg : Going n k) {t : Nat} {pc : QPc (KTask M)} {x : KTask M} (hp : k.wq.pcs[t]? = some pc) (he : earlyPc pc = some x) : 2 ≤ t := by
  rcases t with _ | _ | t
  · have := hg.inv.wq.cons pc hp
    cases pc with
    | want op => have this : op = .waitPop := this; subst this; cases he
    | crit op => have this : op = .waitPop := this; subst this; cases he
    | _ => cases he
  · exact absurd rfl (hg.inv.wni _ _ hp (early_busy he)).one
  · omega

theorem out_noLog {k : KState LogMessage} (hg : Going n k) (h : ClientsOut k) {t : Nat} {pc : QPc (KTask LogMessage)} {x : KTask LogMessage} (hp : k.wq.pcs[t]? = some pc)
    (he : earlyPc pc = some x) : False := by
  have := h.worker t pc (two_le_of_early hg hp he) hp
  subst this
  cases he

theorem out_noCall {k : KState LogMessage} (hg : Going n k) (h : ClientsOut k) : NoCallInside k := by
  intro i
  refine Nat.le_zero.1 (Nat.le_of_not_lt fun hpos => ?_)
  obtain ⟨t, pc, hp, hc⟩ := tot_pos owedS _ hpos
  have he : ∃ c, earlyPc pc = some (.call c) := by
    unfold owedS at hc
    split at hc
    · next c e => exact ⟨c, e⟩
    · exact absurd hc (Nat.lt_irrefl _)
  obtain ⟨c, he⟩ := he
  rcases t with _ | _ | t
  · have := (hg.inv.sq i).cons pc hp
    cases pc with
    | want op => have this : op = .waitPop := this; subst this; cases he
    | crit op => have this : op = .waitPop := this; subst this; cases he
    | _ => cases he
  · obtain ⟨r, hr⟩ := (hg.inv.se i 1 pc _ hp he).send rfl rfl
    have ht := hg.all.w.book.task
    rw [show (abs k).wpc = _ from hr] at ht
    exact ht
  · have := h.sinks i (t + 2) pc (by omega) hp
    subst this
    cases he

/-- While the threads of the program log: no calls to sinks, nothing but messages on the way to the worker. -/
structure OnlyLogs (k : KState LogMessage) : Prop where
  calls : NoCallInside k
  saves : ∀ (t : Nat) (pc : QPc (KTask LogMessage)) x, k.wq.pcs[t]? = some pc → earlyPc pc = some x → ∃ m, x = .save m

theorem background_ending {M : Type} {l : KLabel M} (h : kBackground l) : endStep l := by
  cases l with
  | thr t w => cases w <;> first | exact h.elim | trivial
  | _ => trivial

theorem onlyLogs_step {k k' : KState LogMessage} {l : KLabel LogMessage} (hg : Going n k) (h : OnlyLogs k) (hs : kStep k l = some k') (hr : k'.race = false)
    (hl : (∃ t m, l = .thr t (.save m)) ∨ kBackground l) : OnlyLogs k' := by
  have he : endStep l := by
    rcases hl with ⟨t, m, rfl⟩ | hl
    · trivial
    · exact background_ending hl
  refine ⟨nocall_step hg h.calls he hs hr, ?_⟩
  intro t pc x hp hx
  rcases early_back hs hr hp hx with ⟨p, h1, h2⟩ | ⟨w, h1, h2⟩ | ⟨h1, _⟩
  · exact h.saves t p x h1 h2
  · subst h1
    rcases hl with ⟨u, m, e⟩ | hl
    · cases e; exact ⟨m, h2⟩
    · cases w <;> first | exact hl.elim | exact h2.elim
  · subst h1
    rcases hl with ⟨u, m, e⟩ | hl
    · cases e
    · exact hl.elim

theorem onlyLogs_lin {k : KState LogMessage} {l : KLabel LogMessage} (h : OnlyLogs k) (hl : kBackground l) {y : WLabel LogMessage} (hy : lin k l = some y) (hn : isLogLabel y = false) :
    background y := by
  rcases lin_ending h.calls (background_ending hl) hy with h1 | ⟨t, rfl, _⟩ | ⟨t, m, rfl⟩ | ⟨t, j, hj, e⟩
  · exact h1
  · exact hl.elim
  · exact hl.elim
  · obtain ⟨m, rfl⟩ := h.saves t _ _ hj rfl
    cases e
    cases hn

theorem run_worker {full : Bool} {size : Int} : ∀ (a : List (WLabel LogMessage)) {s : PState} {w : WState LogMessage}, (∀ y ∈ a, background y) → wRun s.worker a = some w →
    ptRun full size s (a.map .worker) = some { s with worker := w }
  | [], s, w, _, h => by cases h; rfl
  | x :: a, s, w, hb, h => by
    obtain ⟨u, hu, h⟩ := Option.bind_eq_some_iff.1 h
    have hx : isLogLabel x = false := by
      have := hb x List.mem_cons_self
      cases x <;> first | rfl | exact this.elim
    have ih := run_worker (full := full) (size := size) a (s := { s with worker := u }) (fun y hy => hb y (List.mem_cons_of_mem _ hy)) h
    simp only [List.map_cons, ptRun, ptStep, hx, Bool.false_eq_true, if_false, hu]
    exact ih

theorem wRun_split {M : Type} : ∀ {a b : List (WLabel M)} {w v : WState M}, wRun w (a ++ b) = some v → ∃ u, wRun w a = some u ∧ wRun u b = some v
  | [], b, w, v, h => ⟨w, rfl, h⟩
  | x :: a, b, w, v, h => by
    obtain ⟨u, hu, h⟩ := Option.bind_eq_some_iff.1 h
    obtain ⟨z, h1, h2⟩ := wRun_split (a := a) h
    exact ⟨z, by rw [wRun, hu]; exact h1, h2⟩

/-- Nothing goes wrong when the worker is destroyed once all threads are out of its queue. -/
theorem close_race_free {pre kls dls : List (KLabel LogMessage)} {k0 k1 k : KState LogMessage} (h0 : kRun (KState.start n) pre = some k0) (hpd : ∀ t, .thr t .dtor ∉ pre)
    (h1 : kRun k0 kls = some k1) (hkd : ∀ t, .thr t .dtor ∉ kls) (hout : ∀ (t : Nat) pc, 2 ≤ t → k1.wq.pcs[t]? = some pc → pc = .idle)
    (hk : kRun k1 dls = some k) (hdls : ∀ x ∈ dls, closing x) : k.race = false := by
  refine C93_race_free (kRun_join (kRun_join h0 h1) hk) ?_
  intro a b t u p he hu hph v pc hv hne hpc
  have hm : ∀ a b c : List (KLabel LogMessage), (.thr t .dtor : KLabel LogMessage) ∉ a → ∀ d, a ++ c = d ++ .thr t .dtor :: b → ∃ d', d = a ++ d' ∧ c = d' ++ .thr t .dtor :: b := by
    intro a b c ha d e
    rcases List.append_eq_append_iff.1 e with ⟨d', e1, e2⟩ | ⟨c', e1, e2⟩
    · exact ⟨d', e1, e2⟩
    · cases c' with
      | nil => exact ⟨[], by simpa using e1.symm, by simpa using e2.symm⟩
      | cons x c' =>
        have hx : x = .thr t .dtor := by
          rw [List.cons_append] at e2
          exact (List.cons.inj e2).1.symm
        exact absurd (by rw [e1, hx]; simp) ha
  obtain ⟨a', rfl, hd⟩ := hm (pre ++ kls) b dls (by
    intro hmem
    rcases List.mem_append.1 hmem with h | h
    · exact hpd t h
    · exact hkd t h) a he
  obtain ⟨x, hx1, hx2⟩ := kRun_append hu
  rw [kRun_join h0 h1] at hx1
  cases hx1
  rw [hd] at hk
  obtain ⟨y, hy1, hy2⟩ := kRun_append hk
  rw [hx2] at hy1
  cases hy1
  obtain ⟨z, hz, _⟩ := Option.bind_eq_some_iff.1 hy2
  have hoo : OthersOut u := others_run (fun v pc hv _ hp => hout v pc hv hp) (fun x hx => hdls x (by rw [hd]; exact List.mem_append_left _ hx)) hx2 (kStep_sane hz).2.2.1
  refine hoo v pc hv ?_ hpc
  unfold kStep at hz
  split at hz
  · cases hz
  rcases dtor_shape hz with ⟨_, e, _⟩ | ⟨e, _⟩
  · rw [e] at hph; cases hph
  · rw [e]
    intro e
    cases e
    exact hne rfl

/-- C84, with the locks. Any number of threads run LOG statements and change levels (documented use: LOG only with registered levels) while logging is initialised with a worker that
has a file sink; threads, worker and sinks may be anywhere inside the queues at any time. When all threads have come to their ends the worker is destroyed. For every schedule the file
then consists of the header, the lines of the executed statements and the line about the shutdown. `order` are these statements: those of every thread in the order of its
program, and exactly those whose level was on when the thread reached them. No line is lost, doubled or mixed with another. -/
theorem C84_locks_to_file (E : Env) (full : Bool) (size : Nat) (hsz : 1 ≤ size) (progs : Nat → List PStep)
    {pre : List (KLabel LogMessage)} {k0 : KState LogMessage} (h0 : kRun (KState.start n) pre = some k0) (hpd : ∀ t, .thr t .dtor ∉ pre)
    (hpre : handed 0 0 (linRun (KState.start n) pre) = [.attach 0]) (hn0 : 0 < k0.ctl.n) (hc0 : NoClient k0.ctl) (hph : k0.ctl.phase = .notStarted) (hq : ClientsOut k0)
    {ls : List LLabel} {s : LState} (hr : lRun full size (LState.start k0 progs) ls = some s) (hbg : ∀ x, .locks x ∈ ls → kBackground x)
    (hall : ∀ t, (s.th t).todo = [] ∧ (s.th t).held = none) (hout : ∀ (t : Nat) pc, 2 ≤ t → s.k.wq.pcs[t]? = some pc → pc = .idle)
    (hd : Documented sInit (uses s.trace)) (hne : s.acc ≠ [])
    {dls : List (KLabel LogMessage)} {k : KState LogMessage} (hk : kRun s.k dls = some k) (hdls : ∀ x ∈ dls, closing x) (hp : k.ctl.phase = .returned)
    {f : FileSink} {fs : FS} {p path : Str} {N : Nat} (hN : 1 ≤ N) (h : Constructed f fs p path N) {ops : List SinkOp} (ho : Performs (k.ctl.sk 0) ops) (time : Str) :
    ∃ trace order f' fs' outs t0, (∀ t, ofThread t trace = progs t) ∧ (∀ t, ofThread t order = ofThread t (executedBy sInit trace)) ∧
      sinkRun E f fs ops = .ok (f', fs', outs) ∧
      f'.destroy fs' time path = some ("\t\tg3log created log at: ".toList ++ t0 ++ "\n".toList ++ formatHint ++
        (order.map fun x => stmtLine E full size x.2).flatten ++ "g3log g3FileSink shutdown at: ".toList ++ time ++ "\n".toList) := by
  obtain ⟨kls, hk1, hk2⟩ := lRun_k hr
  have hrace : k.race = false := close_race_free h0 hpd hk1 (by
    intro t ht
    rcases hk2 _ ht with ⟨u, m, e⟩ | hm
    · cases e
    · exact (hbg _ hm).elim) hout hk hdls
  have hrs : s.k.race = false := race_run hk hrace
  have hr0 : k0.race = false := lRun_race hr hrs
  have g0 := going_run h0 hr0
  have hinit : OnlyLogs k0 := ⟨out_noCall g0 hq, fun t pc x a b => (out_noLog g0 hq a b).elim⟩
  obtain ⟨gs, _, hP, pls, hpl, hQ⟩ := lsim_run (P := OnlyLogs) (Q := background) g0 (held_start (fun t pc x a b => (out_noLog g0 hq a b).elim) progs) hinit
    (fun k k' x a b c d e => onlyLogs_step a b c d (e.imp id (fun h => hbg x h))) (fun k x y a b c d => onlyLogs_lin a (hbg x b) c d) hr hrs
  have hw0 := (sim_runs h0 hr0).2
  obtain ⟨hclose, hmem⟩ := close_run gs (fun v pc hv _ hpc => hout v pc hv hpc) hP.calls hdls hk hrace
  have hphs : (abs s.k).phase = .notStarted := by
    obtain ⟨wls, new, a, _, _, d, _⟩ := worker_run hsz hpl
    have := phase_run (fun x hx => (d x hx).imp id (hQ x)) a
    rw [show (absL s).worker = abs s.k from rfl] at this
    rw [this]
    exact hph
  rcases first_dtor _ hmem with hall' | ⟨A, B, hAB, hA, hB⟩
  · have := phase_run (fun x hx => Or.inr (hall' x hx)) hclose
    rw [hphs] at this
    have hp : (abs k).phase = .returned := hp
    rw [hp] at this
    cases this
  · rw [hAB] at hclose
    obtain ⟨u, hu, hend⟩ := wRun_split hclose
    have hpl2 := ptRun_append hpl (run_worker (full := full) (size := size) A (s := absL s) hA hu)
    exact C84_threads_to_file E full size hsz progs hw0 hpre hn0 ⟨hc0.refs, hc0.reaping, hc0.calls⟩ hph hpl2 (by
        intro x hx
        rcases List.mem_append.1 hx with hx | hx
        · exact hQ x hx
        · obtain ⟨y, hy, e⟩ := List.mem_map.1 hx
          cases e
          exact hA x hy) hall hd hne hend hB hp hN h ho time

/-- C84, with the locks, programs that only log, at levels that are on from the start: when all threads have come to their ends, every statement of every thread has entered the queue
of the worker once, in the order of its thread. (So `order` in `C84_locks_to_file` has them all.) -/
theorem C84_locks_all (full : Bool) (size : Nat) (hsz : 1 ≤ size) (progs : Nat → List PStep) (hon : ∀ t, ∀ x ∈ progs t, ∃ st, x = .log st ∧ sInit st.level.value = some true)
    {pre : List (KLabel LogMessage)} {k0 : KState LogMessage} (h0 : kRun (KState.start n) pre = some k0) (hq : NoLogInside k0) {ls : List LLabel} {s : LState}
    (hr : lRun full size (LState.start k0 progs) ls = some s) (hrace : s.k.race = false) (hall : ∀ t, (s.th t).todo = [] ∧ (s.th t).held = none) :
    Documented sInit (uses s.trace) ∧ ∀ t, ofThread t s.acc = statements (progs t) := by
  obtain ⟨pls, h⟩ := C84_locks_refine progs h0 hq hr hrace
  exact C84_all full size hsz progs hon h hall

/-! ### A concrete execution -/

/-- A thread goes through `push` of the worker's queue; nobody waits there. -/
def goPush (t : Nat) : List (KLabel LogMessage) := [.mem (.lock t), .mem (.act t), .mem (.unlock t), .mem (.notify t none)]

/-- The worker thread takes a task. -/
def goTake : List (KLabel LogMessage) := [.pop, .mem (.lock 0), .mem (.act 0), .mem (.unlock 0), .thr 0 .work]

/-- The worker thread sends to sink 0, whose thread executes it. -/
def goSend : List (KLabel LogMessage) :=
  [.thr 0 .work, .smem 0 (.lock 1), .smem 0 (.act 1), .smem 0 (.unlock 1), .smem 0 (.notify 1 none), .thr 0 .work,
    .thr 0 (.sinkPop 0), .smem 0 (.lock 0), .smem 0 (.act 0), .smem 0 (.unlock 0), .thr 0 (.sinkFin 0)]

/-- Thread 2 adds the file sink. -/
def goAdd : List (KLabel LogMessage) := [.thr 2 .add] ++ goPush 2 ++ goTake ++ [.thr 2 (.ret 0)]

/-- Threads 2 and 3 are inside `push` at the same time; thread 2 begins first, the message of thread 3 enters first; thread 2 waits for the lock until thread 3 has released it, and
the worker thread takes the message of thread 3 before thread 3 is back from `notify`. -/
def goLogs : List LLabel :=
  [.thread 2, .thread 3, .thread 2, .thread 3] ++
  ([.mem (.lock 3), .mem (.act 3), .mem (.unlock 3), .mem (.lock 2), .mem (.act 2), .mem (.unlock 2), .pop, .mem (.lock 0), .mem (.act 0), .mem (.notify 3 none),
    .mem (.unlock 0), .thr 0 .work, .mem (.notify 2 none)] : List (KLabel LogMessage)).map .locks

/-- Thread 2 destroys the worker. -/
def goEnd : List (KLabel LogMessage) :=
  goSend ++ [.thr 2 .dtor] ++ goTake ++ [.mem (.lock 2), .mem (.act 2)] ++ goSend ++ [.mem (.unlock 2), .mem (.notify 2 none)] ++ goTake ++
  [.thr 0 .work, .smem 0 (.lock 1), .smem 0 (.act 1), .smem 0 (.unlock 1), .smem 0 (.notify 1 none), .thr 0 (.sinkPop 0), .smem 0 (.lock 0), .smem 0 (.act 0), .smem 0 (.unlock 0),
    .thr 0 (.sinkFin 0), .thr 0 .work, .thr 0 .work, .thr 2 .dtor] ++ goPush 2 ++ goTake ++ [.thr 2 .dtor, .thr 2 .dtor]

def goProgs : Nat → List PStep := fun t => if t = 2 then [.log (infoStmt 2)] else if t = 3 then [.log (infoStmt 3)] else []

/-- The hypotheses of `C84_locks_to_file` are met; the message of thread 3 is first. -/
example : ∃ k0 s k, kRun (KState.start 4) goAdd = some k0 ∧ handed 0 0 (linRun (KState.start 4) goAdd) = [.attach 0] ∧ 0 < k0.ctl.n ∧ NoClient k0.ctl ∧
    k0.ctl.phase = .notStarted ∧ k0.wq.pcs = [.idle, .idle, .idle, .idle] ∧ (k0.sq 0).pcs = [.idle, .idle, .idle, .idle] ∧ lRun false 2048 (LState.start k0 goProgs) goLogs = some s ∧ s.acc = [(3, infoStmt 3), (2, infoStmt 2)] ∧
    (∀ t, (s.th t).todo = [] ∧ (s.th t).held = none) ∧ s.k.wq.pcs = [.idle, .idle, .idle, .idle] ∧
    kRun s.k goEnd = some k ∧ k.ctl.phase = .returned := by
  refine ⟨_, _, _, rfl, rfl, Nat.zero_lt_one, ⟨rfl, rfl, by intro c hc; rcases List.mem_singleton.1 hc with rfl; rfl⟩, rfl, rfl, rfl, rfl, rfl, ?_, rfl, rfl, rfl⟩
  intro t
  rcases t with _ | _ | _ | _ | t <;> exact ⟨rfl, rfl⟩

/-- The same in `C84_locks_to_file`: what threads 2 and 3 are inside of at the beginning and which steps there are. -/
example : (∀ t, .thr t .dtor ∉ goAdd) ∧ (∀ x, .locks x ∈ goLogs → kBackground x) ∧ ∀ x ∈ goEnd, closing x := by
  refine ⟨?_, ?_, ?_⟩
  · intro t h
    simp [goAdd, goPush, goTake] at h
  · intro x h
    simp only [goLogs, List.cons_append, List.nil_append, List.map_cons, List.map_nil, List.mem_cons, reduceCtorEq, false_or, LLabel.locks.injEq, List.not_mem_nil, or_false] at h
    rcases h with rfl | rfl | rfl | rfl | rfl | rfl | rfl | rfl | rfl | rfl | rfl | rfl | rfl <;> trivial
  · simp [goEnd, goSend, goTake, goPush, closing, kBackground, background]

end G3.Props
