import Verif.Proofs.SinkThrow
/-
C91: a sink whose callback throws an exception.
-/
namespace G3.Props
open G3 G3.Spec

variable {M : Type}

/-! ### What happens -/

/-- C91: as long as no callback throws, worker and sinks do what they did without exceptions. -/
theorem C91_as_before {env : TEnv M} (hn : ∀ i d x, env.throws i d x = false) (ls : List (WLabel M)) :
    tRun env TState.start ls = (wRun WState.start ls).map fun b => { base := b, asleep := fun _ => false, signalled := false, ended := false, log := ls } := by
  have one : ∀ (s : TState M) (l : WLabel M), s.ended = false → (∀ i, s.asleep i = false) → tStep env s l = ePlain s l := by
    intro s l he ha
    have hx : ∀ i, eThrows env s i = none := by
      intro i
      unfold eThrows
      split
      · simp [hn]
      · rfl
    unfold tStep
    split
    · next hg =>
      have : wStep s.base l = none := by
        unfold wStep
        rw [if_pos]
        simpa [he] using hg
      simp [ePlain, this]
    · split <;> simp [ha, hx]
  have key : ∀ (ls : List (WLabel M)) (s : TState M), s.ended = false → (∀ i, s.asleep i = false) →
      tRun env s ls = (wRun s.base ls).map fun b => { s with base := b, log := s.log ++ ls } := by
    intro ls
    induction ls with
    | nil => intro s _ _; simp [tRun, wRun]
    | cons l ls ih =>
      intro s he ha
      rw [tRun, wRun, one s l he ha, ePlain]
      cases hb : wStep s.base l with
      | none => rfl
      | some b =>
        simp only [Option.map_some, Option.bind_some]
        rw [ih { s with base := b, log := s.log ++ [l] } he ha]
        simp
  rw [key ls TState.start rfl (fun _ => rfl)]
  rfl

/-- `logged` keeps the messages of the `save` steps, in order, and nothing else. -/
theorem logged_saves (ls : List (WLabel M)) : logged ls = ls.filterMap fun | .save m => some m | _ => none := by
  induction ls with
  | nil => rfl
  | cons l ls ih => cases l <;> simp [logged, ih]

/-- C91: in any case the messages logged are handed to the worker as before, and every sink gets an initial part of what is due to it. -/
theorem C91_prefix {env : TEnv M} {ls : List (WLabel M)} {s : TState M} (h : tRun env TState.start ls = some s) :
    wRun WState.start s.log = some s.base ∧ logged s.log = logged ls ∧ ∀ i, received (s.base.sk i) <+: gets i (handed 0 0 s.log) :=
  ⟨base_run h, by have := logged_from h; simpa [TState.start, logged] using this, C02_prefix (base_run h)⟩

/-- The logger is shut down: the destructor of the worker has begun, or the worker is handling a fatal message, which it has shown on stderr. -/
def shutDown (s : WState M) : Prop := s.phase ≠ .notStarted ∨ ∃ m, .fatal m ∈ s.err

theorem shutDown_iff {ls : List (WLabel M)} {s : WState M} (h : wRun WState.start ls = some s) (hd : s.wpc ≠ .dead) : loggerSet s = false ↔ shutDown s := by
  have hf := fatal_run h
  simp only [hd, or_false] at hf
  unfold loggerSet shutDown
  have : (∃ m, ErrLine.fatal m ∈ s.err) ↔ s.wpc.inFatal = true := hf.symm
  rw [this]
  cases s.wpc.inFatal <;> simp

/-- C91: exactly what a callback that throws does. Without a handler for SIGABRT the process ends. With one, the first exception adds a fatal message to the
queue of the worker, unless logging is shut down, in which case the process ends; a later exception does nothing but stop its thread. -/
theorem C91_exact {env : TEnv M} {ls : List (WLabel M)} {s : TState M} {i : Nat} {x : SItem M} (h : tRun env TState.start ls = some s)
    (he : s.ended = false) (hu : s.base.ub = false) (hd : s.base.wpc ≠ .dead) (hx : Throwing env s i x) :
    ∃ s', tStep env s (.sinkFin i) = some s' ∧
      (env.handled = false → s'.ended = true ∧ s'.base = s.base) ∧
      (env.handled = true → Threw env ls → s'.ended = false ∧ s'.base = s.base) ∧
      (env.handled = true → ¬ Threw env ls → ¬ shutDown s.base → s'.ended = false ∧ handed 0 0 s'.log = handed 0 0 s.log ++ [.fatal (env.report i x)]) ∧
      (env.handled = true → ¬ Threw env ls → shutDown s.base → s'.ended = true ∧ s'.base = s.base) := by
  have hb := base_run h
  have hg : ¬ ((s.ended || s.base.ub || s.base.wpc.isDead) = true) := by
    rw [he, hu]
    intro e
    apply hd
    cases hw : s.base.wpc <;> rw [hw] at e <;> first | rfl | cases e
  have hstep : tStep env s (.sinkFin i) = eAbort env s i x := by
    simp only [tStep, if_neg hg, hx.2.2.2.1, (eThrows_eq hx.2.2.2.1).2 hx, Bool.false_eq_true, if_false]
  rw [hstep]
  unfold eAbort
  cases hh : env.handled with
  | false => exact ⟨_, if_pos rfl, fun _ => ⟨rfl, rfl⟩, (fun e => by cases e), (fun e => by cases e), (fun e => by cases e)⟩
  | true =>
    have ht := signalled_iff hh ls h
    rw [if_neg (by simp)]
    cases hs : s.signalled with
    | true =>
      have ht := ht.1 hs
      exact ⟨_, if_pos rfl, (fun e => by cases e), fun _ _ => ⟨he, rfl⟩, fun _ e => absurd ht e, fun _ e => absurd ht e⟩
    | false =>
      have ht : ¬ Threw env ls := fun e => by rw [ht.2 e] at hs; cases hs
      rw [if_neg (by simp)]
      have hl := shutDown_iff hb hd
      cases hlg : loggerSet s.base with
      | false =>
        have hl := hl.1 hlg
        exact ⟨_, if_neg (by simp), (fun e => by cases e), fun _ e => absurd e ht, fun _ _ e => absurd hl e, fun _ _ _ => ⟨rfl, rfl⟩⟩
      | true =>
        have hl' : ¬ shutDown s.base := fun e => by rw [hl.2 e] at hlg; cases hlg
        have hph : s.base.phase = .notStarted := by unfold loggerSet at hlg; simp at hlg; exact hlg.1
        have hw : wStep s.base (.sinkFatal i (env.report i x)) =
            some { pushTask s.base (.fatal (env.report i x)) with sk := updSink s.base.sk i fun k => { k with blocked := true } } := by
          have hg' : ¬ (s.base.ub = true ∨ s.base.wpc.isDead = true) := by
            rintro (e | e)
            · rw [hu] at e; cases e
            · exact hg (by simp [e])
          have hns : (s.base.sk i).running.any (fun x => !x.isStop) = true := by
            rw [hx.2.1]
            obtain ⟨m, e | e⟩ := hx.2.2.2.2.1 <;> rw [e] <;> rfl
          simp only [wStep, if_neg hg', hx.1, hx.2.2.1, hns, and_self, if_true, hph, DPhase.bgNull, Bool.false_eq_true, if_false]
        rw [if_pos rfl, hw, Option.map_some]
        refine ⟨_, rfl, (fun e => by cases e), fun _ e => absurd e ht, fun _ _ _ => ⟨he, ?_⟩, fun _ _ e => absurd e hl'⟩
        rw [← sub_handed (wRun_append' hb (wRun_one hw)), ← sub_handed hb]
        simp [pushTask, req]

/-- A sink that throws is stuck afterwards. -/
theorem estuck_of_throw {env : TEnv M} {s s' : TState M} {i : Nat} {x : SItem M} (hi : AllInv s.base) (hx : Throwing env s i x) (h : tStep env s (.sinkFin i) = some s') :
    s'.ended = true ∧ s'.base = s.base ∨ s'.ended = false ∧ EStuck i s' ∧ (s'.base.sk i).done = (s.base.sk i).done ∧ env.handled = true ∧ s'.signalled = true := by
  obtain ⟨he, hu, hd, ht⟩ := etr_of_step h
  have hns : x ≠ .stop := by obtain ⟨m, e | e⟩ := hx.2.2.2.2.1 <;> rw [e] <;> simp
  have hrun : ∃ y, (s.base.sk i).running = some y ∧ y ≠ .stop := ⟨x, hx.2.1, hns⟩
  generalize hl : WLabel.sinkFin i = l at ht
  cases ht with
  | plain l b h1 h2 => exact absurd hx ((h2 i hl.symm).2 x)
  | killed => exact Or.inl ⟨rfl, rfl⟩
  | sleep j y _ hh hs => cases hl; exact Or.inr ⟨he, ⟨hx.1, hrun, Or.inr (by simp)⟩, rfl, hh, hs⟩
  | report j y b h1 hh _ _ h2 =>
    cases hl
    right
    have hn := Nat.lt_of_lt_of_le hx.1 (grows_run hi (wRun_one h2)).n
    unfold wStep at h2
    split at h2
    · cases h2
    · simp only at h2
      split at h2
      · split at h2
        · next hbg =>
          exfalso
          have hlg : loggerSet s.base = true := by assumption
          unfold loggerSet at hlg
          simp at hlg
          rw [hlg.1] at hbg
          cases hbg
        · cases h2
          refine ⟨he, ⟨hn, ?_, Or.inl ?_⟩, ?_, hh, rfl⟩ <;> dsimp only [pushTask] <;> rw [updSink_self]
          exact hrun
      · cases h2
  | exits => exact Or.inl ⟨rfl, rfl⟩

/-- C91: the message whose callback throws does not count as processed, and that sink processes nothing any more. -/
theorem C91_stops {env : TEnv M} {ls l : List (WLabel M)} {s s' : TState M} {i : Nat} {x : SItem M} (h : tRun env TState.start ls = some s)
    (hx : Throwing env s i x) (h' : tRun env s (.sinkFin i :: l) = some s') : received (s'.base.sk i) = received (s.base.sk i) := by
  have hi := allInv_run (base_run h)
  rw [tRun] at h'
  obtain ⟨u, hu, h'⟩ := Option.bind_eq_some_iff.1 h'
  unfold received
  rcases estuck_of_throw hi hx hu with ⟨h1, h2⟩ | ⟨_, h2, h3, _⟩
  · cases l with
    | nil => cases h'; rw [h2]
    | cons a l => rw [tRun] at h'; simp [tStep, h1] at h'
  · rw [(estuck_run (allInv_run (base_run (tRun_append' h (tRun_one.2 hu)))) h2 h').2, h3]

/-- C91 fails: if the sink is attached, no client holds it, and the process does not end at once, then it never ends by itself. The worker never ends it, and no later
exception does. -/
theorem C91_hangs {env : TEnv M} {ls l : List (WLabel M)} {s s1 s' : TState M} {i : Nat} {x : SItem M} (h : tRun env TState.start ls = some s)
    (hx : Throwing env s i x) (ha : i ∈ s.base.att) (hh : s.base.wpc ≠ .rmHeld i) (hr : (s.base.sk i).refs = 0) (had : adding s.base.calls i = false)
    (h1 : tStep env s (.sinkFin i) = some s1) (he : s1.ended = false) (hl : .hold i ∉ l) (h' : tRun env s1 l = some s') :
    s'.ended = false ∧ s'.base.wpc ≠ .dead := by
  have hi := allInv_run (base_run h)
  rcases estuck_of_throw hi hx h1 with ⟨h2, _⟩ | ⟨_, h2, h3, hhd, hsg⟩
  · rw [he] at h2; cases h2
  have hb1 := base_run (tRun_append' h (tRun_one.2 h1))
  have hi1 := allInv_run hb1
  have hal := alive_of_owned hi.w.sinks hx.1 (owned_iff.2 (Or.inr (Or.inl ha)))
  have hwd := (etr_of_step h1).2.2.1
  have hex := (linv_alive (hi.w.sinks.loc i) hal).1
  have base : Hangs (s1.base.sk i).blocked i s1.base := by
    have ht := (etr_of_step h1).2.2.2
    generalize hl : WLabel.sinkFin i = l' at ht
    cases ht with
    | plain l b g1 g2 => exact absurd hx ((g2 i hl.symm).2 x)
    | killed => cases he
    | sleep j y => exact ⟨rfl, hex, hx.1, hr, had, Or.inl ⟨ha, hwd, hh⟩⟩
    | report j y b _ _ _ hlg g2 =>
      cases hl
      have hn := Nat.lt_of_lt_of_le hx.1 (grows_run hi (wRun_one g2)).n
      unfold wStep at g2
      split at g2
      · cases g2
      · simp only at g2
        split at g2
        · split at g2
          · next hbg =>
            exfalso
            unfold loggerSet at hlg
            simp at hlg
            rw [hlg.1] at hbg
            cases hbg
          · cases g2
            refine ⟨rfl, ?_, hn, ?_, had, Or.inl ⟨ha, hwd, hh⟩⟩ <;> dsimp only [pushTask] <;> rw [updSink_self]
            · exact hex
            · exact hr
        · cases g2
    | exits => cases he
  have := ehangs_run hhd ⟨hi1, h2, base, hsg, he⟩ hl h'
  refine ⟨this.alive, ?_⟩
  intro hd
  rcases this.hangs.place with x | x | x | ⟨f, x⟩ | x
  · exact x.2.1 hd
  · rw [hd] at x; cases x.1
  · rw [hd] at x; cases x
  · rw [hd] at x; cases x
  · rw [hd] at x; cases x

/-! ### The other sinks -/

/-- The thread of the sink is stuck in the crash handler, or in a fatal event of its own. -/
def stuckSink (s : TState M) (i : Nat) : Prop := (s.base.sk i).blocked = true ∨ s.asleep i = true

/-- All threads have done what they can without new input. -/
def eSettled (env : TEnv M) (s : TState M) : Prop := ∀ l, internal s.base l → tStep env s l = none

/-- C91: while the process lives, and unless the removal of a sink waits for one that has thrown, every other sink gets everything, including the report of the exception. -/
theorem C91_others_partial {env : TEnv M} {ls : List (WLabel M)} {s : TState M} (h : tRun env TState.start ls = some s) (he : s.ended = false)
    (hu : s.base.ub = false) (hd : s.base.wpc ≠ .dead) (hs : eSettled env s)
    (hn : ∀ r ∈ handed 0 0 s.log, (∀ i, r = .detach i → ¬ stuckSink s i) ∧ r ≠ .detachAll) (j : Nat) (hj : j < s.base.n) (hk : ¬ stuckSink s j) :
    received (s.base.sk j) = gets j (handed 0 0 s.log) := by
  have hrun := base_run h
  have hi := allInv_run hrun
  have hst : stuckBut (stuckSink s) s.base := by
    rintro l ⟨h1, h2⟩
    cases hw : wStep s.base l with
    | none => rfl
    | some b =>
      exfalso
      have hnone := hs l h1
      have hg : ¬ ((s.ended || s.base.ub || s.base.wpc.isDead) = true) := by
        rw [he, hu]
        intro e
        apply hd
        cases hw : s.base.wpc <;> rw [hw] at e <;> first | rfl | cases e
      unfold tStep at hnone
      rw [if_neg hg] at hnone
      split at hnone
      · next i =>
        have has : s.asleep i = false := by
          cases e : s.asleep i with
          | false => rfl
          | true => exact absurd rfl (h2 i (Or.inr e))
        rw [has] at hnone
        simp only [Bool.false_eq_true, if_false] at hnone
        split at hnone
        · next x hx =>
          obtain ⟨s', hs', _⟩ := C91_exact h he hu hd ((eThrows_eq has).1 hx)
          have hsx : tStep env s (.sinkFin i) = eAbort env s i x := by
            simp only [tStep, if_neg hg, has, hx, Bool.false_eq_true, if_false]
          rw [hsx, hnone] at hs'
          cases hs'
        · simp [ePlain, hw] at hnone
      · exact h1
      · simp [ePlain, hw] at hnone
  obtain ⟨h1, h2⟩ := quiet_but hi hu hd (fun i e => Or.inl e) hst
  obtain ⟨hq, hrn⟩ := h1 j hj hk
  rcases h2 with h2 | h2 | ⟨i, hki, hw⟩
  · exact C02_complete hrun (Or.inl h2) j hq hrn
  · exact C02_complete hrun (Or.inr (Or.inl h2)) j hq hrn
  · have ht := hi.w.book.task
    have hm : ∀ t, s.base.sub[s.base.completed]? = some t → req t ∈ handed 0 0 s.log := by
      intro t e
      rw [← sub_handed hrun]
      exact List.mem_map.mpr ⟨t, List.mem_of_getElem? e, rfl⟩
    rcases hw with hp | ⟨f, hp⟩
    · rw [hp] at ht
      exact absurd hki ((hn _ (hm _ ht)).1 i rfl)
    · rw [hp] at ht
      cases f with
      | false => exact absurd rfl (hn _ (hm _ ht)).2
      | true =>
        obtain ⟨m, ht⟩ := ht
        have hgot := hi.w.deliver.got j
        have hst : started s.base = s.base.completed + 1 := by unfold started; rw [hp]; rfl
        have hpd : pend j s.base.wpc = [] := by rw [hp]; rfl
        rw [hpd, List.append_nil] at hgot
        rw [received_drained hq hrn, hgot, ← sub_handed hrun, reqs_split s.base (started s.base), gets_final]
        rw [hst, reqs_succ ht]
        exact ⟨.fatal m, by simp [req], rfl⟩

/-! ### What is lost -/

/-- The callback of sink 0 throws for every message, the other callbacks do not throw. -/
def badSink (handled : Bool) : TEnv Nat := { throws := fun i _ _ => i == 0, report := fun _ _ => 100, handled := handled }

/-- Two sinks are added, message 1 is logged and sent to both; sink 0 is about to throw. -/
def twoSinks : List (WLabel Nat) := [.add, .work, .ret 0, .add, .work, .ret 1, .save 1, .work, .work, .work, .work, .sinkPop 0]

/-- C91 fails in three ways. (1) The process hangs for ever: no client has to do anything wrong. (2) With SIGABRT not among the handled signals the process ends and message 1
never reaches sink 1. (3) With default settings, when the callback throws for the fatal message after which the process is to end, the
process ends and neither message 1 nor the fatal message 2 have reached sink 1. -/
theorem C91_negation :
    (∃ s, tRun (badSink true) TState.start (twoSinks ++ [.sinkFin 0]) = some s ∧ handed 0 0 s.log = [.attach 0, .attach 1, .log 1, .fatal 100] ∧
      ∀ l s', .hold 0 ∉ l → tRun (badSink true) s l = some s' → s'.ended = false ∧ s'.base.wpc ≠ .dead) ∧
    (∃ s, tRun (badSink false) TState.start (twoSinks ++ [.sinkFin 0]) = some s ∧ s.ended = true ∧ received (s.base.sk 1) = [] ∧
      gets 1 (handed 0 0 s.log) = [.log 1]) ∧
    (∃ env s, env.handled = true ∧ tRun env TState.start (twoSinks ++ [.sinkFin 0, .fatal 2, .work, .work, .work, .sinkPop 0, .sinkFin 0]) = some s ∧ s.ended = true ∧
      received (s.base.sk 1) = [] ∧ gets 1 (handed 0 0 s.log) = [.log 1, .fatal 2]) := by
  refine ⟨?_, ⟨_, rfl, rfl, rfl, rfl⟩, ⟨{ throws := fun _ _ x => x == .fatal 2, report := fun _ _ => 100, handled := true }, _, rfl, rfl, rfl, rfl, rfl⟩⟩
  obtain ⟨s0, s, h0, h1, hx, ha, hh, hr, had, he, hh'⟩ : ∃ s0 s, tRun (badSink true) TState.start twoSinks = some s0 ∧ tStep (badSink true) s0 (.sinkFin 0) = some s ∧
      Throwing (badSink true) s0 0 (.msg 1) ∧ 0 ∈ s0.base.att ∧ s0.base.wpc ≠ .rmHeld 0 ∧ (s0.base.sk 0).refs = 0 ∧ adding s0.base.calls 0 = false ∧ s.ended = false ∧
      handed 0 0 s.log = [.attach 0, .attach 1, .log 1, .fatal 100] :=
    ⟨_, _, rfl, rfl, ⟨by decide, rfl, rfl, rfl, ⟨1, Or.inl rfl⟩, rfl⟩, by decide, by decide, rfl, rfl, rfl, rfl⟩
  exact ⟨s, tRun_append' h0 (tRun_one.2 h1), hh', fun l s' hl h' => C91_hangs h0 hx ha hh hr had h1 he hl h'⟩

/-! ### The hypotheses can be met -/

/-- `C91_exact`, a later exception: both sinks throw. -/
example : ∃ (env : TEnv Nat) (s : TState Nat), env.handled = true ∧ tRun env TState.start (twoSinks ++ [.sinkFin 0, .sinkPop 1]) = some s ∧
    s.ended = false ∧ Throwing env s 1 (.msg 1) ∧ Threw env (twoSinks ++ [.sinkFin 0, .sinkPop 1]) := by
  refine ⟨{ throws := fun _ _ _ => true, report := fun _ _ => 100, handled := true }, _, rfl, rfl, rfl, ⟨by decide, rfl, rfl, rfl, ⟨1, Or.inl rfl⟩, rfl⟩, ?_⟩
  exact ⟨twoSinks, 0, [.sinkPop 1], _, .msg 1, rfl, rfl, ⟨by decide, rfl, rfl, rfl, ⟨1, Or.inl rfl⟩, rfl⟩⟩

/-- `C91_others_partial`: sink 0 throws for message 1, sink 1 gets message 1 and the report. -/
def reported : List (WLabel Nat) := twoSinks ++ [.sinkFin 0, .sinkPop 1, .sinkFin 1, .work, .work, .work, .work, .work, .sinkPop 1, .sinkFin 1]

example : ∃ s, tRun (badSink true) TState.start reported = some s ∧
    s.ended = false ∧ s.base.ub = false ∧ s.base.wpc = .clrWait 0 true ∧ eSettled (badSink true) s ∧ stuckSink s 0 ∧ ¬ stuckSink s 1 ∧ received (s.base.sk 1) = [.log 1, .fatal 100] := by
  refine ⟨_, rfl, rfl, rfl, rfl, ?_, Or.inl rfl, (fun h => by cases h with | inl h => cases h | inr h => cases h), rfl⟩
  intro l hl
  cases l with
  | ret k => rcases k with _ | _ | k <;> rfl
  | reap i => rcases i with _ | _ | i <;> rfl
  | dtor => exact absurd rfl hl
  | work => rfl
  | sinkPop i => rcases i with _ | _ | i <;> rfl
  | sinkFin i => rcases i with _ | _ | i <;> rfl
  | _ => cases hl

end G3.Props
