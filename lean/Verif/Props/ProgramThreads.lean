import Verif.Props.Program
import Verif.Spec.ProgramThreads
/-
C84: programs with LOG statements on any number of threads, from the statements to the text in the file.
-/
namespace G3.Props
open G3 G3.Spec

/-! ### Lists with threads -/

theorem ofThread_append {α : Type} (t : Nat) (a b : List (Nat × α)) : ofThread t (a ++ b) = ofThread t a ++ ofThread t b := by
  simp [ofThread]

theorem ofThread_one {α : Type} (t u : Nat) (x : α) : ofThread t [(u, x)] = if u = t then [x] else [] := by
  by_cases h : u = t <;> simp [ofThread, h]

/-- The uses of the level registry. -/
def uses (l : List (Nat × PStep)) : List LevelOp := l.map fun x => progLevel x.2

theorem executedBy_snoc (l : List (Nat × PStep)) (t : Nat) (x : PStep) : ∀ σ : SState, executedBy σ (l ++ [(t, x)]) = executedBy σ l ++
    (match x with | .log s => if (sRun σ (uses l)).2 s.level.value = some true then [(t, s)] else [] | .levels _ => []) := by
  induction l with
  | nil => intro σ; cases x <;> simp [executedBy, uses, sRun]
  | cons a l ih =>
    intro σ
    obtain ⟨u, a⟩ := a
    cases a with
    | levels o => exact ih (sStep σ o)
    | log s =>
      have e : (sRun σ (uses ((u, .log s) :: l))).2 = (sRun σ (uses l)).2 := rfl
      rw [e, List.cons_append, executedBy, executedBy]
      split
      · rw [ih σ]; rfl
      · exact ih σ

/-! ### The threads -/

/-- Invariant: what the threads have done and have before them. -/
structure PInv (progs : Nat → List PStep) (s : PState) : Prop where
  trace : ∀ t, ofThread t s.trace ++ (s.th t).todo = progs t
  reg : s.reg = (levelRun defaultLevels (uses s.trace)).2
  acc : Documented sInit (uses s.trace) → ∀ t, ofThread t (executedBy sInit s.trace) = ofThread t s.acc ++ (s.th t).held.toList

theorem pInv_start (w : WState LogMessage) (progs : Nat → List PStep) : PInv progs (PState.start w progs) :=
  ⟨fun _ => rfl, rfl, fun _ _ => rfl⟩

theorem handOver_eq {full : Bool} {size : Nat} (hs : 1 ≤ size) {s s' : PState} {t : Nat} {st : LogStmt} (h : handOver full size s t st = some s') :
    st.level.value < 1000 ∧ ∃ w, wStep s.worker (.save (stmtMsg full size st)) = some w ∧
      s' = { s with worker := w, th := setThread s.th t ⟨(s.th t).todo, none⟩, acc := s.acc ++ [(t, st)] } := by
  unfold handOver at h
  rw [stmt_op full size hs st] at h
  by_cases hl : 1000 ≤ st.level.value
  · rw [if_pos hl] at h; cases h
  · rw [if_neg hl] at h
    simp only [Option.map_eq_some_iff] at h
    obtain ⟨w, h1, h2⟩ := h
    exact ⟨by omega, w, h1, h2.symm⟩

theorem uses_snoc (l : List (Nat × PStep)) (t : Nat) (x : PStep) : uses (l ++ [(t, x)]) = uses l ++ [progLevel x] := by
  simp [uses]

theorem pInv_step {full : Bool} {size : Nat} (hs : 1 ≤ size) {progs : Nat → List PStep} {s s' : PState} {l : PLabel} (h : PInv progs s)
    (hst : ptStep full size s l = some s') : PInv progs s' := by
  obtain ⟨h1, h2, h3⟩ := h
  cases l with
  | worker l =>
    simp only [ptStep] at hst
    split at hst
    · cases hst
    · obtain ⟨w, _, rfl⟩ := Option.map_eq_some_iff.1 hst
      exact ⟨h1, h2, h3⟩
  | thread t =>
    simp only [ptStep] at hst
    cases hh : (s.th t).held with
    | some st =>
      rw [hh] at hst
      obtain ⟨_, w, _, rfl⟩ := handOver_eq hs hst
      refine ⟨?_, h2, ?_⟩
      · intro u
        simp only [setThread]
        split
        · next e => subst e; exact h1 u
        · exact h1 u
      · intro hd u
        have := h3 hd u
        simp only [setThread, ofThread_append, ofThread_one]
        by_cases e : u = t
        · subst e; rw [hh] at this; simpa using this
        · simpa [e, Ne.symm e] using this
    | none =>
      rw [hh] at hst
      simp only [nextUse] at hst
      cases ht : (s.th t).todo with
      | nil => rw [ht] at hst; cases hst
      | cons x p =>
        rw [ht] at hst
        have htr : ∀ (y : PThread), y.todo = p → ∀ u, ofThread u (s.trace ++ [(t, x)]) ++ (setThread s.th t y u).todo = progs u := by
          intro y hy u
          rw [ofThread_append, ofThread_one, ← h1 u]
          simp only [setThread]
          by_cases e : u = t
          · subst e; simp [hy, ht]
          · simp [e, Ne.symm e]
        cases x with
        | levels o =>
          cases hst
          refine ⟨htr _ rfl, ?_, ?_⟩
          · show (levelStep s.reg o).2 = _
            rw [uses_snoc, levelRun_snoc, ← h2]; rfl
          · intro hd u
            have hd' : Documented sInit (uses s.trace) := by
              have hd : Documented sInit (uses (s.trace ++ [(t, .levels o)])) := hd
              rw [uses_snoc, documented_append] at hd; exact hd.1
            have := h3 hd' u
            show ofThread u (executedBy sInit (s.trace ++ [(t, .levels o)])) = _
            rw [executedBy_snoc, List.append_nil, this]
            simp only [setThread]
            by_cases e : u = t
            · subst e; simp [hh]
            · simp [e]
        | log st =>
          cases hst
          refine ⟨htr _ rfl, ?_, ?_⟩
          · show (logLevel st.level s.reg).2 = _
            rw [uses_snoc, levelRun_snoc, ← h2]; rfl
          · intro hd u
            have hd' : Documented sInit (uses s.trace) := by
              have hd : Documented sInit (uses (s.trace ++ [(t, .log st)])) := hd
              rw [uses_snoc, documented_append] at hd; exact hd.1
            have hon := ((C21_registry_refines_map (uses s.trace) hd').2 st.level).2
            rw [← h2] at hon
            have := h3 hd' u
            show ofThread u (executedBy sInit (s.trace ++ [(t, .log st)])) = _
            rw [executedBy_snoc, ofThread_append, this, hon]
            simp only [setThread, decide_eq_true_eq]
            by_cases e : u = t
            · subst e
              by_cases hx : (sRun sInit (uses s.trace)).2 st.level.value = some true
              · simp [hh, hx, ofThread_one]
              · simp [hh, hx, ofThread]
            · by_cases hx : (sRun sInit (uses s.trace)).2 st.level.value = some true
              · simp [hx, ofThread_one, e, Ne.symm e]
              · simp [hx, ofThread, e]

theorem pInv_run {full : Bool} {size : Nat} (hs : 1 ≤ size) {progs : Nat → List PStep} {ls : List PLabel} :
    ∀ {s s' : PState}, PInv progs s → ptRun full size s ls = some s' → PInv progs s' := by
  induction ls with
  | nil => intro s s' h hr; cases hr; exact h
  | cons l ls ih =>
    intro s s' h hr
    obtain ⟨u, hu, hr⟩ := Option.bind_eq_some_iff.1 hr
    exact ih (pInv_step hs h hu) hr

/-! ### The worker -/

/-- The message of a logging step. -/
def saveOf : WLabel LogMessage → Option LogMessage
  | .save m => some m
  | _ => none

/-- What a schedule does to the worker. -/
theorem worker_run {full : Bool} {size : Nat} (hs : 1 ≤ size) {ls : List PLabel} : ∀ {s s' : PState}, ptRun full size s ls = some s' →
    ∃ wls new, wRun s.worker wls = some s'.worker ∧ s'.acc = s.acc ++ new ∧ wls.filterMap saveOf = new.map (fun x => stmtMsg full size x.2) ∧
      (∀ x ∈ wls, (∃ m, x = .save m) ∨ .worker x ∈ ls) ∧ ∀ x ∈ new, x.2.level.value < 1000 := by
  induction ls with
  | nil => intro s s' hr; cases hr; exact ⟨[], [], rfl, by simp, rfl, by simp, by simp⟩
  | cons l ls ih =>
    intro s s' hr
    obtain ⟨u, hu, hr⟩ := Option.bind_eq_some_iff.1 hr
    obtain ⟨wls, new, a, b, c, d, lv⟩ := ih hr
    have keep : ∀ x ∈ wls, (∃ m, x = .save m) ∨ PLabel.worker x ∈ l :: ls := fun x hx => (d x hx).imp id (List.mem_cons_of_mem _)
    have same : u.worker = s.worker → u.acc = s.acc → ∃ wls new, wRun s.worker wls = some s'.worker ∧ s'.acc = s.acc ++ new ∧
        wls.filterMap saveOf = new.map (fun x => stmtMsg full size x.2) ∧ (∀ x ∈ wls, (∃ m, x = .save m) ∨ PLabel.worker x ∈ l :: ls) ∧
        ∀ x ∈ new, x.2.level.value < 1000 := by
      intro e1 e2
      exact ⟨wls, new, by rw [← e1]; exact a, by rw [← e2]; exact b, c, keep, lv⟩
    cases l with
    | worker x =>
      simp only [ptStep] at hu
      split at hu
      · cases hu
      · next hx =>
        obtain ⟨w, hw, rfl⟩ := Option.map_eq_some_iff.1 hu
        refine ⟨x :: wls, new, by rw [wRun, hw]; exact a, b, ?_, ?_, lv⟩
        · rw [List.filterMap_cons_none, c]
          cases x <;> first | rfl | exact absurd rfl hx
        · intro y hy
          rcases List.mem_cons.1 hy with rfl | hy
          · exact Or.inr List.mem_cons_self
          · exact keep y hy
    | thread t =>
      simp only [ptStep] at hu
      cases hh : (s.th t).held with
      | some st =>
        rw [hh] at hu
        obtain ⟨hlv, w, hw, rfl⟩ := handOver_eq hs hu
        refine ⟨.save (stmtMsg full size st) :: wls, (t, st) :: new, by rw [wRun, hw]; exact a, ?_, ?_, ?_, ?_⟩
        · rw [b]; simp
        · show stmtMsg full size st :: wls.filterMap saveOf = _
          rw [c]; rfl
        · intro y hy
          rcases List.mem_cons.1 hy with rfl | hy
          · exact Or.inl ⟨_, rfl⟩
          · exact keep y hy
        · intro y hy
          rcases List.mem_cons.1 hy with rfl | hy
          · exact hlv
          · exact lv y hy
      | none =>
        rw [hh] at hu
        simp only [nextUse] at hu
        split at hu
        · cases hu
        · cases hu; exact same rfl rfl
        · cases hu; exact same rfl rfl

/-- Steps of the worker thread, the sink threads and returning calls. -/
def background {M : Type} : WLabel M → Prop
  | .ret _ => True
  | .work => True
  | .sinkPop _ => True
  | .sinkFin _ => True
  | _ => False

theorem handed_background {n d : Nat} (hd : d < 2) (r : List (WLabel LogMessage)) : ∀ wls : List (WLabel LogMessage),
    (∀ x ∈ wls, (∃ m, x = .save m) ∨ background x) → handed n d (wls ++ r) = (wls.filterMap saveOf).map .log ++ handed n d r
  | [], _ => rfl
  | x :: wls, h => by
    have ih := handed_background (n := n) hd r wls (fun y hy => h y (List.mem_cons_of_mem _ hy))
    rw [List.cons_append]
    rcases h x List.mem_cons_self with ⟨m, rfl⟩ | hx
    · rw [handed, if_pos hd, ih]; rfl
    · cases x <;> first | exact hx.elim | (rw [List.filterMap_cons_none rfl, ← ih]; rfl)

theorem handed_end (n : Nat) : ∀ (wls : List (WLabel LogMessage)) (d : Nat), 1 ≤ d → (∀ x ∈ wls, x = .dtor ∨ background x) →
    ∀ r ∈ handed n d wls, r = .close
  | [], _, _, _ => by intro r hr; cases hr
  | x :: wls, d, hd, h => by
    have ih := fun e he => handed_end n wls e he (fun y hy => h y (List.mem_cons_of_mem _ hy))
    intro r hr
    rcases h x List.mem_cons_self with rfl | hx
    · rcases d with _ | _ | d
      · omega
      · have hr : r ∈ Req.close :: handed n 2 wls := hr
        rcases List.mem_cons.1 hr with rfl | hr
        · rfl
        · exact ih 2 (by omega) r hr
      · exact ih (d + 2) (by omega) r hr
    · cases x <;> first | exact hx.elim | exact ih d hd r hr

/-- No client has anything to do with sink 0. -/
structure NoClient {M : Type} (w : WState M) : Prop where
  refs : (w.sk 0).refs = 0
  reaping : (w.sk 0).reaping = false
  calls : ∀ c ∈ w.calls, c.returned = true

theorem noClient_step {M : Type} {w w' : WState M} {x : WLabel M} (h : NoClient w) (hx : (∃ m, x = .save m) ∨ (∃ m, x = .fatal m) ∨ x = .dtor ∨ background x)
    (hs : wStep w x = some w') : NoClient w' := by
  obtain ⟨h1, h2, h3⟩ := h
  have same : ∀ (w' : WState M), w'.sk = w.sk → w'.calls = w.calls → NoClient w' := by
    intro w' e1 e2
    exact ⟨by rw [e1]; exact h1, by rw [e1]; exact h2, by rw [e2]; exact h3⟩
  unfold wStep at hs
  split at hs
  · cases hs
  rcases hx with ⟨m, rfl⟩ | ⟨m, rfl⟩ | rfl | hx
  · simp only at hs
    split at hs <;> cases hs <;> exact same _ rfl rfl
  · simp only at hs
    split at hs <;> cases hs <;> exact same _ rfl rfl
  · simp only [dtorStep] at hs
    (repeat' (split at hs)) <;> cases hs <;> first | exact same _ rfl rfl | exact ⟨(by simp only [updSink]; split <;> simp_all [SinkSt.stop, SinkSt.push]), (by simp only [updSink]; split <;> simp_all [SinkSt.stop, SinkSt.push]), h3⟩
  · cases x <;> first | exact hx.elim | skip
    · simp only [retStep] at hs
      split at hs
      · cases hs
      · next c hc =>
        have := h3 c (List.mem_of_getElem? hc)
        simp [this] at hs
    · simp only [workStep, takeTask] at hs
      (repeat' (split at hs)) <;> cases hs <;> first | exact same _ rfl rfl | exact ⟨(by simp only [updSink]; split <;> simp_all [SinkSt.stop, SinkSt.push]), (by simp only [updSink]; split <;> simp_all [SinkSt.stop, SinkSt.push]), h3⟩
    · simp only [sinkPop] at hs
      (repeat' (split at hs)) <;> cases hs <;> first | exact same _ rfl rfl | exact ⟨(by simp only [updSink]; split <;> simp_all [SinkSt.stop, SinkSt.push]), (by simp only [updSink]; split <;> simp_all [SinkSt.stop, SinkSt.push]), h3⟩
    · simp only [sinkFin] at hs
      (repeat' (split at hs)) <;> cases hs <;> first | exact same _ rfl rfl | exact ⟨(by simp only [updSink]; split <;> simp_all [SinkSt.stop, SinkSt.push]), (by simp only [updSink]; split <;> simp_all [SinkSt.stop, SinkSt.push]), h3⟩

theorem noClient_run {M : Type} : ∀ (ls : List (WLabel M)) {w w' : WState M}, NoClient w → (∀ x ∈ ls, (∃ m, x = .save m) ∨ (∃ m, x = .fatal m) ∨ x = .dtor ∨ background x) →
    wRun w ls = some w' → NoClient w'
  | [], _, _, h, _, hr => by cases hr; exact h
  | x :: ls, w, w', h, hx, hr => by
    obtain ⟨u, hu, hr⟩ := Option.bind_eq_some_iff.1 hr
    exact noClient_run ls (noClient_step h (hx x List.mem_cons_self) hu) (fun y hy => hx y (List.mem_cons_of_mem _ hy)) hr

/-! ### From the statements to the file -/

/-- C84: any number of threads run LOG statements and change levels (documented use: LOG only with registered levels) while logging is
initialised with a worker that has a file sink; when all have come to their ends the worker is destroyed. For every schedule the file then
consists of the header, the lines of the executed statements and the line about the shutdown. `order` are these statements:
those of every thread in the order of its program, and exactly those whose level was on when the thread reached them. No line is
lost, doubled or mixed with another. -/
theorem C84_threads_to_file (E : Env) (full : Bool) (size : Nat) (hsz : 1 ≤ size) (progs : Nat → List PStep)
    {pre : List (WLabel LogMessage)} {w0 : WState LogMessage} (h0 : wRun WState.start pre = some w0) (hpre : handed 0 0 pre = [.attach 0])
    (hn0 : 0 < w0.n) (hc0 : NoClient w0) (hph : w0.phase = .notStarted)
    {ls : List PLabel} {s : PState} (hr : ptRun full size (PState.start w0 progs) ls = some s) (hbg : ∀ x, .worker x ∈ ls → background x)
    (hall : ∀ t, (s.th t).todo = [] ∧ (s.th t).held = none) (hd : Documented sInit (uses s.trace)) (hne : s.acc ≠ [])
    {dls : List (WLabel LogMessage)} {w : WState LogMessage} (hw : wRun s.worker (.dtor :: dls) = some w) (hdls : ∀ x ∈ dls, x = .dtor ∨ background x)
    (hp : w.phase = .returned) {k : FileSink} {fs : FS} {p path : Str} {N : Nat} (hN : 1 ≤ N) (h : Constructed k fs p path N)
    {ops : List SinkOp} (ho : Performs (w.sk 0) ops) (time : Str) :
    ∃ trace order k' fs' outs t0, (∀ t, ofThread t trace = progs t) ∧ (∀ t, ofThread t order = ofThread t (executedBy sInit trace)) ∧
      sinkRun E k fs ops = .ok (k', fs', outs) ∧
      k'.destroy fs' time path = some ("\t\tg3log created log at: ".toList ++ t0 ++ "\n".toList ++ formatHint ++
        (order.map fun x => stmtLine E full size x.2).flatten ++ "g3log g3FileSink shutdown at: ".toList ++ time ++ "\n".toList) := by
  have hi := pInv_run hsz (pInv_start w0 progs) hr
  obtain ⟨wls, new, a, b, c, d, lv⟩ := worker_run hsz hr
  have hb : s.acc = new := by rw [b]; rfl
  replace a : wRun w0 wls = some s.worker := a
  subst hb
  have hwls : ∀ x ∈ wls, (∃ m, x = .save m) ∨ background x := fun x hx => (d x hx).imp id (hbg x)
  have hrun := wRun_append' h0 (wRun_append' a hw)
  have hh : handed 0 0 (pre ++ (wls ++ .dtor :: dls)) =
      .attach 0 :: (s.acc.map fun x => stmtMsg full size x.2).map .log ++ .detachAll :: handed w0.n 1 dls := by
    rw [← sub_handed hrun, handed_run _ _ _ (wRun_append' a hw), sub_handed h0, hpre, hph]
    show [Req.attach 0] ++ handed w0.n 0 (wls ++ .dtor :: dls) = _
    rw [handed_background (by omega) _ wls hwls, c]
    rfl
  have hcl : NoClient w := noClient_run (wls ++ .dtor :: dls) hc0 (by
    intro x hx
    rcases List.mem_append.1 hx with hx | hx
    · exact (hwls x hx).imp id (fun h => Or.inr (Or.inr h))
    · rcases List.mem_cons.1 hx with rfl | hx
      · exact Or.inr (Or.inr (Or.inl rfl))
      · exact Or.inr (Or.inr (hdls x hx))) (wRun_append' a hw)
  have hadd : adding w.calls 0 = false := by
    unfold adding
    rw [List.any_eq_false]
    intro c hc
    simp [hcl.calls c hc]
  have hn : 0 < w.n := Nat.lt_of_lt_of_le hn0 (grows_run (allInv_run h0) (wRun_append' a hw)).n
  obtain ⟨k', fs', outs, t0, h1, h2⟩ := C51_program hrun hp hh
    (by intro hm; have := handed_end w0.n dls 1 (Nat.le_refl _) hdls _ hm; cases this) (by simpa using hne) hn
    (unused_of hcl.refs hadd hcl.reaping) E hN h ho time
  refine ⟨s.trace, s.acc, k', fs', outs, t0, ?_, ?_, h1, ?_⟩
  · intro t
    have := hi.trace t
    rw [(hall t).1, List.append_nil] at this
    exact this
  · intro t
    have := hi.acc hd t
    rw [(hall t).2] at this
    simpa using this.symm
  · rw [h2, List.map_map]
    congr 6
    apply List.map_congr_left
    intro x hx
    exact stmt_toString E full size x.2 (lv x hx)

/-- What a thread has handed over at any moment: its executed statements in order, except perhaps the one it is in. -/
theorem C84_prefix (full : Bool) (size : Nat) (hsz : 1 ≤ size) (progs : Nat → List PStep) {w0 : WState LogMessage} {ls : List PLabel} {s : PState}
    (hr : ptRun full size (PState.start w0 progs) ls = some s) (hd : Documented sInit (uses s.trace)) (t : Nat) :
    ∃ rest, ofThread t s.trace ++ rest = progs t ∧ ofThread t (executedBy sInit s.trace) = ofThread t s.acc ++ (s.th t).held.toList := by
  have hi := pInv_run hsz (pInv_start w0 progs) hr
  exact ⟨_, hi.trace t, hi.acc hd t⟩

theorem executedBy_all (σ : SState) : ∀ l : List (Nat × PStep), (∀ x ∈ l, ∃ st, x.2 = .log st ∧ σ st.level.value = some true) →
    ∀ t, ofThread t (executedBy σ l) = statements (ofThread t l)
  | [], _, _ => rfl
  | (u, x) :: l, h, t => by
    obtain ⟨st, rfl, hon⟩ := h _ List.mem_cons_self
    have ih := executedBy_all σ l (fun y hy => h y (List.mem_cons_of_mem _ hy)) t
    rw [executedBy, if_pos hon]
    have e1 : ofThread t ((u, st) :: executedBy σ l) = (if u = t then [st] else []) ++ ofThread t (executedBy σ l) := by
      rw [← ofThread_one, ← ofThread_append]; rfl
    have e2 : ofThread t ((u, PStep.log st) :: l) = (if u = t then [PStep.log st] else []) ++ ofThread t l := by
      rw [← ofThread_one, ← ofThread_append]; rfl
    rw [e1, e2, ih]
    by_cases e : u = t <;> simp [e, statements]

theorem documented_all (σ : SState) : ∀ l : List (Nat × PStep), (∀ x ∈ l, ∃ st, x.2 = .log st ∧ σ st.level.value = some true) → Documented σ (uses l)
  | [], _ => trivial
  | (u, x) :: l, h => by
    obtain ⟨st, rfl, hon⟩ := h _ List.mem_cons_self
    refine ⟨?_, documented_all σ l (fun y hy => h y (List.mem_cons_of_mem _ hy))⟩
    intro l' e
    cases e
    rw [hon]; simp

theorem mem_ofThread {α : Type} {l : List (Nat × α)} {x : Nat × α} (h : x ∈ l) : x.2 ∈ ofThread x.1 l :=
  List.mem_map.2 ⟨x, List.mem_filter.2 ⟨h, by simp⟩, rfl⟩

/-- C84, programs that only log, at levels that are on from the start: when all threads have come to their ends, every statement of every
thread has been handed over once, in the order of its thread. (So `order` in `C84_threads_to_file` has them all.) -/
theorem C84_all (full : Bool) (size : Nat) (hsz : 1 ≤ size) (progs : Nat → List PStep)
    (hon : ∀ t, ∀ x ∈ progs t, ∃ st, x = .log st ∧ sInit st.level.value = some true) {w0 : WState LogMessage} {ls : List PLabel} {s : PState}
    (hr : ptRun full size (PState.start w0 progs) ls = some s) (hall : ∀ t, (s.th t).todo = [] ∧ (s.th t).held = none) :
    Documented sInit (uses s.trace) ∧ ∀ t, ofThread t s.acc = statements (progs t) := by
  have hi := pInv_run hsz (pInv_start w0 progs) hr
  have hm : ∀ x ∈ s.trace, ∃ st, x.2 = .log st ∧ sInit st.level.value = some true := by
    intro x hx
    refine hon x.1 x.2 ?_
    rw [← hi.trace x.1]
    exact List.mem_append_left _ (mem_ofThread hx)
  have hd := documented_all sInit s.trace hm
  refine ⟨hd, fun t => ?_⟩
  have h1 := hi.acc hd t
  rw [(hall t).2] at h1
  have h2 := hi.trace t
  rw [(hall t).1, List.append_nil] at h2
  rw [executedBy_all sInit s.trace hm t, h2] at h1
  simpa using h1.symm

/-- An INFO statement. -/
def infoStmt (n : Int) : LogStmt := ⟨"a.cpp".toList, n, "f".toList, INFO, [], 6, [], 0, 1, [.stream "x".toList]⟩

/-- C84, what is not promised: a statement that has passed its level test is logged even though another thread has switched the level off since:
thread 1 has returned from the call that disables INFO before thread 0 hands its INFO message over. -/
theorem C84_late : ∃ (progs : Nat → List PStep) (s1 s2 : PState),
    ptRun false 2048 (PState.start WState.start progs) [.thread 0, .thread 1] = some s1 ∧ (s1.th 1).todo = [] ∧ s1.acc = [] ∧
    getStatus INFO s1.reg = .disabled ∧ ptRun false 2048 s1 [.thread 0] = some s2 ∧ s2.acc = [(0, infoStmt 1)] := by
  let progs : Nat → List PStep := fun t => if t = 0 then [.log (infoStmt 1)] else [.levels (.disable INFO)]
  have h : ∃ s1 s2, ptRun false 2048 (PState.start WState.start progs) [.thread 0, .thread 1] = some s1 ∧ ptRun false 2048 s1 [.thread 0] = some s2 ∧
      (s1.th 1).todo = [] ∧ s1.acc = [] ∧ getStatus INFO s1.reg = .disabled ∧ s2.acc = [(0, infoStmt 1)] :=
    ⟨_, _, rfl, rfl, rfl, rfl, by decide +kernel, rfl⟩
  obtain ⟨s1, s2, a, b, c, d, e, f⟩ := h
  exact ⟨progs, s1, s2, a, c, d, e, b, f⟩

/-- Two threads with one statement each; thread 1 is faster. -/
example : ∃ w0 s w, wRun (WState.start : WState LogMessage) [.add, .work, .ret 0] = some w0 ∧ handed 0 0 ([.add, .work, .ret 0] : List (WLabel LogMessage)) = [.attach 0] ∧
    0 < w0.n ∧ NoClient w0 ∧ w0.phase = .notStarted ∧
    ptRun false 2048 (PState.start w0 fun t => if t < 2 then [.log (infoStmt t)] else [])
      [.thread 0, .thread 1, .thread 1, .worker .work, .worker .work, .thread 0, .worker .work] = some s ∧
    (∀ t, (s.th t).todo = [] ∧ (s.th t).held = none) ∧ s.acc = [(1, infoStmt 1), (0, infoStmt 0)] ∧
    wRun s.worker [.dtor, .work, .work, .work, .work, .work, .sinkPop 0, .sinkFin 0, .sinkPop 0, .sinkFin 0, .sinkPop 0, .sinkFin 0, .work, .work, .dtor, .work,
      .dtor, .dtor] = some w ∧ w.phase = .returned := by
  refine ⟨_, _, _, rfl, rfl, Nat.zero_lt_one, ⟨rfl, rfl, by intro c hc; rcases List.mem_singleton.1 hc with rfl; rfl⟩, rfl, rfl, ?_, rfl, rfl, rfl⟩
  intro t
  rcases t with _ | _ | t <;> exact ⟨rfl, rfl⟩

end G3.Props
