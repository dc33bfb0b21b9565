import Verif.Proofs.ProgramFatal
import Mathlib.Tactic.ByContra
/-
C92: programs on any number of threads with a fatal statement: the file at the end, and when the end is premature.
-/
namespace G3.Props
open G3 G3.Spec

/-- The steps of the worker as far as they belong to threads of the library, calls that return, and hand-overs. -/
def plainLabel (x : WLabel (LogMessage × Int)) : Prop := (∃ m, x = .save m) ∨ (∃ m, x = .fatal m) ∨ background x

theorem phase_step {w w' : WState (LogMessage × Int)} {x : WLabel (LogMessage × Int)} (hx : plainLabel x) (h : wStep w x = some w')
    (hp : w.phase = .notStarted) : w'.phase = .notStarted := by
  unfold wStep at h
  split at h
  · cases h
  rcases hx with ⟨m, rfl⟩ | ⟨m, rfl⟩ | hx
  · simp only [hp, DPhase.bgNull] at h; cases h; exact hp
  · simp only [hp, DPhase.bgNull] at h; cases h; exact hp
  · cases x <;> first | exact hx.elim | skip
    · simp only [retStep] at h
      (repeat' (split at h)) <;> cases h <;> first | exact hp | (unfold clientDrop; repeat' split) <;> exact hp
    · simp only [workStep, takeTask] at h
      (repeat' (split at h)) <;> cases h <;> exact hp
    · simp only [sinkPop] at h
      (repeat' (split at h)) <;> cases h <;> exact hp
    · simp only [sinkFin] at h
      (repeat' (split at h)) <;> cases h <;> exact hp

theorem sub_background {w w' : WState (LogMessage × Int)} {x : WLabel (LogMessage × Int)} (hx : background x) (h : wStep w x = some w') : w'.sub = w.sub := by
  unfold wStep at h
  split at h
  · cases h
  cases x <;> first | exact hx.elim | skip
  · simp only [retStep] at h
    (repeat' (split at h)) <;> cases h <;> first | rfl | (unfold clientDrop; repeat' split) <;> rfl
  · simp only [workStep, takeTask] at h
    (repeat' (split at h)) <;> cases h <;> rfl
  · simp only [sinkPop] at h
    (repeat' (split at h)) <;> cases h <;> rfl
  · simp only [sinkFin] at h
    (repeat' (split at h)) <;> cases h <;> rfl

theorem sub_save {w w' : WState (LogMessage × Int)} {m : LogMessage × Int} (h : wStep w (.save m) = some w') (hp : w.phase = .notStarted) :
    w'.sub = w.sub ++ [.save m] := by
  unfold wStep at h
  split at h
  · cases h
  · simp only [hp, DPhase.bgNull] at h; cases h; rfl

theorem sub_fatal {w w' : WState (LogMessage × Int)} {m : LogMessage × Int} (h : wStep w (.fatal m) = some w') (hp : w.phase = .notStarted) :
    w'.sub = w.sub ++ [.fatal m] := by
  unfold wStep at h
  split at h
  · cases h
  · simp only [hp, DPhase.bgNull] at h; cases h; rfl

/-- The worker before the threads begin: it has one sink, and no client uses it. -/
structure Ready (pre : List (WLabel (LogMessage × Int))) (w0 : WState (LogMessage × Int)) : Prop where
  run : wRun WState.start pre = some w0
  handed : handed 0 0 pre = [.attach 0]
  n : 0 < w0.n
  clients : NoClient w0
  phase : w0.phase = .notStarted
  ub : w0.ub = false
  blocked : ∀ i, (w0.sk i).blocked = false

/-- The worker and the statements. -/
structure QwInv (full : Bool) (size : Nat) (w0 : WState (LogMessage × Int)) (s : QfState) : Prop where
  run : ∃ wls, wRun w0 wls = some s.worker ∧ ∀ x ∈ wls, plainLabel x
  phase : s.worker.phase = .notStarted
  sub : s.fat = [] → s.worker.sub = w0.sub ++ s.acc.map fun x => .save (stmtMsg full size x.2, 0)
  acc : s.fat = [] → Documented sInit (uses s.trace) → ∀ t, ofThread t (executedBy sInit s.trace) = ofThread t s.acc ++ (inStmt (s.th t).pc).toList
  ended : s.fat = [] → s.ended = none
  low : ∀ x ∈ s.acc, x.2.level.value < 1000

theorem qwInv_start (full : Bool) (size : Nat) {w0 : WState (LogMessage × Int)} (hp : w0.phase = .notStarted) (progs : Nat → List PStep) :
    QwInv full size w0 (QfState.start w0 progs) :=
  ⟨⟨[], rfl, by simp⟩, hp, fun _ => (List.append_nil _).symm, fun _ _ _ => rfl, fun _ => rfl, by intro x hx; cases hx⟩

/-- Nothing fatal has been handed over: the logger is there. -/
theorem logger_there {pre : List (WLabel (LogMessage × Int))} {w0 : WState (LogMessage × Int)} (h0 : Ready pre w0) {full : Bool} {size : Nat} {s : QfState}
    (hi : QwInv full size w0 s) (hf : s.fat = []) : loggerSet s.worker = true ∧ s.worker.wpc ≠ .dead := by
  obtain ⟨wls, hw, _⟩ := hi.run
  have ha := allInv_run (wRun_append' h0.run hw)
  have hno : ∀ m, .fatal m ∉ s.worker.sub := by
    intro m hm
    rw [hi.sub hf] at hm
    rcases List.mem_append.1 hm with hm | hm
    · have : req (.fatal m) ∈ w0.sub.map req := List.mem_map_of_mem hm
      rw [sub_handed h0.run, h0.handed] at this
      simp [req] at this
    · obtain ⟨x, _, e⟩ := List.mem_map.1 hm
      cases e
  have ht := ha.w.book.task
  have hmem : ∀ m, s.worker.sub[s.worker.completed]? ≠ some (.fatal m) := fun m e => hno m (List.mem_of_getElem? e)
  constructor
  · unfold loggerSet
    rw [hi.phase]
    cases hp : s.worker.wpc with
    | sending x r =>
      rw [hp] at ht
      cases x with
      | fatal m => exact absurd ht (hmem m)
      | _ => rfl
    | clearing b =>
      rw [hp] at ht
      cases b with
      | true => obtain ⟨m, hm⟩ := ht; exact absurd hm (hmem m)
      | false => rfl
    | clrWait i b =>
      rw [hp] at ht
      cases b with
      | true => obtain ⟨m, hm⟩ := ht; exact absurd hm (hmem m)
      | false => rfl
    | _ => rfl
  · intro hp
    rw [hp] at ht
    obtain ⟨m, hm⟩ := ht
    exact hmem m hm

theorem qwInv_step {pre : List (WLabel (LogMessage × Int))} {w0 : WState (LogMessage × Int)} (h0 : Ready pre w0) {full : Bool} {size : Nat} {progs : Nat → List PStep}
    {s s' : QfState} {l : QfLabel} (hq : QfInv full size progs s) (hi : QwInv full size w0 s) (hb : ∀ x, l = .worker x → background x) (he : s.ended = none)
    (h : QTr full size s l s') : QwInv full size w0 s' := by
  have hlog := fun hf => (logger_there h0 hi hf).1
  obtain ⟨wls, hw, hwl⟩ := hi.run
  have more : ∀ {x : WLabel (LogMessage × Int)} {w : WState (LogMessage × Int)}, plainLabel x → wStep s.worker x = some w →
      ∃ wls, wRun w0 wls = some w ∧ ∀ x ∈ wls, plainLabel x := by
    intro x w hx hs
    refine ⟨wls ++ [x], wRun_append' hw (by rw [wRun, hs]; rfl), ?_⟩
    intro y hy
    rcases List.mem_append.1 hy with hy | hy
    · exact hwl y hy
    · rw [List.mem_singleton.1 hy]; exact hx
  -- a thread goes on in its statement
  have move : ∀ (t : Nat) (p : QfPc), inStmt (s.th t).pc = inStmt p → ∀ k, inStmt ((s.goTo t p).th k).pc = inStmt (s.th k).pc := by
    intro t p hp k
    rw [goTo_th]
    split
    · next e => subst e; exact hp.symm
    · rfl
  have use : ∀ (t : Nat) (x : PStep) (pc : QfPc) (th : Nat → QThread), (s.th t).pc = .idle → (∀ k, (th k).pc = if k = t then pc else (s.th k).pc) →
      (Documented sInit (uses s.trace) → (inStmt pc).toList = match x with
        | .log st => if (sRun sInit (uses s.trace)).2 st.level.value = some true then [st] else [] | .levels _ => []) →
      s.fat = [] → Documented sInit (uses (s.trace ++ [(t, x)])) → ∀ u, ofThread u (executedBy sInit (s.trace ++ [(t, x)])) = ofThread u s.acc ++ (inStmt (th u).pc).toList := by
    intro t x pc th hp hth hx hf hd u
    have hd' : Documented sInit (uses s.trace) := by
      rw [uses_snoc, documented_append] at hd; exact hd.1
    rw [executedBy_snoc, ofThread_append, hi.acc hf hd' u, hth u, List.append_assoc]
    congr 1
    have hx := hx hd'
    by_cases e : u = t
    · subst e
      rw [if_pos rfl, hx, hp]
      cases x with
      | levels o => rfl
      | log st => simp only []; split <;> simp [inStmt, ofThread]
    · rw [if_neg e]
      cases x with
      | levels o => simp [ofThread]
      | log st =>
        simp only []
        split
        · simp [ofThread, Ne.symm e]
        · simp [ofThread]
  cases h with
  | levels t o p hp ht =>
    refine ⟨⟨wls, hw, hwl⟩, hi.phase, hi.sub, ?_, hi.ended, hi.low⟩
    intro hf hd u
    exact use t (.levels o) .idle _ hp (by intro k; rw [setTh_th]; split <;> rfl) (fun _ => rfl) hf hd u
  | test t st p hp ht =>
    refine ⟨⟨wls, hw, hwl⟩, hi.phase, hi.sub, ?_, hi.ended, hi.low⟩
    intro hf hd u
    refine use t (.log st) (if (logLevel st.level s.reg).1 then .held st else .idle) _ hp (by intro k; rw [setTh_th]; split <;> rfl) ?_ hf hd u
    intro hd'
    have hon := ((C21_registry_refines_map (uses s.trace) hd').2 st.level).2
    rw [← hq.reg] at hon
    rw [hon]
    by_cases hx : (sRun sInit (uses s.trace)).2 st.level.value = some true
    · simp [hx, inStmt]
    · simp [hx, inStmt]
  | drop t st hp hl hw' =>
    refine ⟨⟨wls, hw, hwl⟩, hi.phase, hi.sub, ?_, hi.ended, hi.low⟩
    intro hf
    rw [hlog hf] at hw'
    cases hw'
  | look t st hp hl hw' =>
    refine ⟨⟨wls, hw, hwl⟩, hi.phase, hi.sub, ?_, hi.ended, hi.low⟩
    intro hf hd u
    rw [move t _ (by rw [hp]; rfl)]
    exact hi.acc hf hd u
  | crash t st hp hl =>
    refine ⟨⟨wls, hw, hwl⟩, hi.phase, hi.sub, ?_, hi.ended, hi.low⟩
    intro hf hd u
    show _ = _ ++ (inStmt ((s.goTo t (.crashing st)).th u).pc).toList
    rw [move t _ (by rw [hp]; rfl)]
    exact hi.acc hf hd u
  | save t st w hp hl hw' hs =>
    refine ⟨more (Or.inl ⟨_, rfl⟩) hs, phase_step (Or.inl ⟨_, rfl⟩) hs hi.phase, ?_, ?_, hi.ended, ?_⟩
    · intro hf
      show w.sub = w0.sub ++ (s.acc ++ [(t, st)]).map _
      rw [sub_save hs hi.phase, hi.sub hf, List.map_append, List.append_assoc]
      rfl
    · intro hf hd u
      have := hi.acc hf hd u
      show ofThread u (executedBy sInit s.trace) = ofThread u (s.acc ++ [(t, st)]) ++ (inStmt ((s.goTo t .idle).th u).pc).toList
      rw [this, ofThread_append, ofThread_one, goTo_th]
      by_cases e : u = t
      · subst e; simp [hp, inStmt]
      · simp [e, Ne.symm e]
    · intro x hx
      rcases List.mem_append.1 hx with hx | hx
      · exact hi.low x hx
      · rw [List.mem_singleton.1 hx]; exact hl
  | null t hp hw' =>
    refine ⟨⟨wls, hw, hwl⟩, hi.phase, hi.sub, hi.acc, ?_, hi.low⟩
    intro hf
    rw [hlog hf] at hw'
    cases hw'
  | report t st hp hl hw' =>
    refine ⟨⟨wls, hw, hwl⟩, hi.phase, hi.sub, ?_, hi.ended, hi.low⟩
    intro hf hd u
    rw [move t _ (by rw [hp]; rfl)]
    exact hi.acc hf hd u
  | kill t st hp hw' =>
    refine ⟨⟨wls, hw, hwl⟩, hi.phase, hi.sub, hi.acc, ?_, hi.low⟩
    intro hf
    rw [hlog hf] at hw'
    cases hw'
  | fatal t st m w hp hw' hs =>
    refine ⟨more (Or.inr (Or.inl ⟨_, rfl⟩)) hs, phase_step (Or.inr (Or.inl ⟨_, rfl⟩)) hs hi.phase, ?_, ?_, ?_, hi.low⟩ <;>
      (intro hf; exact absurd hf (by simp))
  | work x w hs =>
    have hx : plainLabel x := Or.inr (Or.inr (hb x rfl))
    refine ⟨more hx hs, phase_step hx hs hi.phase, ?_, hi.acc, hi.ended, hi.low⟩
    intro hf
    show w.sub = _
    rw [sub_background (hb x rfl) hs]
    exact hi.sub hf

/-- Both invariants along a schedule. -/
theorem q_run {pre : List (WLabel (LogMessage × Int))} {w0 : WState (LogMessage × Int)} (h0 : Ready pre w0) {full : Bool} {size : Nat} (hs : 1 ≤ size) {progs : Nat → List PStep}
    {ls : List QfLabel} : ∀ {s s' : QfState}, QfInv full size progs s → QwInv full size w0 s → (∀ x, .worker x ∈ ls → background x) → qfRun full size s ls = some s' →
      QfInv full size progs s' ∧ QwInv full size w0 s' := by
  induction ls with
  | nil => intro s s' h h' _ hr; cases hr; exact ⟨h, h'⟩
  | cons l ls ih =>
    intro s s' h h' hb hr
    obtain ⟨u, hu, hr⟩ := Option.bind_eq_some_iff.1 hr
    obtain ⟨he, _, ht⟩ := qtr_of_step hs hu
    exact ih (qInv_step h ht) (qwInv_step h0 h h' (fun x e => hb x (by simp [e])) he ht) (fun x hx => hb x (List.mem_cons_of_mem _ hx)) hr

/-! ### Parts of schedules -/

theorem qfRun_append {full : Bool} {size : Int} {a b : List QfLabel} : ∀ {s s' : QfState}, qfRun full size s (a ++ b) = some s' →
    ∃ u, qfRun full size s a = some u ∧ qfRun full size u b = some s' := by
  induction a with
  | nil => intro s s' h; exact ⟨s, rfl, h⟩
  | cons l a ih =>
    intro s s' h
    obtain ⟨v, hv, h⟩ := Option.bind_eq_some_iff.1 h
    obtain ⟨u, h1, h2⟩ := ih h
    exact ⟨u, by rw [qfRun, hv]; exact h1, h2⟩

/-- What a schedule does to the worker. -/
theorem q_worker {full : Bool} {size : Nat} (hs : 1 ≤ size) {ls : List QfLabel} : ∀ {s s' : QfState}, (∀ x, .worker x ∈ ls → background x) →
    qfRun full size s ls = some s' → ∃ wls, wRun s.worker wls = some s'.worker ∧ ∀ x ∈ wls, plainLabel x := by
  induction ls with
  | nil => intro s s' _ hr; cases hr; exact ⟨[], rfl, by simp⟩
  | cons l ls ih =>
    intro s s' hb hr
    obtain ⟨u, hu, hr⟩ := Option.bind_eq_some_iff.1 hr
    obtain ⟨wls, h1, h2⟩ := ih (fun x hx => hb x (List.mem_cons_of_mem _ hx)) hr
    obtain ⟨_, _, ht⟩ := qtr_of_step hs hu
    have more : ∀ {x : WLabel (LogMessage × Int)}, plainLabel x → wStep s.worker x = some u.worker →
        ∃ wls, wRun s.worker wls = some s'.worker ∧ ∀ x ∈ wls, plainLabel x := by
      intro x hx hxs
      refine ⟨x :: wls, by rw [wRun, hxs]; exact h1, ?_⟩
      intro y hy
      rcases List.mem_cons.1 hy with rfl | hy
      · exact hx
      · exact h2 y hy
    cases ht with
    | save t st w hp hl hw' hs => exact more (Or.inl ⟨_, rfl⟩) hs
    | fatal t st m w hp hw' hs => exact more (Or.inr (Or.inl ⟨_, rfl⟩)) hs
    | work x w hs => exact more (Or.inr (Or.inr (hb x List.mem_cons_self))) hs
    | _ => exact ⟨wls, h1, h2⟩

/-- The trace grows. -/
theorem q_trace {full : Bool} {size : Nat} (hs : 1 ≤ size) {ls : List QfLabel} : ∀ {s s' : QfState}, qfRun full size s ls = some s' → ∃ r, s'.trace = s.trace ++ r := by
  induction ls with
  | nil => intro s s' hr; cases hr; exact ⟨[], by simp⟩
  | cons l ls ih =>
    intro s s' hr
    obtain ⟨u, hu, hr⟩ := Option.bind_eq_some_iff.1 hr
    obtain ⟨r, e⟩ := ih hr
    obtain ⟨_, _, ht⟩ := qtr_of_step hs hu
    cases ht with
    | levels t o p hp ht => exact ⟨_, by rw [e]; exact List.append_assoc _ _ _⟩
    | test t st p hp ht => exact ⟨_, by rw [e]; exact List.append_assoc _ _ _⟩
    | _ => exact ⟨r, e⟩

/-- The first fatal message is handed over. -/
theorem first_fatal {full : Bool} {size : Nat} {ls : List QfLabel} : ∀ {s s' : QfState}, qfRun full size s ls = some s' → s.fat = [] → s'.fat ≠ [] →
    ∃ ls1 l ls2 s1 s2, ls = ls1 ++ l :: ls2 ∧ qfRun full size s ls1 = some s1 ∧ s1.fat = [] ∧ qfStep full size s1 l = some s2 ∧ s2.fat ≠ [] ∧
      qfRun full size s2 ls2 = some s' := by
  induction ls with
  | nil => intro s s' hr h1 h2; cases hr; exact absurd h1 h2
  | cons l ls ih =>
    intro s s' hr h1 h2
    obtain ⟨u, hu, hr⟩ := Option.bind_eq_some_iff.1 hr
    by_cases hf : u.fat = []
    · obtain ⟨ls1, l', ls2, s1, s2, e, a, b, c, d, f⟩ := ih hr hf h2
      exact ⟨l :: ls1, l', ls2, s1, s2, by rw [e]; rfl, by rw [qfRun, hu]; exact a, b, c, d, f⟩
    · exact ⟨[], l, ls, s, u, rfl, rfl, h1, hu, hf, hr⟩

/-- The process ends with the last step. -/
theorem ended_last {full : Bool} {size : Nat} (hs : 1 ≤ size) {ls : List QfLabel} : ∀ {s s' : QfState}, qfRun full size s ls = some s' → s.ended = none → s'.ended ≠ none →
    ∃ ls0 l s0, ls = ls0 ++ [l] ∧ qfRun full size s ls0 = some s0 ∧ qfStep full size s0 l = some s' ∧ s0.ended = none := by
  induction ls with
  | nil => intro s s' hr h1 h2; cases hr; exact absurd h1 h2
  | cons l ls ih =>
    intro s s' hr h1 h2
    obtain ⟨u, hu, hr⟩ := Option.bind_eq_some_iff.1 hr
    by_cases hf : u.ended = none
    · obtain ⟨ls0, l', s0, e, a, b, c⟩ := ih hr hf h2
      exact ⟨l :: ls0, l', s0, by rw [e]; rfl, by rw [qfRun, hu]; exact a, b, c⟩
    · cases ls with
      | nil => cases hr; exact ⟨[], l, s, rfl, rfl, hu, h1⟩
      | cons l' ls =>
        obtain ⟨v, hv, _⟩ := Option.bind_eq_some_iff.1 hr
        exact absurd (qtr_of_step hs hv).1 hf

/-- The entry of the fatal message of a statement. -/
theorem fatal_text (E : Env) (full : Bool) (size : Nat) (st : LogStmt) (note : Str) :
    fileText E (.fatal ((fatalMsg full size st note).base, (fatalMsg full size st note).signal)) = stmtFatalWith E full size st note := by
  unfold fileText stmtFatalWith
  simp only
  rw [C26_toString]
  simp [fatalMsg, FatalMessage.new, LogMessage.copy, Level.copy, stmtMsg, detailsText, stmtDetails, cstr_idem]

/-- C92, the file. Any number of threads run LOG statements and change levels (documented use); some statements are fatal. If the process is
ended by the worker (`dead`), then one thread `f` was the first to hand over a fatal message, that of its statement `st`, and the file consists
of the header, the lines of the statements handed over before (`s1.acc`), the entry of `st` and the line about the shutdown. Of every thread these are the
executed statements in order, except perhaps the one it was in; of the thread `f` they are all those before `st`. The entry of `st` has its
text, its stack dump and, at most if another thread had begun a fatal statement too, a note about a recursive crash. -/
theorem C92_file_partial (E : Env) (full : Bool) (size : Nat) (hsz : 1 ≤ size) (progs : Nat → List PStep)
    {pre : List (WLabel (LogMessage × Int))} {w0 : WState (LogMessage × Int)} (h0 : Ready pre w0)
    {ls : List QfLabel} {s : QfState} (hr : qfRun full size (QfState.start w0 progs) ls = some s) (hbg : ∀ x, .worker x ∈ ls → background x)
    (hdead : s.worker.wpc = .dead) (hd : Documented sInit (uses s.trace))
    {k : FileSink} {fs : FS} {p path : Str} {N : Nat} (hN : 1 ≤ N) (h : Constructed k fs p path N)
    {ops : List SinkOp} (ho : PerformsFatal (s.worker.sk 0) ops) (time : Str) :
    ∃ ls1 f ls2 s1 st note k' fs' outs t0, ls = ls1 ++ .thread f :: ls2 ∧ qfRun full size (QfState.start w0 progs) ls1 = some s1 ∧
      (∀ t, ∃ later, ofThread t s1.trace ++ later = progs t) ∧
      1000 ≤ st.level.value ∧ (∀ x ∈ s1.acc, x.2.level.value < 1000) ∧
      ofThread f (executedBy sInit s1.trace) = ofThread f s1.acc ++ [st] ∧
      (∀ t, ofThread t (executedBy sInit s1.trace) = ofThread t s1.acc ++ (inStmt (s1.th t).pc).toList) ∧
      (note = [] ∨ ∃ g h st1 st2, g ≠ f ∧ inFatalStmt (s1.th g).pc = some st1 ∧ inFatalStmt (s1.th h).pc = some st2 ∧ note = recursionNote (stmtTrace st2)) ∧
      sinkRun E k fs ops = .ok (k', fs', outs) ∧
      k'.destroy fs' time path = some ("\t\tg3log created log at: ".toList ++ t0 ++ "\n".toList ++ formatHint ++
        (s1.acc.map fun x => stmtLine E full size x.2).flatten ++ stmtFatalWith E full size st note ++
        "g3log g3FileSink shutdown at: ".toList ++ time ++ "\n".toList) := by
  have hs0 := qInv_start full size w0 progs
  have hw0 := qwInv_start full size h0.phase progs
  obtain ⟨_, hiw⟩ := q_run h0 hsz hs0 hw0 hbg hr
  have hfat : s.fat ≠ [] := fun e => (logger_there h0 hiw e).2 hdead
  obtain ⟨ls1, l, ls2, s1, s2, e, a, b, c, d, g⟩ := first_fatal hr rfl hfat
  have hb1 : ∀ x, .worker x ∈ ls1 → background x := fun x hx => hbg x (by rw [e]; exact List.mem_append_left _ hx)
  have hb2 : ∀ x, .worker x ∈ ls2 → background x := fun x hx => hbg x (by rw [e]; exact List.mem_append_right _ (List.mem_cons_of_mem _ hx))
  obtain ⟨i1, j1⟩ := q_run h0 hsz hs0 hw0 hb1 a
  obtain ⟨tr2, etr⟩ := q_trace hsz (show qfRun full size s1 (l :: ls2) = some s by rw [qfRun, c]; exact g)
  have hd1 : Documented sInit (uses s1.trace) := by
    rw [etr, uses, List.map_append, documented_append] at hd
    exact hd.1
  obtain ⟨wls2, hw2, hpl2⟩ := q_worker hsz hb2 g
  obtain ⟨_, _, ht⟩ := qtr_of_step hsz c
  have key : ∃ f st m w, l = .thread f ∧ (s1.th f).pc = .crashed st m ∧ wStep s1.worker (.fatal (m.base, m.signal)) = some w ∧ s2.worker = w := by
    cases ht with
    | fatal t st m w hp hw' hs => exact ⟨t, st, m, w, rfl, hp, hs, rfl⟩
    | _ => exact absurd b d
  obtain ⟨f, st, m, w, rfl, hp, hst, rfl⟩ := key
  obtain ⟨note, rfl, hno⟩ := i1.msg f st m hp
  obtain ⟨wls1, hw1, hpl1⟩ := j1.run
  have hrun := wRun_append' h0.run (wRun_append' hw1 (show wRun s1.worker (.fatal _ :: wls2) = some s.worker by rw [wRun, hst]; exact hw2))
  have ha2 := allInv_run (wRun_append' h0.run (wRun_append' hw1 (show wRun s1.worker [.fatal _] = some s2.worker by rw [wRun, hst]; rfl)))
  obtain ⟨tl, etl, _⟩ := (grows_run ha2 hw2).sub
  have hh : handed 0 0 (pre ++ (wls1 ++ .fatal ((fatalMsg full size st note).base, (fatalMsg full size st note).signal) :: wls2)) =
      .attach 0 :: (s1.acc.map fun x => stmtMsg full size x.2).map (fun x => .log (x, 0)) ++
        .fatal ((fatalMsg full size st note).base, (fatalMsg full size st note).signal) :: tl.map req := by
    rw [← sub_handed hrun, etl, sub_fatal hst j1.phase, j1.sub b, List.map_append, List.map_append, List.map_append, sub_handed h0.run, h0.handed,
      List.map_map, List.map_map]
    simp [req, Function.comp_def]
  have hcl : NoClient s.worker := noClient_run _ h0.clients (by
    intro x hx
    have : plainLabel x := by
      rcases List.mem_append.1 hx with hx | hx
      · exact hpl1 x hx
      · rcases List.mem_cons.1 hx with rfl | hx
        · exact Or.inr (Or.inl ⟨_, rfl⟩)
        · exact hpl2 x hx
    exact this.imp id (fun h => h.imp id Or.inr)) (wRun_append' hw1 (show wRun s1.worker (.fatal _ :: wls2) = some s.worker by rw [wRun, hst]; exact hw2))
  have hadd : adding s.worker.calls 0 = false := by
    unfold adding
    rw [List.any_eq_false]
    intro c hc
    simp [hcl.calls c hc]
  have hn : 0 < s.worker.n := Nat.lt_of_lt_of_le h0.n (grows_run (allInv_run h0.run)
    (wRun_append' hw1 (show wRun s1.worker (.fatal _ :: wls2) = some s.worker by rw [wRun, hst]; exact hw2))).n
  obtain ⟨k', fs', outs, t0, q1, q2⟩ := C70_program hrun hdead hh hn (unused_of hcl.refs hadd hcl.reaping) E hN h ho time
  have hacc := j1.acc b hd1
  refine ⟨ls1, f, ls2, s1, st, note, k', fs', outs, t0, e, a, fun t => ⟨_, i1.trace t⟩, ?_, j1.low, ?_, hacc, hno, q1, ?_⟩
  · exact i1.high f st (by rw [hp]; rfl)
  · have := hacc f
    rw [hp] at this
    exact this
  · rw [q2, fatal_text, List.map_map]
    congr 7
    apply List.map_congr_left
    intro x hx
    exact stmt_toString E full size x.2 (j1.low x hx)

/-! ### When the end is premature -/

/-- Nobody holds the logger before the threads begin, and only the worker takes it away. -/
theorem cleared {full : Bool} {size : Nat} (hs : 1 ≤ size) {ls : List QfLabel} {t : Nat} : ∀ {s s' : QfState}, s.worker.phase = .notStarted → (∀ x, .worker x ∈ ls → background x) →
    qfRun full size s ls = some s' → holdsLogger (s'.th t).pc →
    loggerSet s'.worker = false → (holdsLogger (s.th t).pc ∧ loggerSet s.worker = false) ∨
      ∃ ls1 x ls2 s1 s2, ls = ls1 ++ .worker x :: ls2 ∧ qfRun full size s ls1 = some s1 ∧ qfStep full size s1 (.worker x) = some s2 ∧
        qfRun full size s2 ls2 = some s' ∧ loggerSet s1.worker = true ∧ loggerSet s2.worker = false ∧ holdsLogger (s1.th t).pc := by
  induction ls with
  | nil => intro s s' _ _ hr h1 h2; cases hr; exact Or.inl ⟨h1, h2⟩
  | cons l ls ih =>
    intro s s' hph hb hr h1 h2
    obtain ⟨u, hu, hr⟩ := Option.bind_eq_some_iff.1 hr
    obtain ⟨_, _, ht⟩ := qtr_of_step hs hu
    have hph' : u.worker.phase = .notStarted := by
      cases ht with
      | save t st w hp hl hw' hs => exact phase_step (Or.inl ⟨_, rfl⟩) hs hph
      | fatal t st m w hp hw' hs => exact phase_step (Or.inr (Or.inl ⟨_, rfl⟩)) hs hph
      | work x w hs => exact phase_step (Or.inr (Or.inr (hb x List.mem_cons_self))) hs hph
      | _ => exact hph
    rcases ih hph' (fun x hx => hb x (List.mem_cons_of_mem _ hx)) hr h1 h2 with ⟨a, b⟩ | ⟨ls1, x, ls2, s1, s2, e, a, b, c, d, f, g⟩
    · have move : ∀ (k : Nat) (p : QfPc), holdsLogger ((s.goTo k p).th t).pc → (holdsLogger p → k ≠ t) → holdsLogger (s.th t).pc := by
        intro k p h hk
        rw [goTo_th] at h
        split at h
        · next e => exact absurd e.symm (hk h)
        · exact h
      have set : ∀ (k : Nat) (x : QThread), holdsLogger ((s.setTh k x).th t).pc → ¬ holdsLogger x.pc → holdsLogger (s.th t).pc := by
        intro k x h hk
        rw [setTh_th] at h
        split at h
        · exact absurd h hk
        · exact h
      have push : ∀ {x : WTask (LogMessage × Int)} {w : WState (LogMessage × Int)}, w = pushTask s.worker x → loggerSet w = loggerSet s.worker := by
        rintro x w rfl; rfl
      cases ht with
      | levels k o p hp ht => exact Or.inl ⟨set k _ a (fun h => h), b⟩
      | test k st p hp ht => exact Or.inl ⟨set k _ a (by show ¬ holdsLogger (if _ then _ else _); split <;> exact fun h => h), b⟩
      | drop k st hp hl hw' => exact Or.inl ⟨move k _ a (fun h => h.elim), b⟩
      | look k st hp hl hw' => rw [show loggerSet s.worker = false from b] at hw'; cases hw'
      | crash k st hp hl => exact Or.inl ⟨move k _ a (fun h => h.elim), b⟩
      | save k st w hp hl hw' hst =>
        exfalso
        unfold wStep at hst
        split at hst
        · cases hst
        · simp only [hph, DPhase.bgNull] at hst
          cases hst
          rw [show loggerSet s.worker = false from b] at hw'
          cases hw'
      | null k hp hw' => exact Or.inl ⟨a, b⟩
      | report k st hp hl hw' => rw [show loggerSet s.worker = false from b] at hw'; cases hw'
      | kill k st hp hw' => exact Or.inl ⟨a, b⟩
      | fatal k st m w hp hw' hst =>
        exfalso
        unfold wStep at hst
        split at hst
        · cases hst
        · simp only [hph, DPhase.bgNull] at hst
          cases hst
          rw [show loggerSet s.worker = false from b] at hw'
          cases hw'
      | work x w hst =>
        cases hl : loggerSet s.worker with
        | false => exact Or.inl ⟨a, rfl⟩
        | true => exact Or.inr ⟨[], x, ls, s, _, rfl, rfl, hu, hr, hl, b, a⟩
    · exact Or.inr ⟨l :: ls1, x, ls2, s1, s2, by rw [e]; rfl, by rw [qfRun, hu]; exact a, b, c, d, f, g⟩

/-- The step with which a thread of the program ends the process. -/
theorem end_step {full : Bool} {size : Nat} {s s' : QfState} {l : QfLabel} (h : QTr full size s l s') (h1 : s.ended = none) (h2 : s'.ended ≠ none) :
    loggerSet s.worker = false ∧ ((∃ t, l = .thread t ∧ holdsLogger (s.th t).pc ∧ s'.ended = some .nullPointer) ∨
      ∃ t st, l = .thread t ∧ (s.th t).pc = .crashing st ∧ s'.ended = some (.signal st.signal)) := by
  cases h with
  | null t hp hw => exact ⟨hw, Or.inl ⟨t, rfl, hp, rfl⟩⟩
  | kill t st hp hw => exact ⟨hw, Or.inr ⟨t, st, rfl, hp, rfl⟩⟩
  | _ => exact absurd h1 h2

/-- C92, when a thread of the program ends the process before the worker does: only after a fatal message has been handed over, and then either
another thread than the reporting one was in a fatal statement itself, and the process ends with the signal of that one; or a thread that had
just seen that there is a logger (an ordinary statement, or a fatal one) is overtaken by the worker, which takes the logger away before it begins with the fatal
message: the thread uses a null pointer. -/
theorem C92_premature_partial (full : Bool) (size : Nat) (hsz : 1 ≤ size) (progs : Nat → List PStep)
    {pre : List (WLabel (LogMessage × Int))} {w0 : WState (LogMessage × Int)} (h0 : Ready pre w0)
    {ls : List QfLabel} {s : QfState} (hr : qfRun full size (QfState.start w0 progs) ls = some s) (hbg : ∀ x, .worker x ∈ ls → background x)
    {e : QEnd} (he : s.ended = some e) :
    ∃ ls0 t s0 f stf, ls = ls0 ++ [.thread t] ∧ qfRun full size (QfState.start w0 progs) ls0 = some s0 ∧ s0.ended = none ∧
      (s0.th f).pc = .asleep stf ∧ t ≠ f ∧ loggerSet s0.worker = false ∧
      match e with
      | .signal n => ∃ st, (s0.th t).pc = .crashing st ∧ 1000 ≤ st.level.value ∧ n = st.signal
      | .nullPointer => holdsLogger (s0.th t).pc ∧ ∃ ls1 x ls2 s1 s2, ls0 = ls1 ++ .worker x :: ls2 ∧
          qfRun full size (QfState.start w0 progs) ls1 = some s1 ∧ qfStep full size s1 (.worker x) = some s2 ∧
          loggerSet s1.worker = true ∧ loggerSet s2.worker = false ∧ holdsLogger (s1.th t).pc := by
  obtain ⟨ls0, l, s0, hls, a, b, c⟩ := ended_last hsz hr rfl (by rw [he]; simp)
  have hb0 : ∀ x, .worker x ∈ ls0 → background x := fun x hx => hbg x (by rw [hls]; exact List.mem_append_left _ hx)
  obtain ⟨i0, j0⟩ := q_run h0 hsz (qInv_start full size w0 progs) (qwInv_start full size h0.phase progs) hb0 a
  obtain ⟨_, _, ht⟩ := qtr_of_step hsz b
  obtain ⟨hlog, hcase⟩ := end_step ht c (by rw [he]; simp)
  have hfat : s0.fat ≠ [] := by
    intro hf
    rw [(logger_there h0 j0 hf).1] at hlog
    cases hlog
  obtain ⟨x, hx⟩ := List.exists_mem_of_ne_nil _ hfat
  have hsl := i0.slept x hx
  rcases hcase with ⟨t, rfl, hp, e'⟩ | ⟨t, st, rfl, hp, e'⟩
  · rw [he] at e'
    cases e'
    refine ⟨ls0, t, s0, x.1, x.2, hls, a, c, hsl, ?_, hlog, hp, ?_⟩
    · rintro rfl; rw [hsl] at hp; exact hp
    · rcases cleared hsz h0.phase hb0 a hp hlog with ⟨q, _⟩ | ⟨ls1, y, ls2, s1, s2, q1, q2, q3, q4, q5, q6, q7⟩
      · exact q.elim
      · exact ⟨ls1, y, ls2, s1, s2, q1, q2, q3, q5, q6, q7⟩
  · rw [he] at e'
    cases e'
    refine ⟨ls0, t, s0, x.1, x.2, hls, a, c, hsl, ?_, hlog, st, hp, i0.high t st (by rw [hp]; rfl), rfl⟩
    rintro rfl; rw [hsl] at hp; cases hp

/-- `OnlyFatalIn` says of a program that no statement of another thread is fatal for the library. -/
theorem onlyFatalIn_iff (f : Nat) (progs : Nat → List PStep) : OnlyFatalIn f progs ↔ ∀ t, t ≠ f → ∀ st, .log st ∈ progs t → wasFatal st.level = false := by
  have h : ∀ l : Level, wasFatal l = false ↔ l.value < 1000 := by
    intro l
    unfold wasFatal
    rw [decide_eq_false_iff_not]
    show ¬ l.value ≥ 1000 ↔ _
    omega
  exact ⟨fun H t ht st hs => (h _).mpr (H t ht st hs), fun H t ht st hs => (h _).mp (H t ht st hs)⟩

/-- C92, one thread only has fatal statements: then the process is never ended by the signal of another one, no report has a note about a recursive
crash, and the only premature end is the use of the logger that an ordinary statement of another thread had seen just before. -/
theorem C92_single_partial (full : Bool) (size : Nat) (hsz : 1 ≤ size) (progs : Nat → List PStep) {f : Nat} (hf : OnlyFatalIn f progs)
    {pre : List (WLabel (LogMessage × Int))} {w0 : WState (LogMessage × Int)} (h0 : Ready pre w0)
    {ls : List QfLabel} {s : QfState} (hr : qfRun full size (QfState.start w0 progs) ls = some s) (hbg : ∀ x, .worker x ∈ ls → background x) :
    (∀ n, s.ended ≠ some (.signal n)) ∧ (∀ t st, inFatalStmt (s.th t).pc = some st → t = f) ∧
    (∀ st m, (s.th f).pc = .crashed st m → ∀ E : Env, fileText E (.fatal (m.base, m.signal)) = stmtFatalWith E full size st []) ∧
    (s.ended = some .nullPointer → ∃ t st, t ≠ f ∧ (s.th t).pc = .checked st ∧ st.level.value < 1000) := by
  have only : ∀ {ls : List QfLabel} {s : QfState}, qfRun full size (QfState.start w0 progs) ls = some s → (∀ x, .worker x ∈ ls → background x) →
      QfInv full size progs s ∧ ∀ t st, inFatalStmt (s.th t).pc = some st → t = f := by
    intro ls s hr hbg
    obtain ⟨i, _⟩ := q_run h0 hsz (qInv_start full size w0 progs) (qwInv_start full size h0.phase progs) hbg hr
    refine ⟨i, ?_⟩
    intro t st ht
    by_contra hne
    have h1 := i.high t st ht
    have hin : inStmt (s.th t).pc = some st := by
      cases hp : (s.th t).pc <;> rw [hp] at ht <;> first | cases ht; rfl | cases ht
    have h2 := hf t hne st (by rw [← i.trace t]; exact List.mem_append_left _ (i.stmt t st hin))
    omega
  obtain ⟨i, ho⟩ := only hr hbg
  refine ⟨?_, ho, ?_, ?_⟩
  · intro n he
    obtain ⟨ls0, t, s0, g, stf, hls, a, _, hsl, hne, _, st, hp, _⟩ := C92_premature_partial full size hsz progs h0 hr hbg he
    obtain ⟨_, ho0⟩ := only a (fun x hx => hbg x (by rw [hls]; exact List.mem_append_left _ hx))
    have h1 := ho0 t st (by rw [hp]; rfl)
    have h2 := ho0 g stf (by rw [hsl]; rfl)
    exact hne (h1.trans h2.symm)
  · intro st m hp E
    obtain ⟨note, rfl, hn⟩ := i.msg f st m hp
    rw [fatal_text]
    rcases hn with rfl | ⟨g, h, st1, st2, hne, hg, _⟩
    · rfl
    · exact absurd (ho g st1 hg) hne
  · intro he
    obtain ⟨ls0, t, s0, g, stf, hls, a, c, hsl, hne, hlog, hp, _⟩ := C92_premature_partial full size hsz progs h0 hr hbg he
    obtain ⟨i0, ho0⟩ := only a (fun x hx => hbg x (by rw [hls]; exact List.mem_append_left _ hx))
    have hgf := ho0 g stf (by rw [hsl]; rfl)
    subst hgf
    have hst : s.th t = s0.th t := by
      rw [hls] at hr
      obtain ⟨u, hu, hv⟩ := qfRun_append hr
      rw [a] at hu
      cases hu
      obtain ⟨v, hv, hv'⟩ := Option.bind_eq_some_iff.1 hv
      cases hv'
      obtain ⟨_, _, ht⟩ := qtr_of_step hsz hv
      cases ht with
      | null k hp hw => rfl
      | levels => exact absurd he (by simp [QfState.setTh, c])
      | test => exact absurd he (by simp [QfState.setTh, c])
      | kill k st hp hw => cases he
      | _ => exact absurd he (by simp [QfState.goTo, QfState.setTh, c])
    refine ⟨t, ?_⟩
    cases hpc : (s0.th t).pc with
    | checked st => exact ⟨st, hne, by rw [hst, hpc], i0.low t st hpc⟩
    | crashed st m => exact absurd (ho0 t st (by rw [hpc]; rfl)) hne
    | _ => rw [hpc] at hp; exact hp.elim

/-- C92, the note: the report of a fatal statement has the note about a recursive crash if and only if another thread has begun a fatal statement. (There is
no recursion in either case.) -/
theorem C92_label (full : Bool) (size : Nat) (hsz : 1 ≤ size) (progs : Nat → List PStep)
    {pre : List (WLabel (LogMessage × Int))} {w0 : WState (LogMessage × Int)} (h0 : Ready pre w0)
    {ls : List QfLabel} {s s' : QfState} (hr : qfRun full size (QfState.start w0 progs) ls = some s) (hbg : ∀ x, .worker x ∈ ls → background x)
    {f : Nat} {st : LogStmt} (hp : (s.th f).pc = .crashing st) (hst : qfStep full size s (.thread f) = some s') {m : FatalMessage}
    (hm : (s'.th f).pc = .crashed st m) :
    ∃ note, (∀ E : Env, fileText E (.fatal (m.base, m.signal)) = stmtFatalWith E full size st note) ∧
      (note = [] ∨ ∃ h st', inFatalStmt (s.th h).pc = some st' ∧ note = recursionNote (stmtTrace st')) ∧
      (note = [] ↔ ∀ g, g ≠ f → inFatalStmt (s.th g).pc = none) := by
  obtain ⟨i, _⟩ := q_run h0 hsz (qInv_start full size w0 progs) (qwInv_start full size h0.phase progs) hbg hr
  obtain ⟨_, _, ht⟩ := qtr_of_step hsz hst
  have hmm : m = fatalMsg full size st (noteOf s st) := by
    have same : ∀ {q : QfState}, q.th = s.th → (q.th f).pc = .crashed st m → False := by
      intro q e h; rw [e, hp] at h; cases h
    cases ht with
    | report t st' hp' hl hw =>
      rw [hp] at hp'
      cases hp'
      rw [goTo_th, if_pos rfl] at hm
      cases hm
      rfl
    | kill => exact (same rfl hm).elim
    | null => exact (same rfl hm).elim
    | levels t o p hp' => rw [hp] at hp'; cases hp'
    | test t o p hp' => rw [hp] at hp'; cases hp'
    | drop t o hp' => rw [hp] at hp'; cases hp'
    | look t o hp' => rw [hp] at hp'; cases hp'
    | crash t o hp' => rw [hp] at hp'; cases hp'
    | save t o w hp' => rw [hp] at hp'; cases hp'
    | fatal t o m w hp' => rw [hp] at hp'; cases hp'
  subst hmm
  have hin : inFatalStmt (s.th f).pc = some st := by rw [hp]; rfl
  refine ⟨noteOf s st, fun E => fatal_text E full size st _, ?_, ?_⟩
  · unfold noteOf
    split
    · right
      obtain ⟨_, hs⟩ := i.counted f st hin
      obtain ⟨tr, htr⟩ := Option.isSome_iff_exists.1 hs
      obtain ⟨h, st', h1, h2⟩ := i.first tr htr
      exact ⟨h, st', h1, by rw [htr, h2]; rfl⟩
    · left; rfl
  · constructor
    · intro hn g hg
      cases hgs : inFatalStmt (s.th g).pc with
      | none => rfl
      | some st' =>
        have := i.many g f st' st hg hgs hin
        unfold noteOf at hn
        rw [if_pos (by omega)] at hn
        exact absurd (List.append_eq_nil_iff.1 hn).2 (by decide +kernel)
    · intro hno
      unfold noteOf
      rw [if_neg]
      intro h2
      obtain ⟨g, h, st1, st2, hne, hg, hh⟩ := i.two h2
      by_cases e : g = f
      · have := hno h (fun e' => hne (e.trans e'.symm)); rw [this] at hh; cases hh
      · have := hno g e; rw [this] at hg; cases hg

/-! ### The end is reached -/

theorem calm_step {w w' : WState (LogMessage × Int)} {x : WLabel (LogMessage × Int)} (hx : plainLabel x) (h : wStep w x = some w') (hp : w.phase = .notStarted)
    (hb : ∀ i, (w.sk i).blocked = false) (hu : w.ub = false) : (∀ i, (w'.sk i).blocked = false) ∧ w'.ub = false := by
  have upd : ∀ (i j : Nat) (f : SinkSt (LogMessage × Int) → SinkSt (LogMessage × Int)), (∀ k, (f k).blocked = k.blocked) → (updSink w.sk j f i).blocked = false := by
    intro i j f hf
    unfold updSink
    split
    · rw [hf]; exact hb i
    · exact hb i
  unfold wStep at h
  split at h
  · cases h
  rcases hx with ⟨m, rfl⟩ | ⟨m, rfl⟩ | hx
  · simp only [hp, DPhase.bgNull] at h; cases h; exact ⟨hb, hu⟩
  · simp only [hp, DPhase.bgNull] at h; cases h; exact ⟨hb, hu⟩
  · cases x <;> first | exact hx.elim | skip
    · simp only [retStep] at h
      (repeat' (split at h)) <;> cases h <;> first | exact ⟨hb, hu⟩ | (unfold clientDrop; split <;> first | exact ⟨hb, hu⟩ | exact ⟨fun i => upd i _ _ (fun _ => rfl), hu⟩)
    · simp only [workStep, takeTask] at h
      (repeat' (split at h)) <;> cases h <;> first | exact ⟨hb, hu⟩ | exact ⟨fun i => upd i _ _ (fun _ => rfl), hu⟩
    · simp only [sinkPop] at h
      (repeat' (split at h)) <;> cases h <;> exact ⟨fun i => upd i _ _ (fun _ => rfl), hu⟩
    · simp only [sinkFin] at h
      (repeat' (split at h)) <;> cases h <;> exact ⟨fun i => upd i _ _ (fun _ => rfl), hu⟩

theorem calm_run : ∀ {ls : List (WLabel (LogMessage × Int))} {w w' : WState (LogMessage × Int)}, (∀ x ∈ ls, plainLabel x) → wRun w ls = some w' →
    w.phase = .notStarted → (∀ i, (w.sk i).blocked = false) → w.ub = false → (∀ i, (w'.sk i).blocked = false) ∧ w'.ub = false
  | [], _, _, _, h, _, hb, hu => by cases h; exact ⟨hb, hu⟩
  | x :: ls, w, w', hx, h, hp, hb, hu => by
    obtain ⟨u, hu', h⟩ := Option.bind_eq_some_iff.1 h
    have hxx := hx x List.mem_cons_self
    obtain ⟨a, b⟩ := calm_step hxx hu' hp hb hu
    exact calm_run (fun y hy => hx y (List.mem_cons_of_mem _ hy)) h (phase_step hxx hu' hp) a b

theorem irun_of_background {full : Bool} {size : Nat} : ∀ {l : List (WLabel (LogMessage × Int))} {s s' : QfState}, (∀ x ∈ l, background x) →
    qfRun full size s (l.map .worker) = some s' → IRun s.worker l s'.worker
  | [], _, _, _, h => by cases h; exact .nil _
  | x :: l, s, s', hx, h => by
    obtain ⟨u, hu, h⟩ := Option.bind_eq_some_iff.1 h
    have ih := irun_of_background (fun y hy => hx y (List.mem_cons_of_mem _ hy)) h
    have hxx := hx x List.mem_cons_self
    unfold qfStep at hu
    split at hu
    · cases hu
    · cases x <;> first | exact hxx.elim | skip
      all_goals
        obtain ⟨w, h1, rfl⟩ := Option.map_eq_some_iff.1 hu
        exact .cons trivial h1 ih

/-- C92, the end is reached: once a fatal message has been handed over, and as long as the threads of the program stay where they are, the
threads of the library bring the process to its end: when none of them can make another step, the process has ended. -/
theorem C92_ends_partial (full : Bool) (size : Nat) (hsz : 1 ≤ size) (progs : Nat → List PStep)
    {pre : List (WLabel (LogMessage × Int))} {w0 : WState (LogMessage × Int)} (h0 : Ready pre w0)
    {ls : List QfLabel} {s : QfState} (hr : qfRun full size (QfState.start w0 progs) ls = some s) (hbg : ∀ x, .worker x ∈ ls → background x)
    (hfat : s.fat ≠ []) {l : List (WLabel (LogMessage × Int))} (hl : ∀ x ∈ l, background x) {s' : QfState}
    (hr' : qfRun full size s (l.map .worker) = some s') (hst : stuck s'.worker) : s'.worker.wpc = .dead := by
  obtain ⟨_, j⟩ := q_run h0 hsz (qInv_start full size w0 progs) (qwInv_start full size h0.phase progs) hbg hr
  obtain ⟨wls, hw, hpl⟩ := j.run
  have hrun := wRun_append' h0.run hw
  obtain ⟨hb, hu⟩ := calm_run hpl hw h0.phase h0.blocked h0.ub
  obtain ⟨ls1, lb, ls2, s1, s2, e, a, b, c, d, g⟩ := first_fatal hr rfl hfat
  have hb1 : ∀ x, .worker x ∈ ls1 → background x := fun x hx => hbg x (by rw [e]; exact List.mem_append_left _ hx)
  have hb2 : ∀ x, .worker x ∈ ls2 → background x := fun x hx => hbg x (by rw [e]; exact List.mem_append_right _ (List.mem_cons_of_mem _ hx))
  obtain ⟨_, j1⟩ := q_run h0 hsz (qInv_start full size w0 progs) (qwInv_start full size h0.phase progs) hb1 a
  obtain ⟨_, _, ht⟩ := qtr_of_step hsz c
  obtain ⟨wls2, hw2, _⟩ := q_worker hsz hb2 g
  obtain ⟨wls1, hw1, _⟩ := j1.run
  have key : ∃ m, wStep s1.worker (.fatal m) = some s2.worker := by
    cases ht with
    | fatal t st m w hp hw' hs => exact ⟨_, hs⟩
    | _ => exact absurd b d
  obtain ⟨m, hm⟩ := key
  have hmem : .fatal m ∈ s.worker.sub := by
    have ha2 := allInv_run (wRun_append' h0.run (wRun_append' hw1 (show wRun s1.worker [.fatal m] = some s2.worker by rw [wRun, hm]; rfl)))
    obtain ⟨tl, etl, _⟩ := (grows_run ha2 hw2).sub
    rw [etl, sub_fatal hm j1.phase]
    simp
  exact C62_ends_partial hrun hu hb (m := m) (by rw [← sub_handed hrun]; exact List.mem_map.2 ⟨_, hmem, rfl⟩) (irun_of_background hl hr') hst

/-! ### Cases -/

/-- A LOG(FATAL) statement. -/
def fatalAt (n : Int) : LogStmt := ⟨"a.cpp".toList, n, "f".toList, FATAL, [], 6, [], 0, 1, [.stream "boom".toList]⟩

/-- A worker with one sink. -/
def oneSink : List (WLabel (LogMessage × Int)) := [.add, .work, .ret 0]

/-- Its state. -/
def readyWorker : WState (LogMessage × Int) := (wRun WState.start oneSink).getD WState.start

theorem ready_worker : Ready oneSink readyWorker :=
  ⟨rfl, rfl, by decide, ⟨rfl, rfl, by intro c hc; rcases List.mem_singleton.1 hc with rfl; rfl⟩, rfl, rfl, by intro i; cases i <;> rfl⟩

/-- Thread 0 logs one line and then fails; thread 1 logs one line. -/
def crashProgs (t : Nat) : List PStep :=
  if t = 0 then [.log (infoStmt 1), .log (fatalAt 2)] else if t = 1 then [.log (infoStmt 3)] else []

/-- Thread 0 logs one line and then fails; thread 1 fails. -/
def twoFailProgs (t : Nat) : List PStep :=
  if t = 0 then [.log (infoStmt 1), .log (fatalAt 2)] else if t = 1 then [.log (fatalAt 3)] else []

/-- C92, the report is lost: thread 0 has logged a line and handed over a fatal message, which the worker has taken, thread 1 executes an ordinary LOG statement: the process ends
with the use of a null pointer before the sink has received anything. Only thread 0 has a fatal statement. -/
theorem C92_negation : ∃ ls s, qfRun false 2048 (QfState.start readyWorker crashProgs) ls = some s ∧ (∀ x, .worker x ∈ ls → background x) ∧ OnlyFatalIn 0 crashProgs ∧
    s.acc = [(0, infoStmt 1)] ∧ s.fat = [(0, fatalAt 2)] ∧ s.ended = some .nullPointer ∧ received (s.worker.sk 0) = [] := by
  refine ⟨[.thread 0, .thread 0, .thread 0, .thread 1, .thread 1, .thread 0, .thread 0, .thread 0, .thread 0,
    .worker .work, .worker .work, .worker .work, .worker .work, .thread 1], _, rfl, ?_, ?_, rfl, rfl, rfl, rfl⟩
  · intro x hx
    simp at hx
    subst hx
    trivial
  · intro t ht st hst
    unfold crashProgs at hst
    rw [if_neg ht] at hst
    split at hst
    · rcases List.mem_singleton.1 hst with h
      injection h with h
      subst h
      decide
    · cases hst

/-- C92, the report is cut off: two threads fail. The worker has begun with the report of thread 0 when thread 1 ends the process with its signal: neither
the line logged before nor one of the two reports has reached the sink. -/
theorem C92_cut : ∃ ls s, qfRun false 2048 (QfState.start readyWorker twoFailProgs) ls = some s ∧ (∀ x, .worker x ∈ ls → background x) ∧
    s.acc = [(0, infoStmt 1)] ∧ s.fat = [(0, fatalAt 2)] ∧ s.ended = some (.signal 6) ∧ received (s.worker.sk 0) = [] := by
  refine ⟨[.thread 0, .thread 0, .thread 0, .thread 1, .thread 0, .thread 0, .thread 0, .thread 0,
    .worker .work, .worker .work, .worker .work, .worker .work, .thread 1, .thread 1], _, rfl, ?_, rfl, rfl, rfl, rfl⟩
  intro x hx
  simp at hx
  subst hx
  trivial

/-- The usual case: the hypotheses of `C92_file_partial` can be met, with a statement of thread 1 in the middle of the failing statement. -/
example : ∃ ls s, qfRun false 2048 (QfState.start readyWorker crashProgs) ls = some s ∧ (∀ x, .worker x ∈ ls → background x) ∧
    s.worker.wpc = .dead ∧ s.ended = none ∧ s.acc = [(0, infoStmt 1), (1, infoStmt 3)] ∧ Documented sInit (uses s.trace) ∧ (received (s.worker.sk 0)).length = 3 := by
  refine ⟨[.thread 0, .thread 0, .thread 0, .thread 0, .thread 0, .thread 1, .thread 1, .thread 1, .thread 0, .thread 0] ++
    List.replicate 10 (.worker .work) ++ [.worker (.sinkPop 0), .worker (.sinkFin 0), .worker (.sinkPop 0), .worker (.sinkFin 0), .worker (.sinkPop 0), .worker (.sinkFin 0),
      .worker (.sinkPop 0), .worker (.sinkFin 0), .worker .work, .worker .work], _, rfl, ?_, rfl, rfl, rfl, ?_, rfl⟩
  · intro x hx
    simp [List.replicate] at hx
    rcases hx with rfl | rfl | rfl | rfl | rfl | rfl | rfl | rfl | rfl | rfl <;> trivial
  · refine ⟨?_, ?_, ?_, trivial⟩ <;> intro l e <;> cases e <;> decide +kernel

/-- The hypotheses of `C92_label` can be met: two threads are in a fatal statement. -/
example : ∃ ls s s' m, qfRun false 2048 (QfState.start readyWorker twoFailProgs) ls = some s ∧ (∀ x, .worker x ∈ ls → background x) ∧
    (s.th 1).pc = .crashing (fatalAt 3) ∧ inFatalStmt (s.th 0).pc = some (fatalAt 2) ∧ qfStep false 2048 s (.thread 1) = some s' ∧ (s'.th 1).pc = .crashed (fatalAt 3) m := by
  refine ⟨[.thread 0, .thread 0, .thread 0, .thread 0, .thread 0, .thread 1, .thread 1], _, _, _, rfl, ?_, rfl, rfl, rfl, rfl⟩
  intro x hx
  simp at hx

end G3.Props
