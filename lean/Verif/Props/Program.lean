import Verif.Props.FatalEnd
import Verif.Props.Levels
import Verif.Props.Capture
import Verif.Props.LogMessage
import Verif.Spec.Program
/-
From the LOG statement to the text in the file, C71: level registry, capture, front end, worker and file sink together.
-/
namespace G3.Props
open G3 G3.Spec

/-- The message of a statement. -/
def stmtMsg (full : Bool) (size : Nat) (s : LogStmt) : LogMessage :=
  { detailsFn := .default, timestamp := s.now, threadId := s.tid, file := shownFile full s.file, filePath := s.file, line := s.line,
    function := s.function, level := ⟨s.level.value, cstr s.level.text⟩, expression := s.expression, message := stmtText size s }

theorem stmt_op (full : Bool) (size : Nat) (hs : 1 ≤ size) (s : LogStmt) :
    s.op full size = some (if 1000 ≤ s.level.value then
      .fatal (stmtMsg full size s) (cstr ("\n*******\tSTACKDUMP *******\n".toList ++ s.dump)) s.signal
      else .log (stmtMsg full size s)) := by
  obtain ⟨c, h1, h2⟩ := C54_text size hs full s.now s.tid s.file s.function s.expression s.dump s.line s.signal s.level s.ins
  unfold LogStmt.op
  rw [h1]
  simp only
  rw [h2]
  by_cases h : 1000 ≤ s.level.value
  · simp only [if_pos h]; rfl
  · simp only [if_neg h]; rfl

theorem levelRun_snoc (r : Registry) (os : List LevelOp) (o : LevelOp) :
    (levelRun r (os ++ [o])).2 = (levelStep (levelRun r os).2 o).2 := by
  induction os generalizing r with
  | nil => rfl
  | cons a os ih => simp only [List.cons_append, levelRun]; exact ih _

theorem sRun_snoc (σ : SState) (os : List LevelOp) (o : LevelOp) : (sRun σ (os ++ [o])).2 = sStep (sRun σ os).2 o := by
  induction os generalizing σ with
  | nil => rfl
  | cons a os ih => simp only [List.cons_append, sRun]; exact ih _

theorem documented_append (σ : SState) (a b : List LevelOp) :
    Documented σ (a ++ b) ↔ Documented σ a ∧ Documented (sRun σ a).2 b := by
  induction a generalizing σ with
  | nil => simp [Documented, sRun]
  | cons o a ih => simp only [List.cons_append, Documented, ih, sRun]; exact and_assoc.symm

/-- The front end sees exactly the statements whose level is on. -/
theorem progOps_executed (full : Bool) (size : Nat) (hs : 1 ≤ size) (p : List PStep) (os : List LevelOp)
    (hd : Documented sInit (os ++ p.map progLevel)) :
    progOps full size (levelRun defaultLevels os).2 p =
      (executed (sRun sInit os).2 p).filterMap fun s => s.op full size := by
  induction p generalizing os with
  | nil => rfl
  | cons x p ih =>
    have hd' : Documented sInit ((os ++ [progLevel x]) ++ p.map progLevel) := by simpa using hd
    have hi := ih _ hd'
    rw [levelRun_snoc, sRun_snoc] at hi
    cases x with
    | levels o => exact hi
    | log s =>
      have hon := ((C21_registry_refines_map os ((documented_append _ _ _).1 hd).1).2 s.level).2
      have e1 : (levelStep (levelRun defaultLevels os).2 (progLevel (.log s))).2 = (logLevel s.level (levelRun defaultLevels os).2).2 := rfl
      have e2 : sStep (sRun sInit os).2 (progLevel (.log s)) = (sRun sInit os).2 := rfl
      rw [e1, e2] at hi
      rw [progOps, executed, hon, hi]
      by_cases h : (sRun sInit os).2 s.level.value = some true
      · simp only [h, decide_true, Bool.not_true, Bool.false_eq_true, if_false, if_true]
        rw [stmt_op full size hs s, List.filterMap_cons_some (stmt_op full size hs s)]
        rfl
      · simp [h]

/-- The program as a whole, when none of the executed statements is fatal. -/
theorem progOps_calm (full : Bool) (size : Nat) (hs : 1 ≤ size) (p : List PStep) (hd : Documented sInit (p.map progLevel))
    (hf : ∀ s ∈ executed sInit p, s.level.value < 1000) :
    progOps full size defaultLevels p = (executed sInit p).map fun s => .log (stmtMsg full size s) := by
  have h := progOps_executed full size hs p [] hd
  have e : (levelRun defaultLevels []).2 = defaultLevels := rfl
  have e' : (sRun sInit []).2 = sInit := rfl
  rw [e, e'] at h
  rw [h]
  generalize executed sInit p = l at hf
  induction l with
  | nil => rfl
  | cons s l ih =>
    rw [List.filterMap_cons_some (stmt_op full size hs s), List.map_cons, if_neg (by have := hf s List.mem_cons_self; omega),
      ih (fun x hx => hf x (List.mem_cons_of_mem _ hx))]

theorem deliveries_logs (w : Nat) (l : List LogMessage) (r : List FOp) :
    deliveries (some w) (l.map .log ++ r) = l.map (fun m => (w, m)) ++ deliveries (some w) r := by
  induction l with
  | nil => rfl
  | cons m l ih => rw [List.map_cons, List.cons_append, deliveries, ih]; rfl

/-- The formatted text of the message of a statement. -/
theorem stmt_toString (E : Env) (full : Bool) (size : Nat) (s : LogStmt) (h : s.level.value < 1000) :
    (toString E (stmtMsg full size s) .default).1 = stmtLine E full size s := by
  rw [C26_toString]
  have hk : kindOf (stmtMsg full size s).level.value = .ordinary := if_pos h
  rw [hk]
  simp [entryText, detailsText, stmtMsg, stmtLine, stmtDetails]

/-- C71: a program initialises logging with a worker that has a file sink, runs LOG statements and changes levels (documented use: LOG only with
registered levels), none of them fatal, and destroys the worker. For every schedule of the threads the file then consists of the header, for each
statement whose level was on at the time one line with time, level, file, function, line number and the complete text, in the order
of the statements, and the line about the shutdown. -/
theorem C71_log_to_file (E : Env) (src : Src) (d : Nat) (full : Bool) (size : Nat) (hsz : 1 ≤ size) (prog : List PStep)
    (hd : Documented sInit (prog.map progLevel)) (hf : ∀ s ∈ executed sInit prog, s.level.value < 1000) (hne : executed sInit prog ≠ [])
    {ls : List (WLabel LogMessage)} {w : WState LogMessage} (hw : wRun WState.start ls = some w) (hp : w.phase = .returned)
    {rest : List (Req LogMessage)}
    (hl : handed 0 0 ls = .attach 0 ::
      (saves (fRun E src d Front.start (.init (some 1) :: progOps full size defaultLevels prog)).2.1).map (fun x => .log x.2) ++ .detachAll :: rest)
    (hr : .attach 0 ∉ rest) (hn : 0 < w.n) (hc : ¬ clientUses w 0) {s : FileSink} {fs : FS} {p path : Str} {N : Nat}
    (hN : 1 ≤ N) (h : Constructed s fs p path N) {ops : List SinkOp} (ho : Performs (w.sk 0) ops) (time : Str) :
    ∃ s' fs' outs t, sinkRun E s fs ops = .ok (s', fs', outs) ∧
      s'.destroy fs' time path = some ("\t\tg3log created log at: ".toList ++ t ++ "\n".toList ++ formatHint ++
        ((executed sInit prog).map (stmtLine E full size)).flatten ++ "g3log g3FileSink shutdown at: ".toList ++ time ++ "\n".toList) := by
  have hops := progOps_calm full size hsz prog hd hf
  have hcalm : calm (progOps full size defaultLevels prog) := by
    intro m t n hm
    rw [hops] at hm
    obtain ⟨x, _, hx⟩ := List.mem_map.1 hm
    cases hx
  have hsv := C10_first_kept E src d [] (progOps full size defaultLevels prog) 1 (by intro m t n h; cases h) (by intro w h; cases h) hcalm
  have hdel : deliveries (some 1) (progOps full size defaultLevels prog) = (executed sInit prog).map fun s => (1, stmtMsg full size s) := by
    rw [hops]
    have := deliveries_logs 1 ((executed sInit prog).map (stmtMsg full size)) []
    simpa [deliveries, List.map_map, Function.comp_def] using this
  have hsv' : saves (fRun E src d Front.start (.init (some 1) :: progOps full size defaultLevels prog)).2.1 =
      (executed sInit prog).map fun s => (1, stmtMsg full size s) := by
    have := hsv
    rw [hdel] at this
    simpa [firstLog] using this
  rw [hsv', List.map_map] at hl
  obtain ⟨s', fs', outs, t, h1, h2⟩ := C51_program hw hp (msgs := (executed sInit prog).map (stmtMsg full size))
    (by rw [hl, List.map_map]; rfl) hr (by simpa using hne) hn hc E hN h ho time
  refine ⟨s', fs', outs, t, h1, ?_⟩
  rw [h2, List.map_map]
  congr 6
  apply List.map_congr_left
  intro x hx
  exact stmt_toString E full size x (hf x hx)

/-- The fatal messages handed to workers. -/
def fatalsOf (es : List Eff) : List FatalMessage := es.filterMap fun | .fatal _ m => some m | _ => none

theorem logs_run (E : Env) (src : Src) (d : Nat) (f : Front) (w : Nat) (hf : f.inst = some w) (l : List LogMessage) (r : List FOp) :
    fRun E src d f (l.map .log ++ r) = ((fRun E src d f r).1, l.map (.save w) ++ (fRun E src d f r).2.1, (fRun E src d f r).2.2) := by
  induction l with
  | nil => rfl
  | cons m l ih =>
    have hst : fStep E src d f (.log m) = (f, [.save w m], .ok) := by
      show pushMessageToLogger f m = _
      unfold pushMessageToLogger; rw [hf]
    rw [List.map_cons, List.cons_append, fRun_cons, hst, if_pos (by rfl)]
    simp only [ih]
    rfl

theorem init_run (E : Env) (src : Src) (d : Nat) (w : Nat) (r : List FOp) :
    fRun E src d Front.start (.init (some w) :: r) =
      ((fRun E src d (initializeLogging src Front.start (some w)).1 r).1,
       .install :: (fRun E src d (initializeLogging src Front.start (some w)).1 r).2.1,
       (fRun E src d (initializeLogging src Front.start (some w)).1 r).2.2) := by
  rw [fRun_cons]
  rfl

/-- The text in the file for the fatal message of a statement. -/
theorem stmt_fatal_text (E : Env) (full : Bool) (size : Nat) (s : LogStmt) :
    fileText E (.fatal ((FatalMessage.new { stmtMsg full size s with
      message := (stmtMsg full size s).message ++ cstr ("\n*******\tSTACKDUMP *******\n".toList ++ s.dump) } s.signal).base, s.signal)) =
      stmtFatal E full size s := by
  unfold fileText stmtFatal
  simp only
  rw [C26_toString]
  simp [FatalMessage.new, LogMessage.copy, Level.copy, stmtMsg, detailsText, stmtDetails, cstr_idem]

/-- C71, with a fatal end: the same program, then a fatal statement (LOG(FATAL), a failed CHECK, a fatal level of the user's own). When the process
has ended the file consists of the header, the lines of the statements before, the entry of the fatal statement and the line about
the shutdown. -/
theorem C71_fatal_to_file (E : Env) (src : Src) (d : Nat) (full : Bool) (size : Nat) (hsz : 1 ≤ size) (prog : List PStep)
    (hd : Documented sInit (prog.map progLevel)) (hf : ∀ s ∈ executed sInit prog, s.level.value < 1000) (last : LogStmt)
    (hlast : 1000 ≤ last.level.value)
    {ls : List (WLabel (LogMessage × Int))} {w : WState (LogMessage × Int)} (hw : wRun WState.start ls = some w) (hdead : w.wpc = .dead)
    {effs : List Eff} (heff : effs = (fRun E src (d + 1) Front.start
      (.init (some 1) :: progOps full size defaultLevels prog ++ (last.op full size).toList)).2.1)
    {rest : List (Req (LogMessage × Int))}
    (hl : handed 0 0 ls = .attach 0 :: (saves effs).map (fun x => .log (x.2, 0)) ++
      ((fatalsOf effs).map (fun m => .fatal (m.base, m.signal)) ++ rest))
    (hn : 0 < w.n) (hc : ¬ clientUses w 0) {s : FileSink} {fs : FS} {p path : Str} {N : Nat}
    (hN : 1 ≤ N) (h : Constructed s fs p path N) {ops : List SinkOp} (ho : PerformsFatal (w.sk 0) ops) (time : Str) :
    ∃ s' fs' outs t, sinkRun E s fs ops = .ok (s', fs', outs) ∧
      s'.destroy fs' time path = some ("\t\tg3log created log at: ".toList ++ t ++ "\n".toList ++ formatHint ++
        ((executed sInit prog).map (stmtLine E full size)).flatten ++ stmtFatal E full size last ++
        "g3log g3FileSink shutdown at: ".toList ++ time ++ "\n".toList) := by
  have hops := progOps_calm full size hsz prog hd hf
  have hop := stmt_op full size hsz last
  rw [if_pos hlast] at hop
  generalize hst : cstr ("\n*******\tSTACKDUMP *******\n".toList ++ last.dump) = st at hop
  have hlog : (progOps full size defaultLevels prog : List FOp) = ((executed sInit prog).map (stmtMsg full size)).map .log := by
    rw [hops, List.map_map]; rfl
  have hfat : (fRun E src (d + 1) (initializeLogging src Front.start (some 1)).1 [.fatal (stmtMsg full size last) st last.signal]).2.1 =
      [.hook 0, .fatal 1 (FatalMessage.new { stmtMsg full size last with message := (stmtMsg full size last).message ++ st } last.signal)] := by
    rw [fRun_cons]
    have e : (fStep E src (d + 1) (initializeLogging src Front.start (some 1)).1 (.fatal (stmtMsg full size last) st last.signal)) =
        saveFatalMessage E (d + 1) (initializeLogging src Front.start (some 1)).1 (stmtMsg full size last) st last.signal := rfl
    rw [e]
    unfold saveFatalMessage
    rfl
  rw [List.cons_append, init_run, hop, hlog, logs_run E src (d + 1) _ 1 rfl] at heff
  simp only [Option.toList_some] at heff
  rw [hfat] at heff
  have hsaves : ∀ l : List LogMessage, saves (l.map (Eff.save 1)) = l.map fun m => (1, m) := by
    intro l; induction l with
    | nil => rfl
    | cons m l ih => simp only [List.map_cons, saves, List.filterMap_cons]; exact congrArg _ ih
  have hfatals : ∀ l : List LogMessage, fatalsOf (l.map (Eff.save 1)) = [] := by
    intro l; induction l with
    | nil => rfl
    | cons m l ih => simpa only [List.map_cons, fatalsOf, List.filterMap_cons] using ih
  have hs1 : saves effs = ((executed sInit prog).map (stmtMsg full size)).map fun m => (1, m) := by
    rw [heff, cons_eq, saves_append, saves_append, hsaves]
    simp [saves]
  have hs2 : fatalsOf effs =
      [FatalMessage.new { stmtMsg full size last with message := (stmtMsg full size last).message ++ st } last.signal] := by
    rw [heff]
    have ha : ∀ a b, fatalsOf (a ++ b) = fatalsOf a ++ fatalsOf b := by intro a b; simp [fatalsOf]
    rw [cons_eq, ha, ha, hfatals]
    rfl
  rw [hs1, hs2, List.map_map] at hl
  obtain ⟨s', fs', outs, t, h1, h2⟩ := C70_program hw hdead (msgs := (executed sInit prog).map (stmtMsg full size)) (rest := rest)
    (m := (FatalMessage.new { stmtMsg full size last with message := (stmtMsg full size last).message ++ st } last.signal).base)
    (sig := last.signal) (by rw [hl]; rfl) hn hc E hN h ho time
  refine ⟨s', fs', outs, t, h1, ?_⟩
  rw [h2, ← hst, stmt_fatal_text, List.map_map]
  congr 7
  apply List.map_congr_left
  intro x hx
  exact stmt_toString E full size x (hf x hx)

/-- A program with two statements at INFO, of which the second is switched off, and one at a level of the program's own. -/
def demoProg : List PStep :=
  [.log ⟨"a/b.cpp".toList, 7, "f".toList, INFO, [], 6, [], 0, 1, [.stream "x=".toList, .printf "%d".toList (some "42".toList)]⟩,
   .levels (.disable INFO), .log ⟨"a/b.cpp".toList, 8, "f".toList, INFO, [], 6, [], 0, 1, [.stream "no".toList]⟩,
   .levels (.add1 ⟨501, "MINE".toList⟩),
   .log ⟨"a/b.cpp".toList, 9, "f".toList, ⟨501, "MINE".toList⟩, [], 6, [], 0, 1, [.stream "yes".toList]⟩]

/-- The hypotheses about the program can be met, and two of its statements are executed. -/
example : Documented sInit (demoProg.map progLevel) ∧ (∀ s ∈ executed sInit demoProg, s.level.value < 1000) ∧
    (executed sInit demoProg).map (·.line) = [7, 9] ∧
    (executed sInit demoProg).map (stmtText 2048) = ["x=42".toList, "yes".toList] := by
  refine ⟨?_, by decide +kernel, by decide +kernel, by decide +kernel⟩
  simp only [demoProg, List.map_cons, progLevel, Documented, List.map_nil]
  refine ⟨?_, ?_, ?_, ?_, ?_, trivial⟩
  all_goals intro l hl
  all_goals first | cases hl | skip
  all_goals decide +kernel

/-- The hypotheses about the worker can be met together with those about the program. -/
example (E : Env) (src : Src) : ∃ ls w, wRun (WState.start : WState LogMessage) ls = some w ∧ w.phase = .returned ∧
    handed 0 0 ls = .attach 0 ::
      (saves (fRun E src 1 Front.start (.init (some 1) :: progOps false 2048 defaultLevels demoProg)).2.1).map (fun x => .log x.2) ++
        .detachAll :: [.close] ∧
    0 < w.n ∧ ¬ clientUses w 0 := by
  have h : ∀ a b : LogMessage, ∃ w, wRun (WState.start : WState LogMessage) ([.add, .work, .ret 0, .save a, .save b] ++
      [.work, .work, .work, .dtor, .work, .work, .work, .work, .work,
       .sinkPop 0, .sinkFin 0, .sinkPop 0, .sinkFin 0, .sinkPop 0, .sinkFin 0, .work, .work, .dtor, .work, .dtor, .dtor]) = some w ∧
      w.phase = .returned ∧ 0 < w.n ∧ ¬ clientUses w 0 := by
    intro a b
    refine ⟨_, rfl, rfl, Nat.zero_lt_one, unused_of rfl rfl rfl⟩
  obtain ⟨w, h1, h2, h3, h4⟩ := h (stmtMsg false 2048 ((executed sInit demoProg).getD 0 ⟨[], 0, [], INFO, [], 0, [], 0, 0, []⟩))
    (stmtMsg false 2048 ((executed sInit demoProg).getD 1 ⟨[], 0, [], INFO, [], 0, [], 0, 0, []⟩))
  refine ⟨_, w, h1, h2, ?_, h3, h4⟩
  rfl

end G3.Props
