import Verif.Model.StderrText
import Verif.Props.Worker
import Verif.Props.Program
import Verif.Props.ProgramThreads
/-
C55, as text: what is on stderr after a program that logs without a sink, and after one that ends with a fatal statement.
-/
namespace G3.Props
open G3.Spec

variable {M : Type}

/-- The text for what the specification puts on stderr. -/
def errSpec (E : Env) (view : M → LogMessage × Int) : Err M → Str
  | .noSinks m => "g3logworker has no sinks. Message: [".toList ++ fileText E (.log (view m)) ++ "]\n".toList
  | .fatal m => fileText E (.fatal (view m))

theorem errText_spec (E : Env) (view : M → LogMessage × Int) (l : ErrLine M) : errText E view l = errSpec E view (toErr l) := by
  cases l with
  | noSinks m => rfl
  | fatal m =>
    show (toString E (bgFatalMessage ⟨(view m).1, (view m).2⟩) .default).1 = fileText E (.fatal (view m))
    unfold fileText bgFatalMessage FatalMessage.reason
    simp

theorem stderrText_spec (E : Env) (view : M → LogMessage × Int) (w : WState M) : stderrText E view w = ((w.err.map toErr).map (errSpec E view)).flatten := by
  unfold stderrText
  suffices H : ∀ (l : List (ErrLine M)) (t : Str), l.foldl (fun t l => t ++ errText E view l) t = t ++ ((l.map toErr).map (errSpec E view)).flatten by
    simpa using H w.err []
  intro l
  induction l with
  | nil => intro t; simp
  | cons x l ih => intro t; rw [List.foldl_cons, ih, errText_spec]; simp

/-- C55: the text on stderr once the worker has nothing to do: one report for each message that met no sink, and the entry of the fatal message, in order. -/
theorem C55_text {ls : List (WLabel M)} {s : WState M} (h : wRun WState.start ls = some s) (hs : settled s) (E : Env) (view : M → LogMessage × Int) :
    stderrText E view s = ((errs (handed 0 0 ls)).map (errSpec E view)).flatten := by
  rw [stderrText_spec, C55_complete h hs]

/-- C55: before that it is the beginning of it. -/
theorem C55_text_prefix {ls : List (WLabel M)} {s : WState M} (h : wRun WState.start ls = some s) (E : Env) (view : M → LogMessage × Int) :
    stderrText E view s <+: ((errs (handed 0 0 ls)).map (errSpec E view)).flatten := by
  rw [stderrText_spec]
  obtain ⟨r, hr⟩ := C55_prefix h
  exact ⟨(r.map (errSpec E view)).flatten, by rw [← hr]; simp⟩

theorem errs_logs (l : List M) (r : List (Req M)) (hr : ∀ x ∈ r, x = .detachAll ∨ x = .close) : errs (l.map .log ++ r) = l.map .noSinks := by
  have hid : ∀ (p : List (Req M)), (∀ x ∈ p, (∃ m, x = .log m) ∨ x = .detachAll ∨ x = .close) → nobody p = true := by
    intro p hp
    have : idsOf p = [] := by
      unfold idsOf
      rw [List.filterMap_eq_nil_iff]
      intro x hx
      rcases hp x hx with ⟨m, rfl⟩ | rfl | rfl <;> rfl
    unfold nobody
    rw [this]
    rfl
  have hrest : ∀ (r p : List (Req M)), (∀ x ∈ r, x = .detachAll ∨ x = .close) → errsFrom p (served r) = [] := by
    intro r
    induction r with
    | nil => intro p _; rfl
    | cons x r ih =>
      intro p hx
      rcases hx x List.mem_cons_self with rfl | rfl
      · exact ih _ fun y hy => hx y (List.mem_cons_of_mem _ hy)
      · rfl
  suffices H : ∀ (p : List (Req M)), (∀ x ∈ p, (∃ m, x = .log m) ∨ x = .detachAll ∨ x = .close) → errsFrom p (served (l.map .log ++ r)) = l.map .noSinks from
    H [] (by simp)
  induction l with
  | nil => intro p _; exact hrest r p hr
  | cons m l ih =>
    intro p hp
    have e : served (List.map Req.log (m :: l) ++ r) = .log m :: served (l.map .log ++ r) := rfl
    rw [e, errsFrom, Req.err, if_pos (hid p hp), ih (p ++ [Req.log m])]
    · rfl
    · intro x hx
      rcases List.mem_append.1 hx with hx | hx
      · exact hp x hx
      · exact Or.inl ⟨m, List.mem_singleton.1 hx⟩

/-- C55, from the LOG statements to stderr: any number of threads run LOG statements and change levels while the worker has no sink (then it may be destroyed). When the worker has done its
work, stderr has exactly one complete report for each executed statement; those of every thread are in the order of its program. -/
theorem C55_program_text (E : Env) (full : Bool) (size : Nat) (hsz : 1 ≤ size) (progs : Nat → List PStep)
    {ls : List PLabel} {s : PState} (hr : ptRun full size (PState.start WState.start progs) ls = some s) (hbg : ∀ x, .worker x ∈ ls → background x)
    (hall : ∀ t, (s.th t).todo = [] ∧ (s.th t).held = none) (hd : Documented sInit (uses s.trace))
    {dls : List (WLabel LogMessage)} {w : WState LogMessage} (hw : wRun s.worker dls = some w) (hdls : ∀ x ∈ dls, x = .dtor ∨ background x) (hset : settled w) :
    ∃ trace order, (∀ t, ofThread t trace = progs t) ∧ (∀ t, ofThread t order = ofThread t (executedBy sInit trace)) ∧
      stderrText E (fun m => (m, 0)) w =
        (order.map fun x => "g3logworker has no sinks. Message: [".toList ++ stmtLine E full size x.2 ++ "]\n".toList).flatten := by
  have hi := pInv_run hsz (pInv_start WState.start progs) hr
  obtain ⟨wls, new, a, b, c, d, lv⟩ := worker_run hsz hr
  have hb : s.acc = new := by rw [b]; rfl
  replace a : wRun WState.start wls = some s.worker := a
  subst hb
  have hwls : ∀ x ∈ wls, (∃ m, x = .save m) ∨ background x := fun x hx => (d x hx).imp id (hbg x)
  have hrun := wRun_append' a hw
  have hh : handed 0 0 (wls ++ dls) = (s.acc.map fun x => stmtMsg full size x.2).map .log ++ handed 0 0 dls := by
    rw [handed_background (by omega) _ wls hwls, c]
  have hend : ∀ (dls : List (WLabel LogMessage)) (n : Nat), (∀ x ∈ dls, x = .dtor ∨ background x) → ∀ x ∈ handed n 0 dls, x = .detachAll ∨ x = .close := by
    intro dls
    induction dls with
    | nil => intro n _ x hx; cases hx
    | cons y dls ih =>
      intro n hy x hx
      rcases hy y List.mem_cons_self with rfl | hb
      · have hx : x ∈ Req.detachAll :: handed n 1 dls := hx
        rcases List.mem_cons.1 hx with rfl | hx
        · exact Or.inl rfl
        · exact Or.inr (handed_end n dls 1 (Nat.le_refl _) (fun z hz => hy z (List.mem_cons_of_mem _ hz)) x hx)
      · refine ih n (fun z hz => hy z (List.mem_cons_of_mem _ hz)) x ?_
        cases y <;> first | exact hb.elim | exact hx
  refine ⟨s.trace, s.acc, ?_, ?_, ?_⟩
  · intro t
    have := hi.trace t
    rw [(hall t).1, List.append_nil] at this
    exact this
  · intro t
    have := hi.acc hd t
    rw [(hall t).2] at this
    simpa using this.symm
  · rw [C55_text hrun hset, hh, errs_logs _ _ (hend dls 0 hdls), List.map_map, List.map_map]
    congr 1
    apply List.map_congr_left
    intro x hx
    show "g3logworker has no sinks. Message: [".toList ++ (toString E (stmtMsg full size x.2) .default).1 ++ "]\n".toList = _
    rw [stmt_toString E full size x.2 (lv x hx)]

theorem errs_fatal (msgs : List M) (m : M) (rest : List (Req M)) : errs (.attach 0 :: msgs.map .log ++ .fatal m :: rest) = [.fatal m] := by
  have hatt : ∀ (q : List M), attached 0 (.attach 0 :: q.map .log) = true := by
    intro q
    induction q using List.reverseRecOn with
    | nil => rfl
    | append_singleton q x ih =>
      rw [List.map_append, ← List.cons_append]
      unfold attached at ih ⊢
      rw [List.foldl_append, ih]
      rfl
  have hno : ∀ (q : List M), nobody (Req.attach 0 :: q.map Req.log) = false := by
    intro q
    cases hn : nobody (Req.attach 0 :: q.map Req.log)
    · rfl
    · have := (nobody_iff _).1 hn 0
      rw [hatt q] at this
      cases this
  have key : ∀ (l q : List M), errsFrom (.attach 0 :: q.map .log) (served (l.map .log ++ .fatal m :: rest)) = [.fatal m] := by
    intro l
    induction l with
    | nil => intro q; rfl
    | cons x l ih =>
      intro q
      have e : served (List.map Req.log (x :: l) ++ .fatal m :: rest) = .log x :: served (l.map .log ++ .fatal m :: rest) := rfl
      rw [e, errsFrom, Req.err, hno q, if_neg (by simp), List.nil_append]
      have := ih (q ++ [x])
      rw [List.map_append] at this
      exact this
  exact key msgs []

/-- C55, a fatal end: while a sink is attached nothing is reported until the fatal message; then stderr has exactly the entry that the sinks get. -/
theorem C55_fatal_text (E : Env) {ls : List (WLabel (LogMessage × Int))} {w : WState (LogMessage × Int)} (hw : wRun WState.start ls = some w) (hdead : w.wpc = .dead)
    {msgs : List (LogMessage × Int)} {m : LogMessage × Int} {rest : List (Req (LogMessage × Int))}
    (hl : handed 0 0 ls = .attach 0 :: msgs.map .log ++ .fatal m :: rest) :
    stderrText E id w = fileText E (.fatal m) := by
  have h := C55_text hw (Or.inr (Or.inr hdead)) E id
  rw [hl, errs_fatal] at h
  rw [h, List.map_cons, List.map_nil, List.flatten_cons, List.flatten_nil, List.append_nil]
  rfl

/-- C55: and if it comes from a statement (LOG(FATAL), CHECK, a fatal level of the program), it is the entry of that statement. -/
theorem C55_fatal_statement (E : Env) (full : Bool) (size : Nat) (last : LogStmt) {ls : List (WLabel (LogMessage × Int))} {w : WState (LogMessage × Int)}
    (hw : wRun WState.start ls = some w) (hdead : w.wpc = .dead) {msgs : List (LogMessage × Int)} {rest : List (Req (LogMessage × Int))}
    (hl : handed 0 0 ls = .attach 0 :: msgs.map .log ++ .fatal ((FatalMessage.new { stmtMsg full size last with
      message := (stmtMsg full size last).message ++ cstr ("\n*******\tSTACKDUMP *******\n".toList ++ last.dump) } last.signal).base, last.signal) :: rest) :
    stderrText E id w = stmtFatal E full size last := by
  rw [C55_fatal_text E hw hdead hl, stmt_fatal_text]

/-- Two threads log without a sink; thread 1 is faster. Then the worker is destroyed. -/
example : ∃ s w, ptRun false 2048 (PState.start WState.start fun t => if t < 2 then [.log (infoStmt t)] else [])
      [.thread 0, .thread 1, .thread 1, .worker .work, .thread 0, .worker .work] = some s ∧
    (∀ t, (s.th t).todo = [] ∧ (s.th t).held = none) ∧ s.acc = [(1, infoStmt 1), (0, infoStmt 0)] ∧ wRun s.worker [.dtor, .work, .work] = some w ∧ settled w ∧ w.err.length = 2 := by
  refine ⟨_, _, rfl, ?_, rfl, rfl, Or.inl ⟨rfl, rfl⟩, rfl⟩
  intro t
  rcases t with _ | _ | t <;> exact ⟨rfl, rfl⟩

example : ∃ w, wRun (WState.start : WState Nat) [.add, .work, .ret 0, .save 7, .fatal 8, .work, .work, .work, .work, .work, .work, .work, .sinkPop 0, .sinkFin 0, .sinkPop 0, .sinkFin 0,
    .sinkPop 0, .sinkFin 0, .work, .work] = some w ∧ w.wpc = .dead ∧ w.err = [.fatal 8] := ⟨_, rfl, rfl, rfl⟩

end G3.Props
