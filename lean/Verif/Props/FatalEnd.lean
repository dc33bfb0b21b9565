import Verif.Props.EndToEnd
import Verif.Props.Front
/-
A fatal event from the LOG or CHECK expression to the log file: worker with a file sink that ends the process, C70.
What is handed to the worker here is a message with a signal number (only used for fatal messages).
-/
namespace G3.Props
open G3 G3.Spec

/-- What the callback of a sink receives for a task: the message itself (logworker.cpp:27), or for the fatal message the one with
the text added by `bgFatal` (logworker.cpp:48-57). -/
def entryOf : SItem (LogMessage × Int) → Option LogMessage
  | .msg m => some m.1
  | .fatal m => some (bgFatalMessage ⟨m.1, m.2⟩)
  | _ => none

/-- The thread of the sink has performed the operations `ops` on the file sink: one write per message that it executed, in that order
(sink.hpp:45-58, 64-68). In between the stream may write out by itself. -/
def PerformsFatal (k : SinkSt (LogMessage × Int)) (ops : List SinkOp) : Prop :=
  ops.filterMap writeOf = k.done.filterMap entryOf ∧ ∀ op ∈ ops, (∃ m t, op = .write m t) ∨ ∃ n, op = .spill n

/-- The text that a file gets for what the specification gives to its sink: a log message formatted; a fatal message with the
sentence about the exit: the name of the level, and the reason, which depends on level and signal. -/
def fileText (E : Env) : Got (LogMessage × Int) → Str
  | .log m => (toString E m.1 .default).1
  | .fatal m => (toString E { m.1 with message := m.1.message ++ "\nExiting after fatal event  (".toList ++ m.1.level.text ++
      "). Fatal type:  ".toList ++ exitReasonName m.1.level m.2 ++ "\nLog content flushed successfully to sink\n\n".toList } .default).1

theorem entryOf_text (E : Env) (l : List (SItem (LogMessage × Int))) :
    (l.filterMap entryOf).map (fun m => (toString E m .default).1) = (l.filterMap gotOf).map (fileText E) := by
  rw [List.map_filterMap, List.map_filterMap]
  congr 1
  funext x
  cases x with
  | msg m => rfl
  | fatal m =>
    simp only [entryOf, gotOf, Option.map_some, fileText]
    congr 3
    unfold bgFatalMessage FatalMessage.reason
    simp
  | call c => rfl
  | stop => rfl

/-- C70: when the worker has ended the process because of a fatal event, the file of every file sink that no client keeps alive is complete:
the header, each message that was handed to the worker before the fatal one and is due to the sink, in order, the fatal entry
(if the sink was attached), and the line about the shutdown. No other file is touched. For every schedule, every flush interval and
every moment at which the stream writes out by itself. -/
theorem C70_file {ls : List (WLabel (LogMessage × Int))} {w : WState (LogMessage × Int)} (hw : wRun WState.start ls = some w) (hd : w.wpc = .dead) :
    ∃ pre m post, handed 0 0 ls = pre ++ .fatal m :: post ∧ (∀ r ∈ pre, r.final = false) ∧
    ∀ i, i < w.n → ¬ clientUses w i → ∀ (E : Env) {s : FileSink} {fs : FS} {p path : Str} {N : Nat}, 1 ≤ N →
      Constructed s fs p path N → ∀ {ops : List SinkOp}, PerformsFatal (w.sk i) ops → ∀ time : Str,
    ∃ s' fs' outs hdr, sinkRun E s fs ops = .ok (s', fs', outs) ∧
      s'.destroy fs' time path = some (hdr ++ ((gets i pre).map (fileText E)).flatten ++
        (if attached i pre then fileText E (.fatal m) else []) ++ "g3log g3FileSink shutdown at: ".toList ++ time ++ "\n".toList) ∧
      ((gets i pre = [] ∧ attached i pre = false ∧ hdr = []) ∨
        ∃ t, hdr = "\t\tg3log created log at: ".toList ++ t ++ "\n".toList ++ formatHint) ∧
      ∀ q, q ≠ path → s'.destroy fs' time q = fs q := by
  obtain ⟨pre, m, post, h1, h2, h3⟩ := C07_partial hw hd
  refine ⟨pre, m, post, h1, h2, ?_⟩
  intro i hn hc E s fs p path N hN h ops ho time
  obtain ⟨_, hr⟩ := h3 i hn hc
  have hno : NoChange ops := by
    intro d j n nt ht o hm
    rcases ho.2 _ hm with ⟨m, t, e⟩ | ⟨k, e⟩ <;> cases e
  have htext : (ops.filterMap writeOf).map (fun m => (toString E m .default).1) =
      (gets i pre ++ if attached i pre then [Got.fatal m] else []).map (fileText E) := by
    rw [ho.1, entryOf_text, ← hr]
    rfl
  obtain ⟨s', fs', outs, h4, h5, h6⟩ := C38_content E hN h ops hno time
  refine ⟨s', fs', outs, firstHeader s.header ops, h4, ?_, ?_, h6⟩
  · rw [h5, received_writes E .default ops ho.2, htext]
    congr 1
    cases attached i pre <;> simp
  · rw [← constructed_header h]
    rcases firstHeader_writes s.header ops ho.2 with x | x
    · left
      rw [x.1] at htext
      have := List.map_eq_nil_iff.1 htext.symm
      obtain ⟨a, b⟩ := List.append_eq_nil_iff.1 this
      refine ⟨a, ?_, x.2⟩
      cases hat : attached i pre with
      | false => rfl
      | true => rw [hat] at b; cases b
    · exact Or.inr x.2

/-- C70, the usual program: a file sink is added, messages are logged, a fatal event happens. When the process has ended the file
consists of the header, the messages in the order in which they were logged, the fatal entry and the line about the shutdown. What else
was handed to the worker after the fatal message does not appear. -/
theorem C70_program {ls : List (WLabel (LogMessage × Int))} {w : WState (LogMessage × Int)} (hw : wRun WState.start ls = some w) (hd : w.wpc = .dead)
    {msgs : List LogMessage} {m : LogMessage} {sig : Int} {rest : List (Req (LogMessage × Int))}
    (hl : handed 0 0 ls = .attach 0 :: msgs.map (fun x => .log (x, 0)) ++ .fatal (m, sig) :: rest)
    (hn : 0 < w.n) (hc : ¬ clientUses w 0) (E : Env) {s : FileSink} {fs : FS} {p path : Str} {N : Nat}
    (hN : 1 ≤ N) (h : Constructed s fs p path N) {ops : List SinkOp} (ho : PerformsFatal (w.sk 0) ops) (time : Str) :
    ∃ s' fs' outs t, sinkRun E s fs ops = .ok (s', fs', outs) ∧
      s'.destroy fs' time path = some ("\t\tg3log created log at: ".toList ++ t ++ "\n".toList ++ formatHint ++
        (msgs.map fun x => (toString E x .default).1).flatten ++ fileText E (.fatal (m, sig)) ++
        "g3log g3FileSink shutdown at: ".toList ++ time ++ "\n".toList) := by
  obtain ⟨pre, m', post, h1, h2, h3⟩ := C70_file hw hd
  have hsplit : ∀ (a b : List (Req (LogMessage × Int))) (x y : LogMessage × Int) (c d : List (Req (LogMessage × Int))),
      (∀ r ∈ a, r.final = false) → (∀ r ∈ b, r.final = false) → a ++ .fatal x :: c = b ++ .fatal y :: d → a = b ∧ x = y := by
    intro a
    induction a with
    | nil =>
      intro b x y c d _ hb e
      cases b with
      | nil => cases e; exact ⟨rfl, rfl⟩
      | cons z b => cases e; exact absurd (hb _ List.mem_cons_self) (by simp [Req.final])
    | cons z a ih =>
      intro b x y c d ha hb e
      cases b with
      | nil => cases e; exact absurd (ha _ List.mem_cons_self) (by simp [Req.final])
      | cons z' b =>
        injection e with e1 e2
        obtain ⟨q, r⟩ := ih b x y c d (fun r hr => ha r (List.mem_cons_of_mem _ hr)) (fun r hr => hb r (List.mem_cons_of_mem _ hr)) e2
        exact ⟨by rw [e1, q], r⟩
  have hpre := hsplit _ _ _ _ _ _ h2 (by
    intro r hr
    rcases List.mem_cons.1 hr with rfl | hr
    · rfl
    · obtain ⟨x, _, rfl⟩ := List.mem_map.1 hr; rfl) (h1.symm.trans hl)
  obtain ⟨rfl, rfl⟩ := hpre
  obtain ⟨s', fs', outs, hdr, h4, h5, h6, _⟩ := h3 0 hn hc E hN h ho time
  have key : ∀ (l : List LogMessage) (q : List (Req (LogMessage × Int))), attached 0 q = true →
      attached 0 (q ++ l.map fun x => .log (x, 0)) = true ∧ getsFrom 0 q (l.map fun x => .log (x, 0)) = l.map fun x => .log (x, 0) := by
    intro l
    induction l with
    | nil => intro q hq; simpa [getsFrom] using hq
    | cons x l ih =>
      intro q hq
      have hq' : attached 0 (q ++ [Req.log (x, (0 : Int))]) = true := by rw [attached_snoc, hq]; rfl
      obtain ⟨a, b⟩ := ih _ hq'
      refine ⟨by simpa using a, ?_⟩
      rw [List.map_cons, getsFrom, hq, if_pos rfl, b]
      rfl
  obtain ⟨a, b⟩ := key msgs [.attach 0] (by rfl)
  have hg : gets 0 (.attach 0 :: msgs.map fun x => .log (x, (0 : Int))) = msgs.map fun x => .log (x, 0) := by
    rw [gets, served_self _ h2, getsFrom]
    simpa [attached] using b
  have ha : attached 0 (.attach 0 :: msgs.map fun x => .log (x, (0 : Int))) = true := a
  rw [hg, ha, if_pos rfl] at h5
  rcases h6 with ⟨_, h6, _⟩ | ⟨t, h6⟩
  · rw [ha] at h6; cases h6
  · refine ⟨s', fs', outs, t, h4, ?_⟩
    rw [h5, h6, List.map_map]
    rfl

/-- The fatal message of the example. -/
def oops : LogMessage := { LogMessage.new false 0 1 [] 1 [] FATAL with message := "oops".toList }

/-- The hypotheses of `C70_program` are met by a worker with one sink that gets two messages and then a fatal one. -/
example : ∃ w, wRun WState.start ([.add, .work, .ret 0] ++ twoMsgs.map (fun m => .save (m, 0)) ++ [.fatal (oops, 6), .save (oops, 0)] ++
      List.replicate 10 .work ++ [.sinkPop 0, .sinkFin 0, .sinkPop 0, .sinkFin 0, .sinkPop 0, .sinkFin 0,
      .sinkPop 0, .sinkFin 0, .work, .work]) = some w ∧ w.wpc = .dead ∧
    0 < w.n ∧ ¬ clientUses w 0 ∧
    PerformsFatal (w.sk 0) ((twoMsgs ++ [bgFatalMessage ⟨oops, 6⟩]).map (SinkOp.write · [])) := by
  refine ⟨_, rfl, rfl, by decide, ?_, ⟨rfl, ?_⟩⟩
  · intro h
    rcases h with h | h | h
    · exact absurd h (by decide)
    · exact absurd h (by decide)
    · exact absurd h (by decide)
  · intro op hop
    obtain ⟨m, _, rfl⟩ := List.mem_map.1 hop
    exact Or.inl ⟨m, [], rfl⟩

end G3.Props
