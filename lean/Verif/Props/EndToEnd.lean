import Verif.Props.WorkerCall
import Verif.Props.FileSink
/-
From LOG to the log file: the worker with a file sink, C51.
-/
namespace G3.Props
open G3 G3.Spec

/-- The message of a write operation of the file sink. -/
def writeOf : SinkOp → Option LogMessage
  | .write m _ => some m
  | _ => none

/-- The message of a task of the sink's thread. -/
def itemMsg : SItem LogMessage → Option LogMessage
  | .msg m => some m
  | .fatal m => some m
  | _ => none

/-- The message of an element that the specification gives to a sink. -/
def gotMsg : Got LogMessage → LogMessage
  | .log m => m
  | .fatal m => m

/-- The thread of the sink has performed the operations `ops` on the file sink: one write per message that it executed, in that order
(sink.hpp:45-58, 64-68). In between the stream may write out by itself. The time of the header is whatever the clock says. -/
def Performs (k : SinkSt LogMessage) (ops : List SinkOp) : Prop :=
  ops.filterMap writeOf = k.done.filterMap itemMsg ∧ ∀ op ∈ ops, (∃ m t, op = .write m t) ∨ ∃ n, op = .spill n

theorem itemMsg_got (x : SItem LogMessage) : itemMsg x = (gotOf x).map gotMsg := by cases x <;> rfl

theorem itemMsg_received (k : SinkSt LogMessage) : k.done.filterMap itemMsg = (Props.received k).map gotMsg := by
  unfold Props.received
  rw [List.map_filterMap]
  congr 1
  funext x
  exact itemMsg_got x

theorem received_writes (E : Env) (f : DetailsFn) (ops : List SinkOp) (h : ∀ op ∈ ops, (∃ m t, op = .write m t) ∨ ∃ n, op = .spill n) :
    Spec.received E f ops = (ops.filterMap writeOf).map (fun m => (toString E m f).1) := by
  induction ops with
  | nil => rfl
  | cons op ops ih =>
    have hi := ih (fun o ho => h o (List.mem_cons_of_mem _ ho))
    rcases h op List.mem_cons_self with ⟨m, t, rfl⟩ | ⟨n, rfl⟩
    · rw [Spec.received, hi]; rfl
    · rw [Spec.received, hi]
      · rfl
      all_goals simp

/-- The header of a file, empty if there is no entry. -/
theorem firstHeader_writes (h : Str) (ops : List SinkOp) (ho : ∀ op ∈ ops, (∃ m t, op = .write m t) ∨ ∃ n, op = .spill n) :
    (ops.filterMap writeOf = [] ∧ firstHeader h ops = []) ∨
    (ops.filterMap writeOf ≠ [] ∧ ∃ t, firstHeader h ops = "\t\tg3log created log at: ".toList ++ t ++ "\n".toList ++ h) := by
  induction ops with
  | nil => exact Or.inl ⟨rfl, rfl⟩
  | cons op ops ih =>
    rcases ho op List.mem_cons_self with ⟨m, t, rfl⟩ | ⟨n, rfl⟩
    · exact Or.inr ⟨by simp [writeOf], t, rfl⟩
    · have := ih (fun o hm => ho o (List.mem_cons_of_mem _ hm))
      simpa [writeOf, firstHeader] using this

/-- The second part of the header. -/
def formatHint : Str :=
  "\t\tLOG format: [YYYY/MM/DD hh:mm:ss uuu* LEVEL FILE->FUNCTION:LINE] message\n\n\t\t(uuu*: microseconds fractions of the seconds value)\n\n".toList

theorem hint_eq : formatHint = defaultHeader := by
  delta formatHint defaultHeader
  exact Eq.refl _

/-- The header text of a newly constructed sink. -/
theorem constructed_header {s : FileSink} {fs : FS} {p path : Str} {N : Nat} (h : Constructed s fs p path N) :
    s.header = formatHint := by
  rw [hint_eq]
  obtain ⟨fs0, lp, dir, id, nt, o1, o2, hn, _, _⟩ := h
  unfold FileSink.new createLogFile at hn
  cases hp : acceptPrefix lp with
  | none => rw [hp] at hn; simp at hn
  | some q =>
    rw [hp] at hn
    cases o1 <;> cases o2 <;> simp at hn
    · rw [← hn.1]
    · rw [← hn.1]
    · rw [← hn.1]

/-- C51: when the worker has been destroyed, the file of a file sink that no client keeps alive contains the header (if there was any
entry), each message that the specification gives to the sink, formatted, in order, and the line about the shutdown, and nothing else;
no other file is touched. For every schedule, every flush interval and every moment at which the stream writes out by itself. -/
theorem C51_file {ls : List (WLabel LogMessage)} {w : WState LogMessage} (hw : wRun WState.start ls = some w) (hp : w.phase = .returned) {i : Nat}
    (hn : i < w.n) (hc : ¬ clientUses w i) (E : Env) {s : FileSink} {fs : FS} {p path : Str} {N : Nat} (hN : 1 ≤ N)
    (h : Constructed s fs p path N) {ops : List SinkOp} (ho : Performs (w.sk i) ops) (time : Str) :
    ∃ s' fs' outs hdr, sinkRun E s fs ops = .ok (s', fs', outs) ∧
      s'.destroy fs' time path = some (hdr ++ ((gets i (handed 0 0 ls)).map fun g => (toString E (gotMsg g) .default).1).flatten ++
        "g3log g3FileSink shutdown at: ".toList ++ time ++ "\n".toList) ∧
      ((gets i (handed 0 0 ls) = [] ∧ hdr = []) ∨ (gets i (handed 0 0 ls) ≠ [] ∧ ∃ t, hdr = "\t\tg3log created log at: ".toList ++ t ++ "\n".toList ++
        formatHint)) ∧
      ∀ q, q ≠ path → s'.destroy fs' time q = fs q := by
  obtain ⟨_, hr, _⟩ := C03_partial hw hp i hn hc
  have hwr : ops.filterMap writeOf = (gets i (handed 0 0 ls)).map gotMsg := by rw [ho.1, itemMsg_received, hr]
  have hno : NoChange ops := by
    intro d j n nt ht o hm
    rcases ho.2 _ hm with ⟨m, t, e⟩ | ⟨k, e⟩ <;> cases e
  obtain ⟨s', fs', outs, h1, h2, h3⟩ := C38_content E hN h ops hno time
  refine ⟨s', fs', outs, firstHeader s.header ops, h1, ?_, ?_, h3⟩
  · rw [h2, received_writes E .default ops ho.2, hwr, List.map_map]; rfl
  · have hnil : (ops.filterMap writeOf = [] ↔ gets i (handed 0 0 ls) = []) := by rw [hwr, List.map_eq_nil_iff]
    rw [← constructed_header h]
    exact (firstHeader_writes s.header ops ho.2).imp (fun x => ⟨hnil.1 x.1, x.2⟩) (fun x => ⟨fun e => x.1 (hnil.2 e), x.2⟩)

/-- C51, the usual program: the sink is the first thing added, messages are logged, nothing else is requested until the destructor
begins. Then the sink gets every message. -/
theorem C51_all_logged (i : Nat) (msgs : List LogMessage) (rest : List (Req LogMessage)) (hr : .attach i ∉ rest) :
    gets i (.attach i :: msgs.map .log ++ .detachAll :: rest) = msgs.map .log := by
  have hnf : ∀ y ∈ (Req.attach i :: msgs.map .log : List (Req LogMessage)) ++ [.detachAll], y.final = false := by
    intro y hy
    simp only [List.cons_append, List.mem_cons, List.mem_append, List.mem_map, List.not_mem_nil, or_false] at hy
    rcases hy with rfl | ⟨m, _, rfl⟩ | rfl <;> rfl
  have e : (Req.attach i :: msgs.map .log ++ .detachAll :: rest : List (Req LogMessage)) =
      ((Req.attach i :: msgs.map .log) ++ [.detachAll]) ++ rest := by simp
  rw [e, gets_never _ _ _ hr]
  · rw [gets, served_self _ hnf]
    have key : ∀ (l : List LogMessage) (pre : List (Req LogMessage)), attached i pre = true →
        getsFrom i pre (l.map .log ++ [.detachAll]) = l.map .log := by
      intro l
      induction l with
      | nil => intro pre hp; simp [getsFrom, Req.gives]
      | cons m l ih =>
        intro pre hp
        rw [List.map_cons, List.cons_append, getsFrom, hp, if_pos rfl, ih]
        · rfl
        · rw [attached_snoc, hp]; rfl
    have ha : attached i ([] : List (Req LogMessage)) = false := rfl
    rw [List.cons_append, getsFrom, ha]
    simp only [Bool.false_eq_true, if_false, List.nil_append]
    rw [key]
    simp [attached, Req.startsFor, Req.endsFor]
  · rw [attached_snoc]
    simp [Req.endsFor]

/-- C51, the usual program, put together: the file consists of the header, the messages in the order in which they were logged, and the line
about the shutdown. -/
theorem C51_program {ls : List (WLabel LogMessage)} {w : WState LogMessage} (hw : wRun WState.start ls = some w) (hp : w.phase = .returned)
    {msgs : List LogMessage} {rest : List (Req LogMessage)} (hl : handed 0 0 ls = .attach 0 :: msgs.map .log ++ .detachAll :: rest)
    (hr : .attach 0 ∉ rest) (hm : msgs ≠ []) (hn : 0 < w.n) (hc : ¬ clientUses w 0) (E : Env) {s : FileSink} {fs : FS} {p path : Str} {N : Nat}
    (hN : 1 ≤ N) (h : Constructed s fs p path N) {ops : List SinkOp} (ho : Performs (w.sk 0) ops) (time : Str) :
    ∃ s' fs' outs t, sinkRun E s fs ops = .ok (s', fs', outs) ∧
      s'.destroy fs' time path = some ("\t\tg3log created log at: ".toList ++ t ++ "\n".toList ++ formatHint ++
        (msgs.map fun m => (toString E m .default).1).flatten ++ "g3log g3FileSink shutdown at: ".toList ++ time ++ "\n".toList) := by
  obtain ⟨s', fs', outs, hdr, h1, h2, h3, _⟩ := C51_file hw hp hn hc E hN h ho time
  rw [hl, C51_all_logged 0 msgs rest hr] at h2 h3
  have hne' : (msgs.map Got.log : List (Got LogMessage)) ≠ [] := by simpa using hm
  rcases h3 with ⟨h3, _⟩ | ⟨_, t, h3⟩
  · exact absurd h3 hne'
  · refine ⟨s', fs', outs, t, h1, ?_⟩
    rw [h2, h3, List.map_map]
    rfl

/-- Two messages. -/
def twoMsgs : List LogMessage := [LogMessage.new false 0 1 [] 1 [] INFO, LogMessage.new false 0 2 [] 1 [] INFO]

/-- The hypotheses of `C51_file` are met by a worker with one sink that gets two messages and is destroyed. -/
example : ∃ w, wRun WState.start ([.add, .work, .ret 0] ++ twoMsgs.map .save ++ [.work, .work, .work, .dtor, .work, .work, .work, .work, .work,
    .sinkPop 0, .sinkFin 0, .sinkPop 0, .sinkFin 0, .sinkPop 0, .sinkFin 0, .work, .work, .dtor, .work, .dtor, .dtor]) = some w ∧ w.phase = .returned ∧
    0 < w.n ∧ ¬ clientUses w 0 ∧ Performs (w.sk 0) (twoMsgs.map (SinkOp.write · [])) := by
  refine ⟨_, rfl, rfl, by decide, ?_, ⟨rfl, ?_⟩⟩
  · intro h
    rcases h with h | h | h
    · exact absurd h (by decide)
    · exact absurd h (by decide)
    · exact absurd h (by decide)
  · intro op hop
    obtain ⟨m, _, rfl⟩ := List.mem_map.1 hop
    exact Or.inl ⟨m, [], rfl⟩

end G3.Props
