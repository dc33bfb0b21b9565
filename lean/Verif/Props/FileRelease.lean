import Verif.Model.FileRelease
import Verif.Props.FileSink
/-
C82: a file sink of a release build whose file cannot be created.
-/
namespace G3.Props
open G3 G3.Spec

/-- C82: the constructor of a release build. It agrees with the debug build (C38) except when neither place can be
opened: then it returns normally, the file system is as before, and the sink names the file
in the working directory although there is none. -/
theorem C82_constructor (fs : FS) (lp dir id nameTime : Str) (N : Nat) (o1 o2 : Bool) :
    (∀ s fs', FileSink.new fs lp dir id N nameTime o1 o2 = .ok (s, fs') →
      RelSink.new fs lp dir id N nameTime o1 o2 = .ok (⟨s, false⟩, fs')) ∧
    (FileSink.new fs lp dir id N nameTime o1 o2 = .error .abortPrefix →
      RelSink.new fs lp dir id N nameTime o1 o2 = .error (.sink .abortPrefix)) ∧
    (FileSink.new fs lp dir id N nameTime o1 o2 = .error .assertOpen →
      ∃ s p, RelSink.new fs lp dir id N nameTime o1 o2 = .ok (⟨s, true⟩, fs) ∧ acceptPrefix lp = some p ∧
        s.path = "./".toList ++ createLogFileName p id nameTime ∧ s.firstEntry = true) ∧
    (FileSink.new fs lp dir id N nameTime o1 o2 = .error .assertOpen ↔
      acceptPrefix lp ≠ none ∧ o1 = false ∧ o2 = false) := by
  unfold FileSink.new RelSink.new createLogFile
  cases hp : acceptPrefix lp with
  | none => simp
  | some p =>
    cases o1 <;> cases o2 <;> simp

theorem relStep_open (E : Env) (s : FileSink) (fs : FS) (op : SinkOp) :
    relStep E ⟨s, false⟩ fs op =
      match sinkStep E s fs op with
      | .error e => .error (.sink e)
      | .ok (s', fs', r) => .ok (⟨s', false⟩, fs', r) := by
  cases op with
  | write m t =>
    simp only [relStep, sinkStep, RelSink.fileWrite, Bool.false_eq_true, if_false]
    cases s.fileWrite E fs m t <;> rfl
  | _ => rfl

/-- C82: a sink that did open a file behaves exactly as in the debug build. -/
theorem C82_opened_partial (E : Env) (s : FileSink) (fs : FS) (ops : List SinkOp) (time : Str) :
    relLife E ⟨s, false⟩ fs ops time =
      match sinkRun E s fs ops with
      | .error e => .error (.sink e)
      | .ok (s', fs', rs) => .ok (rs, s'.destroy fs' time) := by
  have hrun : ∀ (ops : List SinkOp) (s : FileSink) (fs : FS), relRun E ⟨s, false⟩ fs ops =
      match sinkRun E s fs ops with
      | .error e => .error (.sink e)
      | .ok (s', fs', rs) => .ok (⟨s', false⟩, fs', rs) := by
    intro ops
    induction ops with
    | nil => intro s fs; rfl
    | cons op ops ih =>
      intro s fs
      rw [relRun, relStep_open, sinkRun]
      cases sinkStep E s fs op with
      | error e => rfl
      | ok x =>
        obtain ⟨s', fs', r⟩ := x
        simp only [ih]
        cases sinkRun E s' fs' ops <;> rfl
  unfold relLife
  rw [hrun]
  cases sinkRun E s fs ops <;> rfl

/-- An operation that does not need the file. -/
def NeedsNoFile : SinkOp → Prop
  | .write .. => False
  | .change .. => False
  | _ => True

theorem relStep_null (E : Env) (s : RelSink) (hn : s.null = true) (hf : s.sink.firstEntry = true) (fs : FS) (op : SinkOp) :
    (NeedsNoFile op → ∃ s' r, relStep E s fs op = .ok (s', fs, r) ∧ s'.null = true ∧ s'.sink.firstEntry = true ∧
      s'.sink.path = s.sink.path ∧ r = (match op with | .fileName => s.sink.path | _ => [])) ∧
    (¬ NeedsNoFile op → relStep E s fs op = .error .nullStream) := by
  cases op with
  | write m t => simp [NeedsNoFile, relStep, RelSink.fileWrite, hn, hf]
  | change d i n nt ht o => simp [NeedsNoFile, relStep, RelSink.changeLogFile, hn]
  | overrideDetails f => exact ⟨fun _ => ⟨_, _, rfl, hn, hf, rfl, rfl⟩, fun h => absurd trivial h⟩
  | overrideHeader f => exact ⟨fun _ => ⟨_, _, rfl, hn, hf, rfl, rfl⟩, fun h => absurd trivial h⟩
  | fileName => exact ⟨fun _ => ⟨_, _, rfl, hn, hf, rfl, rfl⟩, fun h => absurd trivial h⟩
  | spill n => exact ⟨fun _ => ⟨s, [], by simp [relStep, hn], hn, hf, rfl, rfl⟩, fun h => absurd trivial h⟩

/-- C82, negation: whatever the program does with such a sink, its life ends in undefined behaviour: at the first
message, at the first change of file (even one that could open its file), and at the latest
when the sink is destroyed. Nothing was written to any file by then. -/
theorem C82_negation (E : Env) (fs : FS) (lp dir id nameTime : Str) (N : Nat) (hlp : acceptPrefix lp ≠ none)
    (ops : List SinkOp) (time : Str) :
    ∃ s, RelSink.new fs lp dir id N nameTime false false = .ok (s, fs) ∧ relLife E s fs ops time = .error .nullStream := by
  obtain ⟨_, _, h3, h4⟩ := C82_constructor fs lp dir id nameTime N false false
  obtain ⟨s, p, e, _, _, hf⟩ := h3 (h4.mpr ⟨hlp, rfl, rfl⟩)
  refine ⟨_, e, ?_⟩
  have : ∀ (ops : List SinkOp) (s : RelSink), s.null = true → s.sink.firstEntry = true → relLife E s fs ops time = .error .nullStream := by
    intro ops
    induction ops with
    | nil => intro s hn _; simp [relLife, relRun, RelSink.destroy, hn]
    | cons op ops ih =>
      intro s hn hf
      obtain ⟨h1, h2⟩ := relStep_null E s hn hf fs op
      by_cases h : NeedsNoFile op
      · obtain ⟨s', r, e, q1, q2, _⟩ := h1 h
        have := ih s' q1 q2
        unfold relLife at this ⊢
        rw [relRun, e]
        simp only
        cases hr : relRun E s' fs ops with
        | error e' => rw [hr] at this; exact this
        | ok x =>
          obtain ⟨s2, fs2, rs⟩ := x
          rw [hr] at this
          simp only at this ⊢
          cases hd : s2.destroy fs2 time with
          | error e' => rw [hd] at this; exact this
          | ok y => rw [hd] at this; cases this
      · unfold relLife
        rw [relRun, h2 h]
  exact this ops _ rfl hf

/-- C82: how long it goes well: exactly until the first operation that needs the file. -/
theorem C82_until_partial (E : Env) (fs : FS) (lp dir id nameTime : Str) (N : Nat) (hlp : acceptPrefix lp ≠ none)
    (ops : List SinkOp) :
    ∃ s, RelSink.new fs lp dir id N nameTime false false = .ok (s, fs) ∧
      ((∀ op ∈ ops, NeedsNoFile op) → ∃ s', relRun E s fs ops = .ok (s', fs, ops.map fun
        | .fileName => s.sink.path
        | _ => [])) ∧
      (¬ (∀ op ∈ ops, NeedsNoFile op) → relRun E s fs ops = .error .nullStream) := by
  obtain ⟨_, _, h3, h4⟩ := C82_constructor fs lp dir id nameTime N false false
  obtain ⟨s, p, e, _, _, hf⟩ := h3 (h4.mpr ⟨hlp, rfl, rfl⟩)
  refine ⟨_, e, ?_⟩
  have : ∀ (ops : List SinkOp) (s : RelSink), s.null = true → s.sink.firstEntry = true →
      ((∀ op ∈ ops, NeedsNoFile op) → ∃ s', relRun E s fs ops = .ok (s', fs, ops.map fun
        | .fileName => s.sink.path
        | _ => [])) ∧
      (¬ (∀ op ∈ ops, NeedsNoFile op) → relRun E s fs ops = .error .nullStream) := by
    intro ops
    induction ops with
    | nil => intro s _ _; exact ⟨fun _ => ⟨s, rfl⟩, fun h => absurd (by simp) h⟩
    | cons op ops ih =>
      intro s hn hf
      obtain ⟨h1, h2⟩ := relStep_null E s hn hf fs op
      by_cases h : NeedsNoFile op
      · obtain ⟨s', r, e, q1, q2, q3, q4⟩ := h1 h
        obtain ⟨i1, i2⟩ := ih s' q1 q2
        rw [q3] at i1
        constructor
        · intro ha
          obtain ⟨s2, e2⟩ := i1 (fun o ho => ha o (List.mem_cons_of_mem _ ho))
          refine ⟨s2, ?_⟩
          rw [relRun, e]; simp only; rw [e2, q4]
          cases op <;> rfl
        · intro ha
          rw [relRun, e]; simp only
          rw [i2 (fun hall => ha (by
            intro o ho
            rcases List.mem_cons.mp ho with rfl | ho
            · exact h
            · exact hall o ho))]
      · constructor
        · intro ha; exact absurd (ha op (by simp)) h
        · intro _; rw [relRun, h2 h]
  exact this ops _ rfl hf

example : acceptPrefix "p".toList ≠ none := by decide
example : ∀ op ∈ [SinkOp.fileName, .overrideHeader "x".toList], NeedsNoFile op := by simp [NeedsNoFile]
example : ¬ ∀ op ∈ [SinkOp.fileName, .write (LogMessage.new false 0 1 [] 1 [] INFO) []], NeedsNoFile op := by simp [NeedsNoFile]

/-- C82: writing an entry through a stream that does not exist, in every state: it dereferences the stream exactly for the first entry
(the header) and for the entries that flush; the others only collect the entry. -/
theorem C82_write (E : Env) (s : RelSink) (hn : s.null = true) (fs : FS) (m : LogMessage) (t : Str) :
    (s.fileWrite E fs m t = .error .nullStream ↔ s.sink.firstEntry = true ∨ s.sink.every ≠ 0 ∧ s.sink.every ∣ s.sink.counter + 1) ∧
    (s.fileWrite E fs m t = .error (.sink .moduloZero) ↔ s.sink.firstEntry = false ∧ s.sink.every = 0) ∧
    (∀ s' fs', s.fileWrite E fs m t = .ok (s', fs') ↔
      s.sink.firstEntry = false ∧ s.sink.every ≠ 0 ∧ ¬ s.sink.every ∣ s.sink.counter + 1 ∧ fs' = fs ∧
      s' = { s with sink := { s.sink with buffer := s.sink.buffer ++ (toString E m s.sink.detailsFn).1, counter := s.sink.counter + 1 } }) := by
  obtain ⟨k, nl⟩ := s
  cases hn
  simp only [RelSink.fileWrite, Nat.dvd_iff_mod_eq_zero, if_true]
  cases hf : k.firstEntry <;> by_cases h0 : k.every = 0 <;> by_cases h1 : (k.counter + 1) % k.every = 0 <;>
    simp [h0, h1, eq_comm, and_comm]

/-- A sink that flushes every third entry and has collected one. -/
example : ∃ s : RelSink, s.null = true ∧ s.sink.firstEntry = false ∧ s.sink.every ≠ 0 ∧ ¬ s.sink.every ∣ s.sink.counter + 1 :=
  ⟨⟨⟨.default, [], [], ⟨[], 0, []⟩, [], false, [], 1, 3⟩, true⟩, by decide⟩

end G3.Props
