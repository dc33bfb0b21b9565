import Verif.Props.FileDiag
/-
C95 for programs that are stopped by an operation of the sink: what has been written to stderr by then.
-/
namespace G3.Props
open G3 G3.Spec

theorem stepD_fst (fb : Str) (E : Env) (s : FileSink) (fs : FS) (op : SinkOp) : (sinkStepD fb E s fs op).1 = sinkStep E s fs op := by
  cases op <;> rfl

/-- C95: if an operation stops the program, stderr holds exactly the lines of the operations before it, and the program is stopped by the
same operation and for the same reason as without the account of stderr. -/
theorem C95_stopped (fb : Str) (E : Env) (ops : List SinkOp) (s : FileSink) (fs : FS) {e : SinkErr} (h : sinkRun E s fs ops = .error e) :
    ∃ done op rest s' fs' rs, ops = done ++ op :: rest ∧ sinkRun E s fs done = .ok (s', fs', rs) ∧ sinkStep E s' fs' op = .error e ∧
      sinkRunD fb E s fs ops = (.error e, diagText fb (changeLines s.prefixBackup done)) := by
  induction ops generalizing s fs with
  | nil => cases h
  | cons op ops ih =>
    rw [sinkRun] at h
    have ht := step_text fb E s fs op
    have h1 := stepD_fst fb E s fs op
    rcases hd : sinkStepD fb E s fs op with ⟨res, t⟩
    rw [hd] at ht h1
    dsimp only at ht h1
    cases hx : sinkStep E s fs op with
    | error e' =>
      rw [hx] at h h1
      cases h
      refine ⟨[], op, ops, s, fs, [], rfl, rfl, hx, ?_⟩
      rw [sinkRunD, hd, h1]
      dsimp only
      cases op with
      | change d i n nt ht o => cases hx
      | _ => rw [ht]; rfl
    | ok x =>
      obtain ⟨s1, fs1, r⟩ := x
      rw [hx] at h h1
      dsimp only at h
      cases hy : sinkRun E s1 fs1 ops with
      | ok y => rw [hy] at h; cases h
      | error e' =>
        rw [hy] at h
        cases h
        obtain ⟨done, op', rest, s', fs', rs, e1, e2, e3, e4⟩ := ih s1 fs1 hy
        refine ⟨op :: done, op', rest, s', fs', r :: rs, by rw [e1]; rfl, ?_, e3, ?_⟩
        · rw [sinkRun, hx]; dsimp only; rw [e2]
        · rw [sinkRunD, hd, h1]
          dsimp only
          rw [e4, ht, changeLines_cons s.prefixBackup op done, (change_target E s fs op hx).1]
          simp only [diagText, List.map_append, List.flatten_append]

/-- C95: only writing an entry can stop the program, and only if the sink was told to flush every 0 entries. -/
theorem C95_stops (E : Env) (s : FileSink) (fs : FS) (op : SinkOp) {e : SinkErr} :
    sinkStep E s fs op = .error e ↔ e = .moduloZero ∧ s.every = 0 ∧ ∃ m t, op = .write m t := by
  cases op with
  | write m t =>
    simp only [sinkStep, FileSink.fileWrite, FileSink.addLogFileHeader]
    cases hf : s.firstEntry <;> simp only [if_true, Bool.false_eq_true, if_false] <;> by_cases h0 : s.every = 0 <;>
      by_cases h1 : (s.counter + 1) % s.every = 0 <;> simp [h0, h1, eq_comm]
  | _ => simp [sinkStep]

/-! ### Non-trivial cases -/

/-- A sink that flushes every 0 entries: a change of the file that fails, an entry, and a further change that is not reached. -/
example (E : Env) (m : LogMessage) (fs : FS) :
    sinkRun E ⟨.default, "./a.log".toList, "a".toList, ⟨"./a.log".toList, 0, []⟩, [], true, [], 0, 0⟩ fs
      [.change "x/".toList [] [] "U".toList [] false, .write m [], .change "y/".toList [] [] "V".toList [] false] = .error .moduloZero := rfl

end G3.Props
