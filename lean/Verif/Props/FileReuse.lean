import Verif.Props.FileSink
import Verif.Spec.FileReuse
import Mathlib.Data.List.Chain
/-
C42 for names that are used again: the content of every file after every sequence of operations in which no change asks for the very name in use, and the
exact condition under which a change of file keeps everything.
-/
namespace G3.Props
open G3 G3.Spec

/-- The state of the specification without the finished files. -/
def cut (a : ASink) : ASink := { a with closed := [] }

theorem cut_inv {N : Nat} {p : Str} {s : FileSink} {fs : FS} {a : ASink} (h : FInv N p s fs a) : FInv N p s fs (cut a) :=
  { h with closed := by simp [Props.cut], apart := by simp [Props.cut], disk := h.disk }

theorem cut_step (E : Env) (N : Nat) (p : Str) (a : ASink) (op : SinkOp) : cut (aStep E N p (cut a) op) = cut (aStep E N p a op) := by
  cases op with
  | write m t => by_cases hd : N ∣ a.count + 1 <;> simp [aStep, cut, hd] <;> rfl
  | change d i now nt ht o => cases o <;> rfl
  | _ => rfl

theorem path_step (E : Env) (N : Nat) (p : Str) (a : ASink) (op : SinkOp) : (aStep E N p a op).path = ((a.path :: targets p [op]).getLast (by simp)) := by
  cases op with
  | write m t => simp only [aStep, targets]; split <;> rfl
  | change d i now nt ht o => cases o <;> rfl
  | _ => rfl

theorem latest_append (fs : FS) (a b : List (Str × List Chunk)) : latest fs (a ++ b) = latest (latest fs a) b := by
  induction a generalizing fs with
  | nil => rfl
  | cons x xs ih => exact ih _

theorem latest_last (fs : FS) (a : List (Str × List Chunk)) (x : Str × List Chunk) (q : Str) :
    latest fs (a ++ [x]) q = if q = x.1 then some (chunkText x.2) else latest fs a q := by
  rw [latest_append]; rfl

/-- One operation, if it does not change to the name in use. -/
theorem reuse_step {E : Env} {N : Nat} (hN : 1 ≤ N) {p : Str} {s : FileSink} {fs fs0 : FS} {a : ASink} (h : FInv N p s fs (cut a))
    (hl : ∀ q, q ≠ a.path → fs q = latest fs0 a.closed q) (op : SinkOp) (hop : List.IsChain (· ≠ ·) (a.path :: targets p [op])) :
    ∃ s' fs', sinkStep E s fs op = .ok (s', fs', aOut p a op) ∧ FInv N p s' fs' (cut (aStep E N p a op)) ∧
      ∀ q, q ≠ (aStep E N p a op).path → fs' q = latest fs0 (aStep E N p a op).closed q := by
  have hn : NewName p (cut a) op := by
    unfold NewName
    split
    · simp only [targets, List.isChain_cons_cons] at hop
      simp only [cut, List.map_nil, List.nil_append, List.mem_singleton]
      exact fun e => hop.1 e.symm
    · trivial
  obtain ⟨s', fs', e, hI, ho⟩ := step_sim (E := E) hN h op hn
  have e1 : aOut p (cut a) op = aOut p a op := by
    cases op with
    | change d i now nt ht o => cases o <;> rfl
    | _ => rfl
  refine ⟨s', fs', by rw [e, e1], by rw [← cut_step]; exact cut_inv hI, ?_⟩
  intro q hq
  have same : ∀ (hp : (aStep E N p a op).path = a.path) (hc : (aStep E N p a op).closed = a.closed)
      (hu : usedBy (aStep E N p (cut a) op) = [a.path]), fs' q = latest fs0 (aStep E N p a op).closed q := by
    intro hp hc hu
    rw [hp] at hq
    rw [hc, ho q (by rw [hu]; simpa using hq), hl q hq]
  cases op with
  | write m t =>
    refine same ?_ ?_ ?_ <;> (simp only [aStep]; split <;> rfl)
  | change d i now nt ht o =>
    cases o with
    | false => exact same rfl rfl rfl
    | true =>
      have hq' : q ≠ targetName p d i nt := hq
      show fs' q = latest fs0 (a.closed ++ [_]) q
      rw [latest_last]
      have hc := hI.closed _ (List.mem_append_right _ (List.mem_singleton.mpr rfl))
      by_cases hqa : q = a.path
      · subst hqa
        rw [if_pos rfl]
        exact hc
      · rw [if_neg hqa, ← hl q hqa]
        apply ho
        simp only [usedBy, aStep, cut, List.nil_append, List.map_cons, List.map_nil, List.mem_append, List.mem_singleton, not_or]
        exact ⟨hqa, hq'⟩
  | overrideDetails f => exact same rfl rfl rfl
  | overrideHeader f => exact same rfl rfl rfl
  | fileName => exact same rfl rfl rfl
  | spill n => exact same rfl rfl rfl

theorem reuse_run {E : Env} {N : Nat} (hN : 1 ≤ N) {p : Str} (ops : List SinkOp) {s : FileSink} {fs fs0 : FS} {a : ASink} (h : FInv N p s fs (cut a))
    (hl : ∀ q, q ≠ a.path → fs q = latest fs0 a.closed q) (hop : List.IsChain (· ≠ ·) (a.path :: targets p ops)) :
    ∃ s' fs', sinkRun E s fs ops = .ok (s', fs', aOuts E N p a ops) ∧ FInv N p s' fs' (cut (aRun E N p a ops)) ∧
      ∀ q, q ≠ (aRun E N p a ops).path → fs' q = latest fs0 (aRun E N p a ops).closed q := by
  induction ops generalizing s fs a with
  | nil => exact ⟨s, fs, rfl, h, hl⟩
  | cons op ops ih =>
    rw [targets_cons, ← List.cons_append, List.isChain_append] at hop
    obtain ⟨c1, c2, c3⟩ := hop
    obtain ⟨s1, fs1, e1, h1, l1⟩ := reuse_step (E := E) hN h hl op c1
    have hop2 : List.IsChain (· ≠ ·) ((aStep E N p a op).path :: targets p ops) := by
      rw [path_step, List.isChain_cons]
      refine ⟨fun y hy => c3 _ ?_ _ hy, c2⟩
      rw [List.getLast?_eq_getLast_of_ne_nil (by simp)]
      exact rfl
    obtain ⟨s2, fs2, e2, h2, l2⟩ := ih h1 l1 hop2
    refine ⟨s2, fs2, ?_, h2, l2⟩
    unfold sinkRun; rw [e1]; simp only; rw [e2]; rfl

/-- C42: names may be used again, as long as no change asks for the very name in use. Then every file of the file system is exactly what was written to it since it was opened
last, and files that were never opened are untouched. What is lost is thus exactly what was in a file when a change asked for its name. -/
theorem C42_reuse_exact (E : Env) {s : FileSink} {fs : FS} {p path : Str} {N : Nat} (hN : 1 ≤ N) (h : Constructed s fs p path N)
    (ops : List SinkOp) (hc : List.IsChain (· ≠ ·) (path :: targets p ops)) (time : Str) :
    ∃ s' fs' outs, sinkRun E s fs ops = .ok (s', fs', outs) ∧
      s'.destroy fs' time = latest fs (aFinal (aRun E N p (aInit path) ops) time) := by
  obtain ⟨s', fs', e, hI, hl⟩ := reuse_run (E := E) (fs0 := fs) hN ops (cut_inv (constructed_inv h)) (fun q _ => rfl) hc
  refine ⟨s', fs', _, e, ?_⟩
  obtain ⟨d1, d2⟩ := destroy_sim hI time
  funext q
  unfold aFinal
  rw [latest_last]
  by_cases hq : q = (aRun E N p (aInit path) ops).path
  · rw [if_pos hq, hq]
    exact d1 _ (List.mem_append_right _ (List.mem_singleton.mpr rfl))
  · rw [if_neg hq, ← hl q hq]
    exact d2 q (by simpa [usedBy, cut] using hq)

/-- C42, exactly when a change of file keeps everything: one that fails always does. One that succeeds does if and only if there was nothing in the file it asks for;
should that be the file in use, it is also enough that all characters on disk are NUL. -/
theorem C42_kept_iff (E : Env) {s : FileSink} {fs : FS} {p path : Str} {N : Nat} (hN : 1 ≤ N) (h : Constructed s fs p path N)
    (ops : List SinkOp) (hc : List.IsChain (· ≠ ·) (path :: targets p ops)) (d i n nt ht : Str) (o : Bool) :
    ∃ s' fs' outs, sinkRun E s fs ops = .ok (s', fs', outs) ∧
      (Grown fs' (s'.changeLogFile fs' d i n nt ht o).2.1 ↔
        (o = true → ∀ c, fs' (targetName p d i nt) = some c →
          c = [] ∨ (targetName p d i nt = s'.path ∧ ∀ x ∈ c, x = Char.ofNat 0))) := by
  obtain ⟨s', fs', e, hI, hl⟩ := reuse_run (E := E) (fs0 := fs) hN ops (cut_inv (constructed_inv h)) (fun q _ => rfl) hc
  refine ⟨s', fs', _, e, ?_⟩
  have hpath : s'.path = (aRun E N p (aInit path) ops).path := hI.path
  have hpre : s'.prefixBackup = p := hI.pre
  have hopath : s'.out.path = s'.path := by rw [hpath]; exact hI.opath
  obtain ⟨c, h1, h2, h3, _⟩ := hI.disk
  have h1' : fs' s'.path = some c := by rw [hpath]; exact h1
  cases o with
  | false => exact ⟨fun _ hf => absurd hf (by simp), fun _ q c hq => ⟨c, hq, List.prefix_refl _⟩⟩
  | true =>
    generalize hT : targetName p d i nt = T
    have hname : d ++ createLogFileName s'.prefixBackup i nt = T := by rw [targetName_eq, hpre, hT]
    -- the file system afterwards
    obtain ⟨t, ht0, hfs⟩ : ∃ t : Str, t ≠ [] ∧ (s'.changeLogFile fs' d i n nt ht true).2.1 =
        (fs'.set T []).set s'.path (writeAt (if s'.path = T then [] else c) c.length (s'.out.pend ++ t)) := by
      unfold FileSink.changeLogFile createLogFile
      simp only [if_true]
      rw [hname]
      unfold OStream.flush OStream.spill FileSink.addLogFileHeader
      simp only [OStream.put]
      refine ⟨headerText ht s'.header ++ (n ++ ("\n\tChanging log file from : ".toList ++ s'.path ++ "\n\tto new location: ".toList ++ T ++ "\n".toList)), ?_, ?_⟩
      · intro hnil; have := congrArg List.length hnil; simp [List.length_append] at this
      · rw [hopath, List.take_length, h2]
        by_cases hTp : s'.path = T
        · rw [if_pos hTp, hTp, FS.set_same]
          simp only [List.append_assoc]
        · rw [if_neg hTp, FS.set_other _ _ hTp, h1']
          simp only [List.append_assoc]
    rw [hfs]
    have hne : s'.out.pend ++ t ≠ [] := by simp [ht0]
    by_cases hTp : s'.path = T
    · subst hTp
      rw [if_pos rfl]
      have hw : writeAt [] c.length (s'.out.pend ++ t) = List.replicate c.length (Char.ofNat 0) ++ (s'.out.pend ++ t) := by
        unfold writeAt
        rw [if_neg hne]
        simp only [List.nil_append, List.length_nil, Nat.sub_zero, List.drop_nil, List.append_nil]
        rw [List.take_of_length_le (by simp)]
      rw [hw]
      constructor
      · intro hg _ c2 hc2
        rw [h1'] at hc2
        cases hc2
        right
        refine ⟨rfl, ?_⟩
        obtain ⟨c', hc', hp'⟩ := hg _ _ h1'
        rw [FS.set_same] at hc'
        cases hc'
        have hpe : c = List.replicate c.length (Char.ofNat 0) := by
          have hx := List.prefix_of_prefix_length_le hp' (List.prefix_append (List.replicate c.length (Char.ofNat 0)) (s'.out.pend ++ t)) (by simp)
          exact hx.eq_of_length (by simp)
        intro x hx
        rw [hpe] at hx
        exact (List.mem_replicate.mp hx).2
      · intro hk q c2 hq
        by_cases hqp : q = s'.path
        · subst hqp
          rw [h1'] at hq
          cases hq
          refine ⟨_, FS.set_same _ _ _, ?_⟩
          have hpe : c = List.replicate c.length (Char.ofNat 0) := by
            rcases hk rfl c h1' with hk | ⟨_, hk⟩
            · rw [hk]; rfl
            · exact List.eq_replicate_iff.mpr ⟨rfl, hk⟩
          conv_lhs => rw [hpe]
          exact List.prefix_append _ _
        · exact ⟨c2, by rw [FS.set_other _ _ hqp, FS.set_other _ _ hqp]; exact hq, List.prefix_refl _⟩
    · rw [if_neg hTp, writeAt_end]
      constructor
      · intro hg _ c2 hc2
        left
        obtain ⟨c', hc', hp'⟩ := hg _ _ hc2
        rw [FS.set_other _ _ (fun e => hTp e.symm), FS.set_same] at hc'
        cases hc'
        exact List.prefix_nil.mp hp'
      · intro hk q c2 hq
        by_cases hqp : q = s'.path
        · subst hqp
          rw [h1'] at hq
          cases hq
          exact ⟨_, FS.set_same _ _ _, List.prefix_append _ _⟩
        · by_cases hqT : q = T
          · subst hqT
            rcases hk rfl c2 hq with hk | ⟨hk, _⟩
            · exact ⟨[], by rw [FS.set_other _ _ hqp, FS.set_same], by rw [hk]; exact List.nil_prefix⟩
            · exact absurd hk.symm hTp
          · exact ⟨c2, by rw [FS.set_other _ _ hqp, FS.set_other _ _ hqT]; exact hq, List.prefix_refl _⟩

-- there and back again: the names differ from one change to the next, and the first file is used twice
example : List.IsChain (· ≠ ·) ("a/p.x.1.log".toList :: targets "p".toList
    [.change "b/".toList "x".toList [] "1".toList [] true, .change "a/".toList "x".toList [] "1".toList [] true]) ∧
    targets "p".toList [.change "a/".toList "x".toList [] "1".toList [] true] = ["a/p.x.1.log".toList] := by decide +kernel

theorem run_back (E : Env) (p : Str) (a : ASink) (m : LogMessage) (t d1 i1 n1 t1 h1 d2 i2 n2 t2 h2 : Str) :
    (aRun E 1 p a [.write m t, .change d1 i1 n1 t1 h1 true, .change d2 i2 n2 t2 h2 true]).path = targetName p d2 i2 t2 ∧
    (aRun E 1 p a [.write m t, .change d1 i1 n1 t1 h1 true, .change d2 i2 n2 t2 h2 true]).held = [] ∧
    (aRun E 1 p a [.write m t, .change d1 i1 n1 t1 h1 true, .change d2 i2 n2 t2 h2 true]).cur =
      [.extra (n2 ++ "\n\tNew log file. The previous log file was at: ".toList ++ targetName p d1 i1 t1 ++ "\n".toList)] := by
  have h : (aStep E 1 p a (.write m t)).held = [] := by
    simp only [aStep]
    rw [if_pos (one_dvd _)]
  exact ⟨rfl, h, rfl⟩

/-- C42: going to another file and back within a second loses the first file: only the note of the second change is in it. -/
theorem C42_back_negation (E : Env) (m : LogMessage) (time : Str) :
    ∃ (s : FileSink) (fs : FS) (p path : Str), Constructed s fs p path 1 ∧
      ∃ s' fs' outs, sinkRun E s fs [.write m [], .change "b/".toList "x".toList [] "t".toList [] true, .change "d/".toList "x".toList [] "t".toList [] true] = .ok (s', fs', outs) ∧
      s'.path = path ∧
      s'.destroy fs' time path = some ("\n\tNew log file. The previous log file was at: b/p.x.t.log\n".toList ++ "g3log g3FileSink shutdown at: ".toList ++ time ++ "\n".toList) := by
  obtain ⟨s, fs, h⟩ := sample_constructed1
  obtain ⟨s', fs', outs, e, hd⟩ := C42_reuse_exact E (le_refl 1) h [.write m [], .change "b/".toList "x".toList [] "t".toList [] true, .change "d/".toList "x".toList [] "t".toList [] true]
    (by simp only [targets]; decide +kernel) time
  obtain ⟨s2, fs2, e2, hI, _⟩ := reuse_run (E := E) (fs0 := fs) (le_refl 1) [.write m [], .change "b/".toList "x".toList [] "t".toList [] true, .change "d/".toList "x".toList [] "t".toList [] true]
    (cut_inv (constructed_inv h)) (fun q _ => rfl) (by simp only [targets, aInit]; decide +kernel)
  rw [e] at e2
  cases e2
  obtain ⟨a1, a2, a3⟩ := run_back E "p".toList (aInit "d/p.x.t.log".toList) m [] "b/".toList "x".toList [] "t".toList [] "d/".toList "x".toList [] "t".toList []
  have hp : targetName "p".toList "d/".toList "x".toList "t".toList = "d/p.x.t.log".toList := by decide +kernel
  refine ⟨s, fs, _, _, h, s', fs', _, e, ?_, ?_⟩
  · rw [hI.path]; exact a1.trans hp
  · rw [hd]
    unfold aFinal
    rw [latest_last]
    simp only [a1, a2, a3]
    rw [if_pos hp.symm]
    simp only [chunkText, Chunk.text, List.map_append, List.map_cons, List.map_nil, List.flatten_append, List.flatten_cons, List.flatten_nil, List.append_nil, List.nil_append]
    rw [show "\n\tNew log file. The previous log file was at: ".toList ++ targetName "p".toList "b/".toList "x".toList "t".toList ++ "\n".toList =
      "\n\tNew log file. The previous log file was at: b/p.x.t.log\n".toList by decide +kernel]
    simp only [List.append_assoc]

end G3.Props
