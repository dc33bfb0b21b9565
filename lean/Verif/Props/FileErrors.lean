import Verif.Spec.FileErrors
import Verif.Props.FileSink
/-
C81: a file sink when writing to its file fails (disk full and the like).
-/
namespace G3.Props
open G3 G3.Spec

/-! ### Without errors nothing is new -/

/-- The result of a run of the sink of `Model/FileSink.lean`, as a result here. -/
def liftRun : Except SinkErr (FileSink × FS × List Str) → Except SinkErr (ESink × FS × List Str)
  | .error e => .error e
  | .ok (s, fs, rs) => .ok (⟨s, false⟩, fs, rs)

theorem eStep_ok (E : Env) (s : FileSink) (fs : FS) (op : SinkOp) :
    eStep E ⟨s, false⟩ fs (op, .ok) =
      match sinkStep E s fs op with
      | .error e => .error e
      | .ok (s', fs', r) => .ok (⟨s', false⟩, fs', r) := by
  cases op with
  | write m t =>
    simp only [eStep, sinkStep, ESink.fileWrite, FileSink.fileWrite, ESink.addLogFileHeader, FileSink.addLogFileHeader,
      ESink.put, Bool.false_eq_true, if_false]
    cases hf : s.firstEntry <;> simp only [if_true, if_false, Bool.false_eq_true] <;> by_cases h0 : s.every = 0 <;>
      by_cases h1 : (s.counter + 1) % s.every = 0 <;> simp only [h0, h1, if_true, if_false] <;> rfl
  | change d i n nt ht o =>
    cases o <;> rfl
  | _ => rfl

/-- C81: as long as every transfer to the system succeeds, the sink does exactly what C38 to C42 say. -/
theorem C81_no_error (E : Env) (s : FileSink) (fs : FS) (ops : List SinkOp) :
    eRun E ⟨s, false⟩ fs (ops.map (·, .ok)) = liftRun (sinkRun E s fs ops) := by
  induction ops generalizing s fs with
  | nil => rfl
  | cons op ops ih =>
    rw [List.map_cons, eRun, eStep_ok, sinkRun]
    cases sinkStep E s fs op with
    | error e => rfl
    | ok x =>
      obtain ⟨s', fs', r⟩ := x
      simp only [ih]
      cases sinkRun E s' fs' ops with
      | error e => rfl
      | ok y => rfl

theorem sync_empty (s : ESink) (fs : FS) (h : s.sink.out.pend = []) (r : IOOut) : (s.sync fs r).2 = fs := by
  have hw : ∀ c o, writeAt c o [] = c := fun _ _ => by simp [writeAt]
  unfold ESink.sync
  cases r with
  | ok =>
    simp only [ESink.transfer, OStream.spill, h, List.take_nil, hw]
    split
    · rename_i c hc
      funext q
      unfold FS.set
      split
      · rename_i e; rw [e, hc]
      · rfl
    · rfl
  | fail k r =>
    simp only [ESink.transfer, h, List.take_nil, hw]
    split
    · rename_i c hc
      funext q
      unfold FS.set
      split
      · rename_i e; rw [e, hc]
      · rfl
    · rfl

/-- C81: the same for the destruction. -/
theorem C81_no_error_end (s : FileSink) (fs : FS) (time : Str) :
    ESink.destroy ⟨s, false⟩ fs time .ok .ok = s.destroy fs time := by
  unfold ESink.destroy
  simp only
  rw [sync_empty]
  · rfl
  · simp [ESink.sync, ESink.transfer, ESink.put, OStream.spill]

/-! ### With errors: what every operation keeps -/

/-- The coupling with the specification that errors cannot break. -/
structure EInv (N : Nat) (p : Str) (s : ESink) (fs : FS) (a : ASink) : Prop where
  fmt : s.sink.detailsFn = a.fmt
  hdr : s.sink.header = a.hdr
  fresh : s.sink.firstEntry = a.fresh
  count : s.sink.counter = a.count
  buf : s.sink.buffer = a.held.flatten
  path : s.sink.path = a.path
  opath : s.sink.out.path = a.path
  pre : s.sink.prefixBackup = p
  ev : s.sink.every = N
  disk : ∃ c, fs a.path = some c ∧ s.sink.out.off = c.length
  apart : a.path ∉ a.closed.map Prod.fst

theorem EInv.put {N : Nat} {p : Str} {s : ESink} {fs : FS} {a : ASink} (h : EInv N p s fs a) (t : Str) (cur : List Chunk) :
    EInv N p (s.put t) fs { a with cur := cur } := by
  unfold ESink.put
  split
  · exact { h with disk := h.disk }
  · exact { h with disk := h.disk, opath := h.opath }

/-- The file `f` has only grown from `fs` to `fs'`. -/
def Grown (fs fs' : FS) (f : Str) : Prop := ∀ c, fs f = some c → ∃ d, fs' f = some (c ++ d)

theorem Grown.refl (fs : FS) (f : Str) : Grown fs fs f := fun c hc => ⟨[], by rw [List.append_nil]; exact hc⟩

theorem Grown.trans {fs fs' fs'' : FS} {f : Str} (h : Grown fs fs' f) (h' : Grown fs' fs'' f) : Grown fs fs'' f := by
  intro c hc
  obtain ⟨d, hd⟩ := h c hc
  obtain ⟨e, he⟩ := h' _ hd
  exact ⟨d ++ e, by rw [he, List.append_assoc]⟩

theorem transfer_spec {s : ESink} {fs : FS} {c : Str} (h1 : fs s.sink.out.path = some c) (h2 : s.sink.out.off = c.length)
    (n : Nat) (r : IOOut) :
    ∃ d pend b, s.transfer fs n r =
      (⟨{ s.sink with out := { path := s.sink.out.path, off := (c ++ d).length, pend := pend } }, b⟩,
        fs.set s.sink.out.path (c ++ d)) := by
  cases r with
  | ok =>
    refine ⟨s.sink.out.pend.take n, s.sink.out.pend.drop n, s.bad, ?_⟩
    unfold ESink.transfer
    rw [spill_spec s.sink.out fs c n h1 h2]
  | fail k r =>
    refine ⟨(s.sink.out.pend.take n).take k, s.sink.out.pend.drop r, true, ?_⟩
    unfold ESink.transfer
    simp only [h1, h2, writeAt_end, List.length_append]

theorem EInv.transfer {N : Nat} {p : Str} {s : ESink} {fs : FS} {a : ASink} (h : EInv N p s fs a) (n : Nat) (r : IOOut) :
    EInv N p (s.transfer fs n r).1 (s.transfer fs n r).2 a ∧ Grown fs (s.transfer fs n r).2 a.path ∧
      ∀ q, q ≠ a.path → (s.transfer fs n r).2 q = fs q := by
  obtain ⟨c, h1, h2⟩ := h.disk
  rw [← h.opath] at h1
  obtain ⟨d, pend, b, e⟩ := transfer_spec h1 h2 n r
  rw [e]
  refine ⟨{ h with opath := h.opath, disk := ⟨c ++ d, ?_, rfl⟩ }, ?_, ?_⟩
  · simp only; rw [h.opath]; exact FS.set_same _ _ _
  · intro c' hc'
    rw [← h.opath, h1] at hc'
    cases hc'
    exact ⟨d, by rw [← h.opath]; exact FS.set_same _ _ _⟩
  · intro q hq
    simp only
    rw [h.opath, FS.set_other _ _ hq]

theorem eStep_sim {E : Env} {N : Nat} (hN : 1 ≤ N) {p : Str} {s : ESink} {fs : FS} {a : ASink} (h : EInv N p s fs a)
    (op : SinkOp) (r : IOOut) (hop : NewName p a op) :
    ∃ s' fs', eStep E s fs (op, r) = .ok (s', fs', aOut p a op) ∧ EInv N p s' fs' (aStep E N p a op) ∧
      Grown fs fs' a.path ∧ ∀ q, q ≠ a.path → q ∉ targets p [op] → fs' q = fs q := by
  cases op with
  | write m t =>
    obtain ⟨s1, hs1, hI⟩ : ∃ s1, (if s.sink.firstEntry then
        { s.addLogFileHeader t with sink := { (s.addLogFileHeader t).sink with firstEntry := false } } else s) = s1 ∧
        EInv N p s1 fs { a with fresh := false, cur := if a.fresh then a.cur ++ [.extra (hdrText t a.hdr)] else a.cur } := by
      refine ⟨_, rfl, ?_⟩
      cases hf : a.fresh with
      | true =>
        have : s.sink.firstEntry = true := by rw [h.fresh, hf]
        simp only [this, if_true]
        have := h.put (headerText t s.sink.header) (a.cur ++ [.extra (hdrText t a.hdr)])
        exact { this with fresh := rfl, disk := this.disk }
      | false =>
        have : s.sink.firstEntry = false := by rw [h.fresh, hf]
        simp only [this, Bool.false_eq_true, if_false]
        exact { h with fresh := this }
    have hev : s1.sink.every ≠ 0 := by rw [hI.ev]; omega
    have hcnt : s1.sink.counter = a.count := hI.count
    have hfmt : s1.sink.detailsFn = a.fmt := hI.fmt
    have hbuf : s1.sink.buffer = a.held.flatten := hI.buf
    unfold eStep ESink.fileWrite
    simp only [hs1]
    rw [if_neg hev]
    by_cases hd : N ∣ a.count + 1
    · have hmod : (s1.sink.counter + 1) % s1.sink.every = 0 := by
        rw [hcnt, hI.ev]; exact Nat.mod_eq_zero_of_dvd hd
      rw [if_pos hmod]
      simp only [aStep, if_pos hd, aOut]
      -- the entry is inserted (or not), then transferred (or not)
      have h2 : EInv N p ⟨{ s1.sink with buffer := s1.sink.buffer ++ (toString E m s1.sink.detailsFn).1, counter := s1.sink.counter + 1 }, s1.bad⟩
          fs { a with fresh := false, count := a.count + 1, held := a.held ++ [(toString E m a.fmt).1], cur := [] } :=
        { hI with count := by simp [hcnt], buf := by simp [hbuf, hfmt], disk := hI.disk, fmt := hI.fmt }
      have h3 := h2.put (s1.sink.buffer ++ (toString E m s1.sink.detailsFn).1)
        ((if a.fresh then a.cur ++ [.extra (hdrText t a.hdr)] else a.cur) ++
              List.map Chunk.entry (a.held ++ [(toString E m a.fmt).1]))
      obtain ⟨h4, h5, h6⟩ := h3.transfer _ r
      refine ⟨_, _, rfl, ?_, h5, fun q hq _ => h6 q hq⟩
      exact { h4 with buf := rfl, disk := h4.disk }
    · have hmod : ¬ (s1.sink.counter + 1) % s1.sink.every = 0 := by
        rw [hcnt, hI.ev]; intro e; exact hd (Nat.dvd_of_mod_eq_zero e)
      rw [if_neg hmod]
      simp only [aStep, if_neg hd, aOut]
      refine ⟨_, _, rfl, ?_, Grown.refl _ _, fun q _ _ => rfl⟩
      exact { hI with count := by simp [hcnt], buf := by simp [hbuf, hfmt], disk := hI.disk, fmt := hI.fmt }
  | change d i now nt ht o =>
    have hname : d ++ createLogFileName s.sink.prefixBackup i nt = targetName p d i nt := by rw [h.pre, targetName_eq]
    unfold eStep ESink.changeLogFile
    simp only [hname]
    cases o with
    | false =>
      simp only [createLogFile, Bool.false_eq_true, if_false]
      exact ⟨_, _, rfl, h.put _ _, Grown.refl _ _, fun q _ _ => rfl⟩
    | true =>
      simp only [createLogFile, if_true]
      have hnew : targetName p d i nt ∉ a.closed.map Prod.fst ++ [a.path] := hop
      have hTp : a.path ≠ targetName p d i nt := by rintro e; exact hnew (by simp [← e])
      have h0 : EInv N p s (fs.set (targetName p d i nt) []) a := by
        obtain ⟨c, h1, h2⟩ := h.disk
        exact { h with disk := ⟨c, by rw [FS.set_other _ _ hTp]; exact h1, h2⟩ }
      have h1 := (h0.put (headerText ht s.sink.header) a.cur).put (now ++ ("\n\tChanging log file from : ".toList ++
        (s.addLogFileHeader ht).sink.path ++ "\n\tto new location: ".toList ++ targetName p d i nt ++ "\n".toList)) a.cur
      obtain ⟨h2, h3, h4⟩ := h1.transfer
        ((s.addLogFileHeader ht).put (now ++ ("\n\tChanging log file from : ".toList ++
        (s.addLogFileHeader ht).sink.path ++ "\n\tto new location: ".toList ++ targetName p d i nt ++ "\n".toList))).sink.out.pend.length r
      refine ⟨_, _, rfl, ?_, ?_, ?_⟩
      · simp only [aStep]
        refine
          { fmt := h1.fmt, hdr := h1.hdr, fresh := h1.fresh, count := h1.count, buf := h1.buf, path := rfl,
            opath := rfl, pre := h1.pre, ev := h1.ev, disk := ⟨[], ?_, rfl⟩, apart := ?_ }
        · exact (h4 _ hTp.symm).trans (FS.set_same _ _ _)
        · intro hm
          simp only [List.map_append, List.map_cons, List.map_nil] at hm
          exact hnew hm
      · intro c hc
        exact h3 c (by rw [FS.set_other _ _ hTp]; exact hc)
      · intro q hq hq'
        simp only [targets, List.mem_singleton] at hq'
        exact (h4 q hq).trans (FS.set_other _ _ hq')
  | overrideDetails f =>
    exact ⟨_, _, rfl, { h with fmt := rfl, disk := h.disk }, Grown.refl _ _, fun q _ _ => rfl⟩
  | overrideHeader f =>
    exact ⟨_, _, rfl, { h with hdr := rfl, disk := h.disk }, Grown.refl _ _, fun q _ _ => rfl⟩
  | fileName =>
    exact ⟨s, fs, by simp [eStep, aOut, h.path], h, Grown.refl _ _, fun q _ _ => rfl⟩
  | spill n =>
    obtain ⟨h2, h3, h4⟩ := h.transfer n r
    exact ⟨_, _, rfl, h2, h3, fun q hq _ => h4 q hq⟩

theorem eRun_sim {E : Env} {N : Nat} (hN : 1 ≤ N) {p : Str} (ops : List (SinkOp × IOOut)) {s : ESink} {fs : FS} {a : ASink}
    (h : EInv N p s fs a) (hnd : (usedBy a ++ targets p (ops.map Prod.fst)).Nodup) :
    ∃ s' fs', eRun E s fs ops = .ok (s', fs', aOuts E N p a (ops.map Prod.fst)) ∧
      EInv N p s' fs' (aRun E N p a (ops.map Prod.fst)) ∧
      (∀ q, q ∉ targets p (ops.map Prod.fst) → Grown fs fs' q) ∧
      ∀ q, q ≠ a.path → q ∉ targets p (ops.map Prod.fst) → fs' q = fs q := by
  induction ops generalizing s fs a with
  | nil => exact ⟨s, fs, rfl, h, fun q _ => Grown.refl _ _, fun q _ _ => rfl⟩
  | cons x ops ih =>
    obtain ⟨op, r⟩ := x
    rw [List.map_cons, targets_cons, ← List.append_assoc] at hnd
    have hop : NewName p a op := by
      unfold NewName
      split
      · have := List.nodup_append.mp hnd
        have h1 := List.nodup_append.mp this.1
        intro hm
        exact h1.2.2 _ hm _ (by simp [targets]) rfl
      · trivial
    obtain ⟨s1, fs1, e1, h1, g1, f1⟩ := eStep_sim (E := E) hN h op r hop
    simp only at hnd
    have hnd' := hnd
    rw [← usedBy_step E N p a op] at hnd'
    obtain ⟨s2, fs2, e2, h2, g2, f2⟩ := ih h1 hnd'
    have hpath : ∀ q, q ≠ a.path → q ∉ targets p [op] → q ≠ (aStep E N p a op).path := by
      intro q hq hq'
      cases op with
      | write m t => simp only [aStep]; split <;> exact hq
      | change d i now nt ht o =>
        cases o with
        | true => simpa [targets, aStep] using hq'
        | false => exact hq
      | _ => exact hq
    refine ⟨s2, fs2, ?_, h2, ?_, ?_⟩
    · unfold eRun; rw [e1]; simp only; rw [e2]; rfl
    · intro q hq
      rw [List.map_cons, targets_cons] at hq
      have hq1 : q ∉ targets p [op] := fun hm => hq (List.mem_append_left _ hm)
      have hq2 : q ∉ targets p (ops.map Prod.fst) := fun hm => hq (List.mem_append_right _ hm)
      refine Grown.trans ?_ (g2 q hq2)
      by_cases e : q = a.path
      · rw [e]; exact g1
      · intro c hc
        exact ⟨[], by rw [f1 q e hq1, List.append_nil]; exact hc⟩
    · intro q hq hq'
      rw [List.map_cons, targets_cons] at hq'
      have hq1 : q ∉ targets p [op] := fun hm => hq' (List.mem_append_left _ hm)
      have hq2 : q ∉ targets p (ops.map Prod.fst) := fun hm => hq' (List.mem_append_right _ hm)
      rw [f2 q (hpath q hq hq1) hq2, f1 q hq hq1]

theorem eDestroy_sim {N : Nat} {p : Str} {s : ESink} {fs : FS} {a : ASink} (h : EInv N p s fs a) (time : Str) (r r' : IOOut) :
    Grown fs (s.destroy fs time r r') a.path ∧ ∀ q, q ≠ a.path → s.destroy fs time r r' q = fs q := by
  have h1 := h.put (s.sink.buffer ++ ("g3log g3FileSink shutdown at: ".toList ++ time ++ "\n".toList)) a.cur
  obtain ⟨h2, h3, h4⟩ := h1.transfer (s.put (s.sink.buffer ++ ("g3log g3FileSink shutdown at: ".toList ++ time ++ "\n".toList))).sink.out.pend.length r
  obtain ⟨h5, h6, h7⟩ := h2.transfer
    ((s.put (s.sink.buffer ++ ("g3log g3FileSink shutdown at: ".toList ++ time ++ "\n".toList))).sync fs r).1.sink.out.pend.length r'
  exact ⟨h3.trans h6, fun q hq => (h7 q hq).trans (h4 q hq)⟩

theorem constructed_einv {s : FileSink} {fs : FS} {p path : Str} {N : Nat} (h : Constructed s fs p path N) :
    EInv N p ⟨s, false⟩ fs (aInit path) := by
  have hI := constructed_inv h
  obtain ⟨c, h1, h2, _⟩ := hI.disk
  exact { fmt := hI.fmt, hdr := hI.hdr, fresh := hI.fresh, count := hI.count, buf := hI.buf, path := hI.path, opath := hI.opath,
          pre := hI.pre, ev := hI.ev, disk := ⟨c, h1, h2⟩, apart := hI.apart }

/-- C81: write errors are never noticed by the program. Whatever fails and whenever, every call returns, and it
returns the same as without errors. -/
theorem C81_silent (E : Env) {s : FileSink} {fs : FS} {p path : Str} {N : Nat} (hN : 1 ≤ N) (h : Constructed s fs p path N)
    (ops : List (SinkOp × IOOut)) (hnd : (path :: targets p (ops.map Prod.fst)).Nodup) :
    ∃ s' fs', eRun E ⟨s, false⟩ fs ops = .ok (s', fs', aOuts E N p (aInit path) (ops.map Prod.fst)) := by
  obtain ⟨s', fs', e, _⟩ := eRun_sim (E := E) hN ops (constructed_einv h) (by simpa [usedBy, aInit] using hnd)
  exact ⟨s', fs', e⟩

/-- C81: what has reached a file stays there. At every moment of every history with errors, the content of
every file is still a prefix of its content at every later moment and after the end, unless
the sink is told to start that same file anew. Files the sink has not opened are never touched. -/
theorem C81_kept (E : Env) {s : FileSink} {fs : FS} {p path : Str} {N : Nat} (hN : 1 ≤ N) (h : Constructed s fs p path N)
    (ops ops' : List (SinkOp × IOOut)) (hnd : (path :: targets p ((ops ++ ops').map Prod.fst)).Nodup)
    (time : Str) (r r' : IOOut) :
    ∃ s1 fs1 o1 s2 fs2 o2, eRun E ⟨s, false⟩ fs ops = .ok (s1, fs1, o1) ∧ eRun E s1 fs1 ops' = .ok (s2, fs2, o2) ∧
      (∀ q, q ∉ targets p (ops'.map Prod.fst) → Grown fs1 fs2 q ∧ Grown fs1 (s2.destroy fs2 time r r') q) ∧
      (∀ q, q ∉ path :: targets p ((ops ++ ops').map Prod.fst) → fs2 q = fs q ∧ s2.destroy fs2 time r r' q = fs q) := by
  have htt : targets p ((ops ++ ops').map Prod.fst) = targets p (ops.map Prod.fst) ++ targets p (ops'.map Prod.fst) := by
    rw [List.map_append]
    induction ops.map Prod.fst with
    | nil => rfl
    | cons op l ih => rw [List.cons_append, targets_cons, ih, ← List.append_assoc, ← targets_cons]
  rw [htt] at hnd ⊢
  have hnd1 : (usedBy (aInit path) ++ targets p (ops.map Prod.fst)).Nodup := by
    have : (path :: targets p (ops.map Prod.fst)).Nodup := by
      rw [← List.cons_append] at hnd; exact (List.nodup_append.mp hnd).1
    simpa [usedBy, aInit] using this
  obtain ⟨s1, fs1, e1, h1, g1, f1⟩ := eRun_sim (E := E) hN ops (constructed_einv h) hnd1
  have hu : usedBy (aRun E N p (aInit path) (ops.map Prod.fst)) = path :: targets p (ops.map Prod.fst) := by
    have : ∀ (l : List SinkOp) (a : ASink), usedBy (aRun E N p a l) = usedBy a ++ targets p l := by
      intro l
      induction l with
      | nil => intro a; simp [aRun, targets]
      | cons op l ih => intro a; rw [aRun, ih, usedBy_step, targets_cons p op l, List.append_assoc]
    rw [this]; simp [usedBy, aInit]
  have hnd2 : (usedBy (aRun E N p (aInit path) (ops.map Prod.fst)) ++ targets p (ops'.map Prod.fst)).Nodup := by
    rw [hu]; exact hnd
  obtain ⟨s2, fs2, e2, h2, g2, f2⟩ := eRun_sim (E := E) hN ops' h1 hnd2
  obtain ⟨g3, f3⟩ := eDestroy_sim h2 time r r'
  have hpath2 : ∀ q, q ∉ path :: (targets p (ops.map Prod.fst) ++ targets p (ops'.map Prod.fst)) →
      q ≠ (aRun E N p (aRun E N p (aInit path) (ops.map Prod.fst)) (ops'.map Prod.fst)).path ∧
      q ≠ (aRun E N p (aInit path) (ops.map Prod.fst)).path := by
    have hin : ∀ a : ASink, a.path ∈ usedBy a := fun a => by simp [usedBy]
    have hu2 : ∀ (l : List SinkOp) (a : ASink), usedBy (aRun E N p a l) = usedBy a ++ targets p l := by
      intro l
      induction l with
      | nil => intro a; simp [aRun, targets]
      | cons op l ih => intro a; rw [aRun, ih, usedBy_step, targets_cons p op l, List.append_assoc]
    intro q hq
    constructor
    · intro e
      apply hq
      have := hin (aRun E N p (aRun E N p (aInit path) (ops.map Prod.fst)) (ops'.map Prod.fst))
      rw [hu2, hu] at this
      rw [e]; simpa using this
    · intro e
      apply hq
      have := hin (aRun E N p (aInit path) (ops.map Prod.fst))
      rw [hu] at this
      rw [e, ← List.cons_append]; exact List.mem_append_left _ this
  refine ⟨s1, fs1, _, s2, fs2, _, e1, e2, ?_, ?_⟩
  · intro q hq
    refine ⟨g2 q hq, (g2 q hq).trans ?_⟩
    by_cases e : q = (aRun E N p (aRun E N p (aInit path) (ops.map Prod.fst)) (ops'.map Prod.fst)).path
    · rw [e]; exact g3
    · intro c hc; exact ⟨[], by rw [f3 q e, List.append_nil]; exact hc⟩
  · intro q hq
    obtain ⟨p2, p1⟩ := hpath2 q hq
    have hq0 : q ≠ path := fun e => hq (by simp [e])
    have hqa : q ∉ targets p (ops.map Prod.fst) := fun hm => hq (by simp [hm])
    have hqb : q ∉ targets p (ops'.map Prod.fst) := fun hm => hq (by simp [hm])
    have : fs2 q = fs q := by rw [f2 q p1 hqb]; exact f1 q hq0 hqa
    exact ⟨this, by rw [f3 q p2, this]⟩

/-! ### After an error -/

/-- The parts of two sinks that matter for the files once the streams are bad. -/
structure SameOut (s s' : ESink) : Prop where
  bad : s.bad = true
  bad' : s'.bad = true
  out : s.sink.out = s'.sink.out
  count : s.sink.counter = s'.sink.counter
  ev : s.sink.every = s'.sink.every

theorem SameOut.transfer {s s' : ESink} (h : SameOut s s') (fs : FS) (n : Nat) (r : IOOut) :
    SameOut (s.transfer fs n r).1 (s'.transfer fs n r).1 ∧ (s.transfer fs n r).2 = (s'.transfer fs n r).2 := by
  cases r with
  | ok =>
    simp only [ESink.transfer, h.out]
    exact ⟨⟨h.bad, h.bad', rfl, h.count, h.ev⟩, trivial⟩
  | fail k r =>
    simp only [ESink.transfer, h.out]
    exact ⟨⟨rfl, rfl, rfl, h.count, h.ev⟩, trivial⟩

theorem put_bad {s : ESink} (h : s.bad = true) (t : Str) : s.put t = s := by simp [ESink.put, h]

/-- `fileWrite` on a bad stream: the entry goes nowhere. -/
theorem fileWrite_bad (E : Env) {s : ESink} (h : s.bad = true) (fs : FS) (m : LogMessage) (t : Str) (r : IOOut) (hN : s.sink.every ≠ 0) :
    ∃ b, s.fileWrite E fs m t r =
      if (s.sink.counter + 1) % s.sink.every = 0 then
        .ok (⟨{ (s.sync fs r).1.sink with firstEntry := false, buffer := [], counter := s.sink.counter + 1 }, true⟩, (s.sync fs r).2)
      else .ok (⟨{ s.sink with firstEntry := false, buffer := b, counter := s.sink.counter + 1 }, true⟩, fs) := by
  refine ⟨s.sink.buffer ++ (toString E m s.sink.detailsFn).1, ?_⟩
  obtain ⟨k, bad⟩ := s
  simp only at h hN
  subst h
  have hb : ∀ (x : FileSink) (t : Str), (ESink.mk x true).put t = ⟨x, true⟩ := fun _ _ => rfl
  unfold ESink.fileWrite ESink.addLogFileHeader
  simp only [hb]
  cases hf : k.firstEntry with
  | true =>
    simp only [if_true, hN, if_false]
    split
    · cases r <;> rfl
    · rfl
  | false =>
    simp only [Bool.false_eq_true, if_false, hN]
    obtain ⟨f1, f2, f3, f4, f5, f6, f7, f8, f9⟩ := k
    simp only at hf
    subst hf
    split
    · cases r <;> rfl
    · rfl

theorem alike_step (E : Env) {s s' : ESink} (h : SameOut s s') (hN : s.sink.every ≠ 0) (fs : FS) {x x' : SinkOp × IOOut} (ha : Alike x x') :
    ∃ t t' fs1 o o', eStep E s fs x = .ok (t, fs1, o) ∧ eStep E s' fs x' = .ok (t', fs1, o') ∧ SameOut t t' ∧
      t.sink.every = s.sink.every := by
  cases ha with
  | write m m' t t' r =>
    obtain ⟨b, e⟩ := fileWrite_bad E h.bad fs m t r hN
    obtain ⟨b', e'⟩ := fileWrite_bad E h.bad' fs m' t' r (by rw [← h.ev]; exact hN)
    unfold eStep
    simp only
    rw [e, e', ← h.count, ← h.ev]
    have hs : s.sync fs r = s.transfer fs s.sink.out.pend.length r := rfl
    have hs' : s'.sync fs r = s'.transfer fs s.sink.out.pend.length r := by rw [h.out]; rfl
    obtain ⟨h1, h2⟩ := h.transfer fs s.sink.out.pend.length r
    have hev : (s.transfer fs s.sink.out.pend.length r).1.sink.every = s.sink.every := by cases r <;> rfl
    by_cases hm : (s.sink.counter + 1) % s.sink.every = 0
    · simp only [if_pos hm, hs, hs', ← h2]
      exact ⟨_, _, _, _, _, rfl, rfl, ⟨rfl, rfl, h1.out, rfl, h1.ev⟩, hev⟩
    · simp only [if_neg hm]
      exact ⟨_, _, _, _, _, rfl, rfl, ⟨rfl, rfl, h.out, rfl, h.ev⟩, rfl⟩
  | change d d' i i' n n' nt nt' ht ht' r r' =>
    refine ⟨_, _, _, _, _, rfl, rfl, ?_, ?_⟩
    · rw [put_bad h.bad, put_bad h.bad']
      exact h
    · show (s.put _).sink.every = _
      rw [put_bad h.bad]
  | details f f' r r' => exact ⟨_, _, _, _, _, rfl, rfl, ⟨h.bad, h.bad', h.out, h.count, h.ev⟩, rfl⟩
  | header f f' r r' => exact ⟨_, _, _, _, _, rfl, rfl, ⟨h.bad, h.bad', h.out, h.count, h.ev⟩, rfl⟩
  | name r r' => exact ⟨_, _, _, _, _, rfl, rfl, h, rfl⟩
  | spill n r =>
    obtain ⟨h1, h2⟩ := h.transfer fs n r
    simp only [eStep, ← h2]
    exact ⟨_, _, _, _, _, rfl, rfl, h1, by cases r <;> rfl⟩

theorem alike_run (E : Env) {l l' : List (SinkOp × IOOut)} (ha : List.Forall₂ Alike l l') {s s' : ESink} (h : SameOut s s')
    (hN : s.sink.every ≠ 0) (fs : FS) :
    ∃ t t' fs1 o o', eRun E s fs l = .ok (t, fs1, o) ∧ eRun E s' fs l' = .ok (t', fs1, o') ∧ SameOut t t' := by
  induction ha generalizing s s' fs with
  | nil => exact ⟨s, s', fs, [], [], rfl, rfl, h⟩
  | cons hx _ ih =>
    obtain ⟨t, t', fs1, o, o', e, e', h1, h2⟩ := alike_step E h hN fs hx
    obtain ⟨u, u', fs2, q, q', g, g', h3⟩ := ih h1 (by rw [h2]; exact hN) fs1
    refine ⟨u, u', fs2, o :: q, o' :: q', ?_, ?_, h3⟩
    · rw [eRun, e]; simp only; rw [g]
    · rw [eRun, e']; simp only; rw [g']

theorem SameOut.destroy {s s' : ESink} (h : SameOut s s') (fs : FS) (time time' : Str) (r r' : IOOut) :
    s.destroy fs time r r' = s'.destroy fs time' r r' := by
  unfold ESink.destroy
  simp only
  rw [put_bad h.bad, put_bad h.bad']
  have hs : s'.sync fs r = s'.transfer fs s.sink.out.pend.length r := by rw [h.out]; rfl
  obtain ⟨h1, h2⟩ := h.transfer fs s.sink.out.pend.length r
  have hs0 : s.sync fs r = s.transfer fs s.sink.out.pend.length r := rfl
  rw [hs, hs0, ← h2]
  show ((s.transfer fs s.sink.out.pend.length r).1.transfer _ (s.transfer fs s.sink.out.pend.length r).1.sink.out.pend.length r').2 = _
  rw [(h1.transfer _ _ r').2]
  show _ = ((s'.transfer fs s.sink.out.pend.length r).1.transfer _ (s'.transfer fs s.sink.out.pend.length r).1.sink.out.pend.length r').2
  rw [h1.out]

theorem put_keeps (s : ESink) (t : Str) : (s.put t).bad = s.bad ∧ (s.put t).sink.counter = s.sink.counter ∧
    (s.put t).sink.every = s.sink.every ∧ (s.put t).sink.buffer = s.sink.buffer := by
  unfold ESink.put
  split <;> exact ⟨rfl, rfl, rfl, rfl⟩

theorem transfer_keeps (s : ESink) (fs : FS) (n : Nat) (r : IOOut) :
    (s.transfer fs n r).1.bad = (s.bad || decide (r ≠ .ok)) ∧ (s.transfer fs n r).1.sink.counter = s.sink.counter ∧
    (s.transfer fs n r).1.sink.every = s.sink.every := by
  cases r <;> simp [ESink.transfer]

theorem bad_step {E : Env} {s s' : ESink} {fs fs' : FS} {x : SinkOp × IOOut} {o : Str} (h : eStep E s fs x = .ok (s', fs', o))
    (l : List (SinkOp × IOOut)) :
    broken s'.sink.every s'.bad s'.sink.counter l = broken s.sink.every s.bad s.sink.counter (x :: l) := by
  obtain ⟨op, r⟩ := x
  cases op with
  | write m t =>
    unfold eStep ESink.fileWrite at h
    obtain ⟨s1, hs1, k1, k2, k3⟩ : ∃ s1, (if s.sink.firstEntry then
        { s.addLogFileHeader t with sink := { (s.addLogFileHeader t).sink with firstEntry := false } } else s) = s1 ∧
        s1.bad = s.bad ∧ s1.sink.counter = s.sink.counter ∧ s1.sink.every = s.sink.every := by
      refine ⟨_, rfl, ?_⟩
      have := put_keeps s (headerText t s.sink.header)
      split
      · exact ⟨this.1, this.2.1, this.2.2.1⟩
      · exact ⟨rfl, rfl, rfl⟩
    simp only [hs1] at h
    by_cases h0 : s1.sink.every = 0
    · simp only [h0, if_true] at h; cases h
    · simp only [h0, if_false] at h
      by_cases hm : (s1.sink.counter + 1) % s1.sink.every = 0
      · simp only [hm, if_true, Except.ok.injEq, Prod.mk.injEq] at h
        obtain ⟨rfl, _, _⟩ := h
        have hd : s.sink.every ∣ s.sink.counter + 1 := by rw [← k2, ← k3]; exact Nat.dvd_of_mod_eq_zero hm
        simp only [broken, hd, decide_true, Bool.true_and]
        unfold ESink.sync
        obtain ⟨a1, a2, a3⟩ := transfer_keeps ((ESink.mk { s1.sink with
            buffer := s1.sink.buffer ++ (toString E m s1.sink.detailsFn).1, counter := s1.sink.counter + 1 } s1.bad).put
              (s1.sink.buffer ++ (toString E m s1.sink.detailsFn).1)) fs
          ((ESink.mk { s1.sink with
            buffer := s1.sink.buffer ++ (toString E m s1.sink.detailsFn).1, counter := s1.sink.counter + 1 } s1.bad).put
              (s1.sink.buffer ++ (toString E m s1.sink.detailsFn).1)).sink.out.pend.length r
        obtain ⟨b1, b2, b3, _⟩ := put_keeps (ESink.mk { s1.sink with
            buffer := s1.sink.buffer ++ (toString E m s1.sink.detailsFn).1, counter := s1.sink.counter + 1 } s1.bad)
              (s1.sink.buffer ++ (toString E m s1.sink.detailsFn).1)
        rw [a1, a2, a3, b1, b2, b3]
        simp only [k1, k2, k3]
      · simp only [hm, if_false, Except.ok.injEq, Prod.mk.injEq] at h
        obtain ⟨rfl, _, _⟩ := h
        have hd : ¬ s.sink.every ∣ s.sink.counter + 1 := by
          rw [← k2, ← k3]; exact fun e => hm (Nat.mod_eq_zero_of_dvd e)
        simp only [broken, hd, decide_false, Bool.false_and, Bool.or_false]
        simp only [k1, k2, k3]
  | change d i now nt ht op =>
    cases op with
    | true =>
      simp only [eStep, ESink.changeLogFile, createLogFile, if_true, Except.ok.injEq, Prod.mk.injEq] at h
      obtain ⟨rfl, _, _⟩ := h
      simp only [broken]
      obtain ⟨b1, b2, b3, _⟩ := put_keeps (s.addLogFileHeader ht) (now ++ ("\n\tChanging log file from : ".toList ++
        (s.addLogFileHeader ht).sink.path ++ "\n\tto new location: ".toList ++ (d ++ createLogFileName s.sink.prefixBackup i nt) ++ "\n".toList))
      obtain ⟨c1, c2, c3, _⟩ := put_keeps s (headerText ht s.sink.header)
      rw [b2, b3, show (s.addLogFileHeader ht).sink.counter = s.sink.counter from c2,
        show (s.addLogFileHeader ht).sink.every = s.sink.every from c3]
    | false =>
      simp only [eStep, ESink.changeLogFile, createLogFile, Bool.false_eq_true, if_false, Except.ok.injEq, Prod.mk.injEq] at h
      obtain ⟨rfl, _, _⟩ := h
      simp only [broken]
      obtain ⟨b1, b2, b3, _⟩ := put_keeps s ("\n".toList ++ now ++
      " Unable to change log file. Illegal filename or busy? Unsuccessful log name was: ".toList ++ (d ++ createLogFileName s.sink.prefixBackup i nt))
      rw [b1, b2, b3]
  | overrideDetails f => cases h; rfl
  | overrideHeader f => cases h; rfl
  | fileName => cases h; rfl
  | spill n =>
    simp only [eStep, Except.ok.injEq, Prod.mk.injEq] at h
    obtain ⟨rfl, _, _⟩ := h
    obtain ⟨a1, a2, a3⟩ := transfer_keeps s fs n r
    rw [a1, a2, a3]
    rfl

/-- C81: the flag of the stream is exactly the specification's notion of a file that met with an error. -/
theorem bad_run {E : Env} (l : List (SinkOp × IOOut)) {s s' : ESink} {fs fs' : FS} {o : List Str} (h : eRun E s fs l = .ok (s', fs', o)) :
    s'.bad = broken s.sink.every s.bad s.sink.counter l := by
  induction l generalizing s fs o with
  | nil => cases h; rfl
  | cons x l ih =>
    rw [eRun] at h
    cases e : eStep E s fs x with
    | error e' => rw [e] at h; cases h
    | ok y =>
      obtain ⟨s1, fs1, r⟩ := y
      rw [e] at h
      simp only at h
      cases e2 : eRun E s1 fs1 l with
      | error e' => rw [e2] at h; cases h
      | ok z =>
        obtain ⟨s2, fs2, rs⟩ := z
        rw [e2] at h
        simp only [Except.ok.injEq, Prod.mk.injEq] at h
        obtain ⟨rfl, rfl, _⟩ := h
        rw [ih e2, bad_step e]

/-- C81, the general form of the negation: once a transfer to the current file has failed, what is logged
has no influence on any file any more, until a change of file succeeds. Two continuations that
differ in the messages (their number and the outcomes of the transfers being the same, even all
successful) leave the same files, during the run and after the end. -/
theorem C81_deaf (E : Env) {s : FileSink} {fs : FS} {p path : Str} {N : Nat} (hN : 1 ≤ N) (h : Constructed s fs p path N)
    (ops : List (SinkOp × IOOut)) (hnd : (path :: targets p (ops.map Prod.fst)).Nodup) (hb : broken N false 0 ops = true)
    {l l' : List (SinkOp × IOOut)} (ha : List.Forall₂ Alike l l') (time time' : Str) (r r' : IOOut) :
    ∃ s1 fs1 o1, eRun E ⟨s, false⟩ fs ops = .ok (s1, fs1, o1) ∧
      ∃ t t' fs2 o o', eRun E s1 fs1 l = .ok (t, fs2, o) ∧ eRun E s1 fs1 l' = .ok (t', fs2, o') ∧
        t.destroy fs2 time r r' = t'.destroy fs2 time' r r' := by
  have h0 := constructed_einv h
  obtain ⟨s1, fs1, e1, h1, _, _⟩ := eRun_sim (E := E) hN ops h0 (by simpa [usedBy, aInit] using hnd)
  have hbad : s1.bad = true := by
    rw [bad_run ops e1, h0.ev, h0.count]; exact hb
  obtain ⟨t, t', fs2, o, o', e, e', h2⟩ := alike_run E ha (s := s1) (s' := s1) ⟨hbad, hbad, rfl, rfl, rfl⟩ (by rw [h1.ev]; omega) fs1
  exact ⟨s1, fs1, _, e1, t, t', fs2, o, o', e, e', h2.destroy fs2 time time' r r'⟩

/-! ### The negation, exactly -/

/-- On a bad stream with nothing left in its buffer, nothing ever reaches a file. -/
theorem transfer_empty (s : ESink) (fs : FS) (h : s.sink.out.pend = []) (n : Nat) (r : IOOut) :
    (s.transfer fs n r).2 = fs ∧ (s.transfer fs n r).1.sink.out.pend = [] := by
  have hn : s.transfer fs n r = s.transfer fs s.sink.out.pend.length r ∨
      (s.transfer fs n r).2 = (s.transfer fs s.sink.out.pend.length r).2 := by
    right
    cases r <;> simp [ESink.transfer, OStream.spill, h]
  refine ⟨?_, by cases r <;> simp [ESink.transfer, OStream.spill, h]⟩
  have := sync_empty s fs h r
  unfold ESink.sync at this
  rcases hn with e | e
  · rw [e]; exact this
  · rw [e]; exact this

theorem deaf_writes (E : Env) (ms : List (LogMessage × Str × IOOut)) (s : ESink) (fs : FS) (hb : s.bad = true)
    (hN : s.sink.every ≠ 0) (hp : s.sink.out.pend = []) :
    ∃ s' o, eRun E s fs (ms.map fun x => (.write x.1 x.2.1, x.2.2)) = .ok (s', fs, o) ∧ s'.bad = true ∧ s'.sink.out.pend = [] := by
  induction ms generalizing s fs with
  | nil => exact ⟨s, [], rfl, hb, hp⟩
  | cons x ms ih =>
    obtain ⟨m, t, r⟩ := x
    obtain ⟨b, e⟩ := fileWrite_bad E hb fs m t r hN
    have he : (s.sync fs r).2 = fs ∧ (s.sync fs r).1.sink.out.pend = [] := transfer_empty s fs hp _ r
    have hev : (s.sync fs r).1.sink.every = s.sink.every := (transfer_keeps s fs _ r).2.2
    by_cases hm : (s.sink.counter + 1) % s.sink.every = 0
    · rw [if_pos hm, he.1] at e
      obtain ⟨s', o, e', h1, h2⟩ := ih
        (⟨{ (s.sync fs r).1.sink with firstEntry := false, buffer := [], counter := s.sink.counter + 1 }, true⟩) fs rfl
        (by simp only [hev]; exact hN) he.2
      refine ⟨s', [] :: o, ?_, h1, h2⟩
      rw [List.map_cons, eRun]
      simp only [eStep]
      rw [e]
      simp only
      rw [e']
    · rw [if_neg hm] at e
      obtain ⟨s', o, e', h1, h2⟩ := ih
        (⟨{ s.sink with firstEntry := false, buffer := b, counter := s.sink.counter + 1 }, true⟩) fs rfl hN hp
      refine ⟨s', [] :: o, ?_, h1, h2⟩
      rw [List.map_cons, eRun]
      simp only [eStep]
      rw [e]
      simp only
      rw [e']

/-- C81, negation: for every sink that writes each entry at once, if the system fails during the first
entry, then however many messages follow and although every later transfer succeeds, the file ends up with
nothing but what became of the header and that first entry: the part the system took, and what the stream
had kept for another try. Not even the shutdown line is there. -/
theorem C81_negation (E : Env) {s : FileSink} {fs : FS} {p path : Str} (h : Constructed s fs p path 1)
    (m : LogMessage) (t : Str) (k r : Nat) (ms : List (LogMessage × Str)) (time : Str) :
    ∃ s' fs' o, eRun E ⟨s, false⟩ fs ((.write m t, .fail k r) :: ms.map fun x => (.write x.1 x.2, .ok)) = .ok (s', fs', o) ∧
      s'.destroy fs' time .ok .ok path = some ((hdrText t s.header ++ (toString E m .default).1).take k ++
        (hdrText t s.header ++ (toString E m .default).1).drop r) := by
  have hI := constructed_inv h
  have h0 := constructed_einv h
  obtain ⟨c, d1, d2, d3, _⟩ := hI.disk
  have hc : c = [] ∧ s.out.pend = [] := by
    have : c ++ s.out.pend = [] := d3
    simpa using this
  obtain ⟨hc0, hp0⟩ := hc
  subst hc0
  have hfe : s.firstEntry = true := hI.fresh
  have hev : s.every = 1 := hI.ev
  have hbuf : s.buffer = [] := hI.buf
  have hfm : s.detailsFn = .default := hI.fmt
  have hop : s.out.path = path := hI.opath
  have hoff : s.out.off = 0 := d2
  have d1' : fs path = some [] := d1
  obtain ⟨T, hT⟩ : ∃ T, T = hdrText t s.header ++ (toString E m .default).1 := ⟨_, rfl⟩
  -- the state after the first message
  obtain ⟨s1, e1, b1, b2, b3, b4, b5⟩ : ∃ s1 : ESink, eStep E ⟨s, false⟩ fs (.write m t, .fail k r) =
      .ok (s1, fs.set path (T.take k), []) ∧ s1.bad = true ∧ s1.sink.every = 1 ∧ s1.sink.out.pend = T.drop r ∧
      s1.sink.out.path = path ∧ s1.sink.out.off = (T.take k).length := by
    refine ⟨?_, ?_, ?_⟩
    case refine_2 =>
      simp only [eStep, ESink.fileWrite, hfe, if_true, ESink.addLogFileHeader, ESink.put, Bool.false_eq_true, if_false, hev,
        Nat.mod_one, ESink.sync, ESink.transfer, OStream.put, hp0, hop, d1', hoff, hbuf, List.nil_append, hfm, headerText_eq,
        Nat.one_ne_zero, ← hT, List.take_length, writeAt_end]
      have : writeAt [] 0 (T.take k) = T.take k := by
        have := writeAt_end [] (T.take k); simpa using this
      rw [this]
    case refine_3 => exact ⟨rfl, rfl, rfl, rfl, by simp⟩
  rw [← hT]
  -- the further messages: at most one transfer of what was kept
  have hcase : ∃ s' fs' o, eRun E s1 (fs.set path (T.take k)) (ms.map fun x => (.write x.1 x.2, .ok)) = .ok (s', fs', o) ∧
      (s'.bad = true ∧ ((fs' = fs.set path (T.take k) ∧ s'.sink.out.path = path ∧ s'.sink.out.pend = T.drop r ∧
          s'.sink.out.off = (T.take k).length) ∨
        (fs' path = some (T.take k ++ T.drop r) ∧ s'.sink.out.pend = []))) := by
    cases ms with
    | nil => exact ⟨s1, _, _, rfl, b1, Or.inl ⟨rfl, b4, b3, b5⟩⟩
    | cons x ms =>
      obtain ⟨m1, t1⟩ := x
      obtain ⟨b, e⟩ := fileWrite_bad E b1 (fs.set path (T.take k)) m1 t1 .ok (by rw [b2]; decide)
      rw [b2, Nat.mod_one, if_pos rfl] at e
      have hfl := flush_spec s1.sink.out (fs.set path (T.take k)) (T.take k) (by rw [b4]; exact FS.set_same _ _ _) b5
      have hsync : s1.sync (fs.set path (T.take k)) .ok =
          (⟨{ s1.sink with out := ⟨s1.sink.out.path, (T.take k ++ s1.sink.out.pend).length, []⟩ }, s1.bad⟩,
            (fs.set path (T.take k)).set s1.sink.out.path (T.take k ++ s1.sink.out.pend)) := by
        unfold ESink.sync ESink.transfer
        have : s1.sink.out.spill (fs.set path (T.take k)) s1.sink.out.pend.length = s1.sink.out.flush (fs.set path (T.take k)) := rfl
        simp only [this, hfl]
      rw [hsync] at e
      simp only [b3, b4] at e
      obtain ⟨s', o, e', q1, q2⟩ := deaf_writes E (ms.map fun x => (x.1, x.2, .ok))
        ⟨{ s1.sink with out := ⟨path, (T.take k ++ T.drop r).length, []⟩, firstEntry := false, buffer := [], counter := s1.sink.counter + 1 }, true⟩
        ((fs.set path (T.take k)).set path (T.take k ++ T.drop r)) rfl (by simp only [b2]; decide) rfl
      rw [List.map_map] at e'
      have e'' : eRun E ⟨{ s1.sink with out := ⟨path, (T.take k ++ T.drop r).length, []⟩, firstEntry := false, buffer := [], counter := s1.sink.counter + 1 }, true⟩
        ((fs.set path (T.take k)).set path (T.take k ++ T.drop r)) (ms.map fun x => (.write x.1 x.2, .ok)) = _ := e'
      refine ⟨s', (fs.set path (T.take k)).set path (T.take k ++ T.drop r), [] :: o, ?_, q1, Or.inr ⟨FS.set_same _ _ _, q2⟩⟩
      rw [List.map_cons, eRun]
      simp only [eStep]
      rw [e]
      simp only
      simp only [b2] at e'' ⊢
      rw [e'']
  obtain ⟨s', fs', o, e2, q1, q3⟩ := hcase
  refine ⟨s', fs', [] :: o, ?_, ?_⟩
  · rw [eRun, e1]; simp only; rw [e2]
  · unfold ESink.destroy
    simp only
    rw [put_bad q1]
    rcases q3 with ⟨rfl, q2, p1, p2⟩ | ⟨p1, p2⟩
    · have hfl := flush_spec s'.sink.out (fs.set path (T.take k)) (T.take k) (by rw [q2]; exact FS.set_same _ _ _) p2
      have hsync : s'.sync (fs.set path (T.take k)) .ok =
          (⟨{ s'.sink with out := ⟨s'.sink.out.path, (T.take k ++ s'.sink.out.pend).length, []⟩ }, s'.bad⟩,
            (fs.set path (T.take k)).set s'.sink.out.path (T.take k ++ s'.sink.out.pend)) := by
        unfold ESink.sync ESink.transfer
        have : s'.sink.out.spill (fs.set path (T.take k)) s'.sink.out.pend.length = s'.sink.out.flush (fs.set path (T.take k)) := rfl
        simp only [this, hfl]
      rw [sync_empty]
      · rw [hsync, q2, p1]; exact FS.set_same _ _ _
      · rw [hsync]
    · have he := transfer_empty s' fs' p2 s'.sink.out.pend.length .ok
      have hs : s'.sync fs' .ok = s'.transfer fs' s'.sink.out.pend.length .ok := rfl
      rw [hs, sync_empty _ _ he.2, he.1, p1]

/-! ### Recovery -/

/-- C81: a successful change of file ends the trouble. Whatever failed before and whatever becomes of the old
stream, if from then on every transfer succeeds, the new file ends up with: the line naming
the previous file, the header if there was no entry yet, the entries not yet due for writing when
the file was changed, every entry logged since, and the shutdown line. -/
theorem C81_recover (E : Env) {s : FileSink} {fs : FS} {p path : Str} {N : Nat} (hN : 1 ≤ N) (h : Constructed s fs p path N)
    (ops : List (SinkOp × IOOut)) (d i now nt ht : Str) (rc : IOOut) (ops' : List SinkOp) (hc : NoChange ops')
    (hnd : (path :: (targets p (ops.map Prod.fst) ++ [targetName p d i nt])).Nodup) (time : Str) :
    ∃ s1 fs1 o1, eRun E ⟨s, false⟩ fs ops = .ok (s1, fs1, o1) ∧
      ∃ s2 fs2 o2, eRun E s1 fs1 ((.change d i now nt ht true, rc) :: ops'.map (·, .ok)) = .ok (s2, fs2, o2) ∧
        ∃ held, held <:+ received E .default (ops.map Prod.fst) ∧
          held.length = (received E .default (ops.map Prod.fst)).length % N ∧
          s2.destroy fs2 time .ok .ok (targetName p d i nt) =
            some (now ++ "\n\tNew log file. The previous log file was at: ".toList ++ s1.sink.path ++ "\n".toList ++
              (if received E .default (ops.map Prod.fst) = [] then firstHeader s1.sink.header ops' else []) ++ held.flatten ++
              (received E (fmtAfter .default (ops.map Prod.fst)) ops').flatten ++
              "g3log g3FileSink shutdown at: ".toList ++ time ++ "\n".toList) := by
  have h0 := constructed_einv h
  have hnd1 : (usedBy (aInit path) ++ targets p (ops.map Prod.fst)).Nodup := by
    rw [← List.cons_append] at hnd
    simpa [usedBy, aInit] using (List.nodup_append.mp hnd).1
  obtain ⟨s1, fs1, e1, h1, _, _⟩ := eRun_sim (E := E) hN ops h0 hnd1
  refine ⟨s1, fs1, _, e1, ?_⟩
  obtain ⟨a, ha⟩ : ∃ a, a = aRun E N p (aInit path) (ops.map Prod.fst) := ⟨_, rfl⟩
  rw [← ha] at h1
  have hu : ∀ (l : List SinkOp) (b : ASink), usedBy (aRun E N p b l) = usedBy b ++ targets p l := by
    intro l
    induction l with
    | nil => intro b; simp [aRun, targets]
    | cons op l ih => intro b; rw [aRun, ih, usedBy_step, targets_cons p op l, List.append_assoc]
  have hnew : targetName p d i nt ∉ usedBy a := by
    rw [ha, hu]
    rw [← List.cons_append] at hnd
    intro hm
    exact (List.nodup_append.mp hnd).2.2 _ (by simpa [usedBy, aInit] using hm) _ (List.mem_singleton.mpr rfl) rfl
  -- the change
  obtain ⟨s2, fs2, e2, h2, _, _⟩ := eStep_sim (E := E) hN h1 (.change d i now nt ht true) rc hnew
  have hbad : s2.bad = false ∧ s2.sink.out = ⟨targetName p d i nt, 0, now ++ ("\n\tNew log file. The previous log file was at: ".toList ++
      a.path ++ "\n".toList)⟩ := by
    simp only [eStep, ESink.changeLogFile, createLogFile, if_true, Except.ok.injEq, Prod.mk.injEq] at e2
    obtain ⟨rfl, _, _⟩ := e2
    refine ⟨rfl, ?_⟩
    have hp : (s1.addLogFileHeader ht).sink.path = a.path := by
      rw [← h1.path]; unfold ESink.addLogFileHeader ESink.put; split <;> rfl
    simp only [OStream.put, hp, List.nil_append, h1.pre, targetName_eq]
  obtain ⟨k2, b2⟩ := s2
  simp only at hbad
  obtain ⟨rfl, hout⟩ := hbad
  -- from here on the sink of the error free model, with only the new file in view
  have hheld : a.fresh = true → a.held = [] ∧ received E .default (ops.map Prod.fst) = [] := by
    rw [ha]
    have : ∀ (l : List SinkOp) (b : ASink), (aRun E N p b l).fresh = true →
        (b.fresh = true ∧ (aRun E N p b l).held = b.held ∧ ∀ f, received E f l = []) := by
      intro l
      induction l with
      | nil => intro b hb; exact ⟨hb, rfl, fun _ => rfl⟩
      | cons op l ih =>
        intro b hb
        rw [aRun] at hb
        obtain ⟨q1, q2, q3⟩ := ih _ hb
        cases op with
        | write m t => rw [(aStep_write E N p b m t).1] at q1; cases q1
        | change d i n nt ht o => cases o <;> exact ⟨q1, q2, fun f => q3 f⟩
        | overrideDetails g => exact ⟨q1, q2, fun f => q3 g⟩
        | overrideHeader g => exact ⟨q1, q2, fun f => q3 f⟩
        | fileName => exact ⟨q1, q2, fun f => q3 f⟩
        | spill n => exact ⟨q1, q2, fun f => q3 f⟩
    intro hf
    obtain ⟨_, q2, q3⟩ := this _ _ hf
    exact ⟨q2, q3 _⟩
  have hfresh : a.fresh = false → received E .default (ops.map Prod.fst) ≠ [] := by
    rw [ha]
    have : ∀ (l : List SinkOp) (b : ASink), b.fresh = true → (∀ f, received E f l = []) → (aRun E N p b l).fresh = true := by
      intro l
      induction l with
      | nil => intro b hb _; exact hb
      | cons op l ih =>
        intro b hb hr
        rw [aRun]
        cases op with
        | write m t => have := hr .default; simp [received] at this
        | change d i n nt ht o => cases o <;> exact ih _ hb hr
        | overrideDetails g => exact ih _ hb (by
            intro f
            have hlen : ∀ (l : List SinkOp) (f f' : DetailsFn), (received E f l).length = (received E f' l).length := by
              intro l
              induction l with
              | nil => intro _ _; rfl
              | cons op l ih' => intro f f'; cases op <;> simp [received, ih' f f']
            have := hlen l f g
            rw [show received E g l = [] from hr .default] at this
            exact List.length_eq_zero_iff.mp this)
        | overrideHeader g => exact ih _ hb hr
        | fileName => exact ih _ hb hr
        | spill n => exact ih _ hb hr
    intro hf hr
    have hlen : ∀ (l : List SinkOp) (f f' : DetailsFn), (received E f l).length = (received E f' l).length := by
      intro l
      induction l with
      | nil => intro _ _; rfl
      | cons op l ih' => intro f f'; cases op <;> simp [received, ih' f f']
    have := this (ops.map Prod.fst) (aInit path) rfl (by
      intro f
      have := hlen (ops.map Prod.fst) f .default
      rw [hr] at this
      exact List.length_eq_zero_iff.mp this)
    rw [this] at hf
    cases hf
  have hfmt : a.fmt = fmtAfter .default (ops.map Prod.fst) := by
    rw [ha]
    have : ∀ (l : List SinkOp) (b : ASink), (aRun E N p b l).fmt = fmtAfter b.fmt l := by
      intro l
      induction l with
      | nil => intro b; rfl
      | cons op l ih =>
        intro b
        rw [aRun, ih]
        cases op with
        | write m t => rw [(aStep_write E N p b m t).2.1]; rfl
        | change d i n nt ht o => cases o <;> rfl
        | _ => rfl
    exact this _ _
  obtain ⟨L, hL⟩ : ∃ L, L = now ++ "\n\tNew log file. The previous log file was at: ".toList ++ a.path ++ "\n".toList := ⟨_, rfl⟩
  have hF : FInv N p k2 fs2 { a with closed := [], path := targetName p d i nt, cur := [.extra L] } := by
    obtain ⟨c, d1, d2⟩ := h2.disk
    have hc0 : c = [] := by
      have : k2.out.off = c.length := d2
      rw [hout] at this
      exact List.length_eq_zero_iff.mp this.symm
    subst hc0
    exact
      { fmt := h2.fmt, hdr := h2.hdr, fresh := h2.fresh, count := h2.count, buf := h2.buf, path := h2.path, opath := h2.opath,
        pre := h2.pre, ev := h2.ev
        disk := ⟨[], d1, d2, by rw [hout]; simp [chunkText, Chunk.text, hL], [], _, rfl, rfl, by simp [chunkText]⟩
        closed := by simp, apart := by simp }
  have hT : targets p ops' = [] := by
    clear hF
    induction ops' with
    | nil => rfl
    | cons op l ih =>
      rw [targets_cons, ih hc.tail, List.append_nil]
      cases op with
      | change d i n nt ht o => exact absurd (by simp) (hc d i n nt ht o)
      | _ => rfl
  obtain ⟨s3, fs3, e3, h3, _, _⟩ := run_sim (E := E) hN ops' hF (by rw [hT]; simp [usedBy])
  have hrun : ∃ o2, eRun E s1 fs1 ((.change d i now nt ht true, rc) :: ops'.map (·, .ok)) = .ok (⟨s3, false⟩, fs3, o2) := by
    rw [eRun, e2]
    simp only
    rw [C81_no_error, e3]
    exact ⟨_, rfl⟩
  obtain ⟨o2, hrun⟩ := hrun
  refine ⟨⟨s3, false⟩, fs3, o2, hrun, a.held, ?_, ?_, ?_⟩
  · have := entries_run E N p (ops.map Prod.fst) (aInit path)
    rw [← ha] at this
    exact ⟨_, this.trans (by simp [aInit, entries])⟩
  · obtain ⟨q1, q2⟩ := held_run E N hN p (ops.map Prod.fst) (aInit path) rfl
    rw [← ha] at q1 q2
    rw [q1, q2]
    show (0 + _) % N = _
    rw [Nat.zero_add]; rfl
  · rw [C81_no_error_end]
    obtain ⟨g1, g2, g3⟩ := text_run_nochange E N p ops' hc { a with closed := [], path := targetName p d i nt, cur := [.extra L] }
      (fun hf => (hheld hf).1)
    obtain ⟨A, hA⟩ : ∃ A, A = aRun E N p { a with closed := [], path := targetName p d i nt, cur := [.extra L] } ops' := ⟨_, rfl⟩
    rw [← hA] at g1 g2 g3 h3
    have := (destroy_sim h3 time).1 (targetName p d i nt, A.cur ++ A.held.map .entry ++
      [.extra ("g3log g3FileSink shutdown at: ".toList ++ time ++ "\n".toList)])
      (by unfold aFinal; rw [g3]; exact List.mem_append_right _ (List.mem_singleton.mpr rfl))
    rw [this, chunkText_append, chunkText_append, chunkText_entries, g1, h1.path, ← hL, ← hfmt, h1.hdr]
    have hif : (if a.fresh = true then firstHeader a.hdr ops' else []) =
        (if received E .default (ops.map Prod.fst) = [] then firstHeader a.hdr ops' else []) := by
      cases hf : a.fresh with
      | true => rw [if_pos rfl, if_pos (hheld hf).2]
      | false => rw [if_neg (by simp), if_neg (hfresh hf)]
    have hcomm : a.held.flatten ++ (if a.fresh = true then firstHeader a.hdr ops' else []) =
        (if a.fresh = true then firstHeader a.hdr ops' else []) ++ a.held.flatten := by
      cases hf : a.fresh with
      | true => rw [(hheld hf).1]; simp
      | false => simp
    rw [← hif]
    simp only
    rw [List.append_assoc (chunkText _) a.held.flatten, hcomm]
    generalize "g3log g3FileSink shutdown at: ".toList = Z
    simp [chunkText, Chunk.text]

/-! ### Concrete cases -/

example : ∃ s fs, Constructed s fs "p".toList "d/p.x.t.log".toList 1 := sample_constructed1

/-- A history with an error in the second of two transfers. -/
def errorSample : List (SinkOp × IOOut) :=
  [(.write (LogMessage.new false 0 1 [] 1 [] INFO) [], .ok), (.write (LogMessage.new false 0 2 [] 1 [] INFO) [], .fail 3 0)]

example : broken 1 false 0 errorSample = true := by decide
example : broken 2 false 0 (errorSample ++ [(.change "e/".toList [] [] [] [] true, .fail 0 0)]) = false := by decide
example : broken 2 false 0 errorSample = true := by decide
example : ("d/p.x.t.log".toList :: (targets "p".toList (errorSample.map Prod.fst) ++ [targetName "p".toList "e/".toList [] []])).Nodup := by
  decide
example : List.Forall₂ Alike [(SinkOp.write (LogMessage.new false 0 1 [] 1 [] INFO) [], IOOut.ok)]
    [(SinkOp.write (LogMessage.new false 7 1 [] 1 [] INFO) "x".toList, IOOut.ok)] := .cons (.write ..) .nil

end G3.Props
