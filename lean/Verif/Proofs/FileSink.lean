import Verif.Spec.FileSink
import Verif.Proofs.Str
import Mathlib.Data.List.Nodup
/- Refinement of the file sink to its specification. -/
namespace G3
open Spec

theorem writeAt_end (c t : Str) : writeAt c c.length t = c ++ t := by
  unfold writeAt
  split
  · rename_i h; rw [h]; simp
  · simp [List.drop_eq_nil_of_le]

theorem FS.set_same (fs : FS) (p c : Str) : fs.set p c p = some c := by simp [FS.set]
theorem FS.set_other (fs : FS) {p q : Str} (c : Str) (h : q ≠ p) : fs.set p c q = fs q := by simp [FS.set, h]

theorem spill_spec (o : OStream) (fs : FS) (c : Str) (n : Nat) (h : fs o.path = some c) (ho : o.off = c.length) :
    o.spill fs n = ({ path := o.path, off := (c ++ o.pend.take n).length, pend := o.pend.drop n },
      fs.set o.path (c ++ o.pend.take n)) := by
  unfold OStream.spill
  rw [h]
  simp only
  rw [ho, writeAt_end, List.length_append]

theorem flush_spec (o : OStream) (fs : FS) (c : Str) (h : fs o.path = some c) (ho : o.off = c.length) :
    o.flush fs = ({ path := o.path, off := (c ++ o.pend).length, pend := [] }, fs.set o.path (c ++ o.pend)) := by
  unfold OStream.flush
  rw [spill_spec o fs c _ h ho]
  simp

theorem chunkText_append (a b : List Chunk) : chunkText (a ++ b) = chunkText a ++ chunkText b := by
  simp [chunkText]

theorem chunkText_entries (l : List Str) : chunkText (l.map .entry) = l.flatten := by
  simp [chunkText, Function.comp_def, Chunk.text]

theorem entries_append (a b : List Chunk) : entries (a ++ b) = entries a ++ entries b := by
  simp [entries]

theorem entries_map (l : List Str) : entries (l.map .entry) = l := by
  induction l with
  | nil => rfl
  | cons x l ih => simp [entries]

theorem targetName_eq (p d i t : Str) : d ++ createLogFileName p i t = targetName p d i t := by
  unfold createLogFileName targetName
  by_cases h : i = [] <;> simp [h]

theorem headerText_eq (t h : Str) : headerText t h = hdrText t h := rfl

/-- The coupling between the sink with its file system and the specification. -/
structure FInv (N : Nat) (p : Str) (s : FileSink) (fs : FS) (a : ASink) : Prop where
  fmt : s.detailsFn = a.fmt
  hdr : s.header = a.hdr
  fresh : s.firstEntry = a.fresh
  count : s.counter = a.count
  buf : s.buffer = a.held.flatten
  path : s.path = a.path
  opath : s.out.path = a.path
  pre : s.prefixBackup = p
  ev : s.every = N
  disk : ∃ c, fs a.path = some c ∧ s.out.off = c.length ∧ c ++ s.out.pend = chunkText a.cur ∧
    ∃ A B, a.cur = A ++ B ∧ entries B = [] ∧ chunkText A <+: c
  closed : ∀ x ∈ a.closed, fs x.1 = some (chunkText x.2)
  apart : a.path ∉ a.closed.map Prod.fst

/-- Condition on one operation: the target of a successful change is a new name. -/
def NewName (p : Str) (a : ASink) : SinkOp → Prop
  | .change d i _ nt _ true => targetName p d i nt ∉ a.closed.map Prod.fst ++ [a.path]
  | _ => True

/-- The files in use after an operation. -/
def usedBy (a : ASink) : List Str := a.closed.map Prod.fst ++ [a.path]

theorem FInv.put_extra {N : Nat} {p : Str} {s : FileSink} {fs : FS} {a : ASink} (h : FInv N p s fs a) (t : Str) :
    FInv N p { s with out := s.out.put t } fs { a with cur := a.cur ++ [.extra t] } := by
  obtain ⟨c, h1, h2, h3, A, B, h4, h5, h6⟩ := h.disk
  exact { h with
    opath := h.opath
    disk := ⟨c, h1, h2, by simp only [OStream.put]; rw [chunkText_append, ← h3, List.append_assoc]; simp [chunkText, Chunk.text],
      A, B ++ [.extra t], by rw [h4, List.append_assoc], by rw [entries_append, h5]; rfl, h6⟩
    closed := h.closed
    apart := h.apart }

theorem step_sim {E : Env} {N : Nat} (hN : 1 ≤ N) {p : Str} {s : FileSink} {fs : FS} {a : ASink} (h : FInv N p s fs a)
    (op : SinkOp) (hop : NewName p a op) :
    ∃ s' fs', sinkStep E s fs op = .ok (s', fs', aOut p a op) ∧ FInv N p s' fs' (aStep E N p a op) ∧
      ∀ q, q ∉ usedBy (aStep E N p a op) → fs' q = fs q := by
  cases op with
  | write m t =>
    -- first the header, if due
    obtain ⟨s1, hs1, hI⟩ : ∃ s1, (if s.firstEntry then { s.addLogFileHeader t with firstEntry := false } else s) = s1 ∧
        FInv N p s1 fs { a with fresh := false, cur := if a.fresh then a.cur ++ [.extra (hdrText t a.hdr)] else a.cur } := by
      refine ⟨_, rfl, ?_⟩
      cases hf : a.fresh with
      | true =>
        have : s.firstEntry = true := by rw [h.fresh, hf]
        simp only [this, if_true]
        have hs1 : s.addLogFileHeader t = { s with out := s.out.put (hdrText t a.hdr) } := by
          unfold FileSink.addLogFileHeader; rw [h.hdr, headerText_eq]
        rw [hs1]
        exact { h.put_extra (hdrText t a.hdr) with fresh := rfl }
      | false =>
        have : s.firstEntry = false := by rw [h.fresh, hf]
        simp only [this, Bool.false_eq_true, if_false]
        exact { h with fresh := this }
    have hev : s1.every ≠ 0 := by rw [hI.ev]; omega
    have hcnt : s1.counter = a.count := hI.count
    have hfmt : s1.detailsFn = a.fmt := hI.fmt
    have hbuf : s1.buffer = a.held.flatten := hI.buf
    unfold sinkStep FileSink.fileWrite
    simp only [hs1]
    rw [if_neg hev]
    by_cases hd : N ∣ a.count + 1
    · have hmod : (s1.counter + 1) % s1.every = 0 := by
        rw [hcnt, hI.ev]; exact Nat.mod_eq_zero_of_dvd hd
      rw [if_pos hmod]
      obtain ⟨c, h1, h2, h3, A, B, h4, h5, h6⟩ := hI.disk
      simp only at h1 h3 h4
      have hfl := flush_spec (s1.out.put (s1.buffer ++ (toString E m s1.detailsFn).1)) fs c
        (by show fs s1.out.path = some c; rw [hI.opath]; exact h1) h2
      rw [hfl]
      refine ⟨_, _, rfl, ?_, ?_⟩
      · have hall : c ++ (s1.out.put (s1.buffer ++ (toString E m s1.detailsFn).1)).pend =
            chunkText ((if a.fresh = true then a.cur ++ [.extra (hdrText t a.hdr)] else a.cur) ++
              List.map Chunk.entry (a.held ++ [(toString E m a.fmt).1])) := by
          rw [chunkText_append, chunkText_entries, ← h3, hbuf, hfmt]
          simp [OStream.put]
        unfold aStep
        simp only
        rw [if_pos hd]
        exact { fmt := hfmt, hdr := hI.hdr, fresh := hI.fresh, count := by simp [hcnt], buf := by simp, path := hI.path,
                opath := hI.opath, pre := hI.pre, ev := hI.ev
                disk := ⟨_, by rw [show a.path = (s1.out.put (s1.buffer ++ (toString E m s1.detailsFn).1)).path from hI.opath.symm]; exact FS.set_same _ _ _,
                  rfl, by simp only [List.append_nil]; exact hall, _, [], (List.append_nil _).symm, rfl, by rw [hall]; exact List.prefix_refl _⟩
                closed := by
                  intro x hx
                  rw [FS.set_other]
                  · exact h.closed x hx
                  · show x.1 ≠ s1.out.path
                    rw [hI.opath]
                    intro e
                    exact h.apart (List.mem_map.mpr ⟨x, hx, e⟩)
                apart := h.apart }
      · intro q hq
        simp only
        rw [FS.set_other]
        show q ≠ s1.out.path
        rw [hI.opath]
        unfold aStep at hq
        simp only at hq
        rw [if_pos hd] at hq
        simp only [usedBy, List.mem_append, List.mem_singleton, not_or] at hq
        exact hq.2
    · have hmod : ¬ (s1.counter + 1) % s1.every = 0 := by
        rw [hcnt, hI.ev]; intro e; exact hd (Nat.dvd_of_mod_eq_zero e)
      rw [if_neg hmod]
      refine ⟨_, _, rfl, ?_, fun q _ => rfl⟩
      unfold aStep
      simp only
      rw [if_neg hd]
      exact { fmt := hfmt, hdr := hI.hdr, fresh := hI.fresh, count := by simp [hcnt],
              buf := by simp [hbuf, hfmt], path := hI.path, opath := hI.opath, pre := hI.pre, ev := hI.ev
              disk := hI.disk, closed := h.closed, apart := h.apart }
  | change d i now nt ht o =>
    have hname : d ++ createLogFileName s.prefixBackup i nt = targetName p d i nt := by rw [h.pre, targetName_eq]
    unfold sinkStep FileSink.changeLogFile
    simp only [hname]
    cases o with
    | false =>
      simp only [createLogFile, Bool.false_eq_true, if_false]
      refine ⟨_, _, rfl, ?_, fun q _ => rfl⟩
      have := h.put_extra ("\n".toList ++ now ++
        " Unable to change log file. Illegal filename or busy? Unsuccessful log name was: ".toList ++ targetName p d i nt)
      exact this
    | true =>
      simp only [createLogFile, if_true]
      have hnew : targetName p d i nt ∉ a.closed.map Prod.fst ++ [a.path] := hop
      generalize hT : targetName p d i nt = T at *
      have hTp : a.path ≠ T := by rintro e; exact hnew (by simp [e])
      have hp1 := h.put_extra (hdrText ht a.hdr)
      have hp2 := hp1.put_extra (now ++ ("\n\tChanging log file from : ".toList ++ s.path ++ "\n\tto new location: ".toList ++
        T ++ "\n".toList))
      obtain ⟨c, h1, h2, h3, _⟩ := hp2.disk
      simp only at h1 h3
      have hs1 : s.addLogFileHeader ht = { s with out := s.out.put (hdrText ht a.hdr) } := by
        unfold FileSink.addLogFileHeader; rw [h.hdr, headerText_eq]
      rw [hs1]
      have hfl := flush_spec ((s.out.put (hdrText ht a.hdr)).put (now ++ ("\n\tChanging log file from : ".toList ++ s.path ++
        "\n\tto new location: ".toList ++ T ++ "\n".toList))) (fs.set T []) c
        (by show fs.set T [] s.out.path = some c; rw [h.opath, FS.set_other _ _ hTp]; exact h1) h2
      simp only
      rw [hfl]
      refine ⟨_, _, by simp only [aOut, hT]; rfl, ?_, ?_⟩
      · unfold aStep
        simp only [hT]
        have hpath : ((s.out.put (hdrText ht a.hdr)).put (now ++ ("\n\tChanging log file from : ".toList ++ s.path ++
            "\n\tto new location: ".toList ++ T ++ "\n".toList))).path = a.path := h.opath
        exact { fmt := h.fmt, hdr := h.hdr, fresh := h.fresh, count := h.count, buf := h.buf, path := rfl, opath := rfl,
                pre := h.pre, ev := h.ev
                disk := ⟨[], by rw [hpath, FS.set_other _ _ hTp.symm]; exact FS.set_same _ _ _, rfl,
                  by simp [OStream.put, chunkText, Chunk.text, h.path], [], _, by simp; rfl, rfl, by simp [chunkText]⟩
                closed := by
                  intro x hx
                  rw [hpath]
                  rcases List.mem_append.mp hx with hx | hx
                  · have hxp : x.1 ≠ a.path := fun e => h.apart (List.mem_map.mpr ⟨x, hx, e⟩)
                    have hxT : x.1 ≠ T := by
                      rintro e; exact hnew (by rw [← e]; exact List.mem_append_left _ (List.mem_map.mpr ⟨x, hx, rfl⟩))
                    rw [FS.set_other _ _ hxp, FS.set_other _ _ hxT]
                    exact h.closed x hx
                  · simp only [List.mem_singleton] at hx
                    subst hx
                    simp only
                    rw [FS.set_same, h3]
                    simp [chunkText, Chunk.text, h.path]
                apart := by
                  intro hm
                  simp only [List.map_append, List.map_cons, List.map_nil] at hm
                  exact hnew hm }
      · intro q hq
        unfold aStep at hq
        simp only [hT, usedBy, List.map_append, List.map_cons, List.map_nil, List.mem_append, List.mem_singleton, not_or] at hq
        have hpath : ((s.out.put (hdrText ht a.hdr)).put (now ++ ("\n\tChanging log file from : ".toList ++ s.path ++
            "\n\tto new location: ".toList ++ T ++ "\n".toList))).path = a.path := h.opath
        rw [hpath, FS.set_other _ _ hq.1.2, FS.set_other _ _ hq.2]
  | overrideDetails f =>
    refine ⟨_, _, rfl, ?_, fun q _ => rfl⟩
    exact { h with fmt := rfl, disk := h.disk }
  | overrideHeader f =>
    refine ⟨_, _, rfl, ?_, fun q _ => rfl⟩
    exact { h with hdr := rfl, disk := h.disk }
  | fileName =>
    refine ⟨s, fs, by simp [sinkStep, aOut, h.path], h, fun q _ => rfl⟩
  | spill n =>
    obtain ⟨c, h1, h2, h3, A, B, h4, h5, h6⟩ := h.disk
    have hsp := spill_spec s.out fs c n (by rw [h.opath]; exact h1) h2
    refine ⟨_, _, rfl, ?_, ?_⟩
    · rw [hsp]
      exact { h with
        opath := h.opath
        disk := ⟨c ++ s.out.pend.take n, by rw [h.opath]; exact FS.set_same _ _ _, rfl,
          by simp only; rw [List.append_assoc, List.take_append_drop]; exact h3, A, B, h4, h5, h6.trans (List.prefix_append _ _)⟩
        closed := by
          intro x hx
          simp only
          rw [h.opath, FS.set_other]
          · exact h.closed x hx
          · intro e
            exact h.apart (List.mem_map.mpr ⟨x, hx, e⟩)
        apart := h.apart }
    · intro q hq
      rw [hsp]
      simp only
      rw [h.opath, FS.set_other]
      simp only [aStep, usedBy, List.mem_append, List.mem_singleton, not_or] at hq
      exact hq.2

theorem usedBy_step (E : Env) (N : Nat) (p : Str) (a : ASink) (op : SinkOp) :
    usedBy (aStep E N p a op) = usedBy a ++ targets p [op] := by
  cases op with
  | write m t => simp only [aStep, targets, List.append_nil]; split <;> rfl
  | change d i now nt ht o => cases o <;> simp [aStep, usedBy, targets]
  | _ => simp [aStep, usedBy, targets]

theorem targets_cons (p : Str) (op : SinkOp) (ops : List SinkOp) : targets p (op :: ops) = targets p [op] ++ targets p ops := by
  cases op with
  | change d i now nt ht o => cases o <;> simp [targets]
  | _ => simp [targets]

theorem run_sim {E : Env} {N : Nat} (hN : 1 ≤ N) {p : Str} (ops : List SinkOp) {s : FileSink} {fs : FS} {a : ASink}
    (h : FInv N p s fs a) (hnd : (usedBy a ++ targets p ops).Nodup) :
    ∃ s' fs', sinkRun E s fs ops = .ok (s', fs', aOuts E N p a ops) ∧ FInv N p s' fs' (aRun E N p a ops) ∧
      usedBy (aRun E N p a ops) = usedBy a ++ targets p ops ∧
      ∀ q, q ∉ usedBy a ++ targets p ops → fs' q = fs q := by
  induction ops generalizing s fs a with
  | nil => exact ⟨s, fs, rfl, h, by simp [aRun, targets], fun q _ => rfl⟩
  | cons op ops ih =>
    rw [targets_cons, ← List.append_assoc] at hnd
    have hop : NewName p a op := by
      unfold NewName
      split
      · have := List.nodup_append.mp hnd
        have h1 := List.nodup_append.mp this.1
        intro hm
        exact h1.2.2 _ hm _ (by simp [targets]) rfl
      · trivial
    obtain ⟨s1, fs1, e1, h1, f1⟩ := step_sim (E := E) hN h op hop
    rw [← usedBy_step E N p a op] at hnd
    obtain ⟨s2, fs2, e2, h2, u2, f2⟩ := ih h1 hnd
    refine ⟨s2, fs2, ?_, h2, ?_, ?_⟩
    · unfold sinkRun; rw [e1]; simp only; rw [e2]; rfl
    · show usedBy (aRun E N p (aStep E N p a op) ops) = _
      rw [u2, usedBy_step, targets_cons p op ops, List.append_assoc]
    · intro q hq
      rw [targets_cons, ← List.append_assoc, ← usedBy_step E N p a op] at hq
      rw [f2 q hq, f1 q]
      exact fun hm => hq (List.mem_append_left _ hm)

theorem destroy_sim {N : Nat} {p : Str} {s : FileSink} {fs : FS} {a : ASink} (h : FInv N p s fs a) (time : Str) :
    (∀ x ∈ aFinal a time, s.destroy fs time x.1 = some (chunkText x.2)) ∧
    ∀ q, q ∉ usedBy a → s.destroy fs time q = fs q := by
  obtain ⟨c, h1, h2, h3, _⟩ := h.disk
  unfold FileSink.destroy
  rw [flush_spec (s.out.put (s.buffer ++ ("g3log g3FileSink shutdown at: ".toList ++ time ++ "\n".toList))) fs c
    (by show fs s.out.path = some c; rw [h.opath]; exact h1) h2]
  have hpath : ∀ t, (s.out.put t).path = a.path := fun _ => h.opath
  constructor
  · intro x hx
    simp only [hpath]
    rcases List.mem_append.mp hx with hx | hx
    · rw [FS.set_other]
      · exact h.closed x hx
      · intro e; exact h.apart (List.mem_map.mpr ⟨x, hx, e⟩)
    · simp only [List.mem_singleton] at hx
      subst hx
      simp only
      rw [FS.set_same]
      congr 1
      rw [chunkText_append, chunkText_append, ← h3, chunkText_entries, h.buf]
      simp [OStream.put, chunkText, Chunk.text]
  · intro q hq
    simp only [hpath]
    rw [FS.set_other]
    simp only [usedBy, List.mem_append, List.mem_singleton, not_or] at hq
    exact hq.2

/-- Entries in the files and held back are the entries received. -/
theorem entries_run (E : Env) (N : Nat) (p : Str) (ops : List SinkOp) (a : ASink) :
    entries ((aRun E N p a ops).closed.flatMap Prod.snd) ++ entries (aRun E N p a ops).cur ++ (aRun E N p a ops).held =
      entries (a.closed.flatMap Prod.snd) ++ entries a.cur ++ a.held ++ received E a.fmt ops := by
  induction ops generalizing a with
  | nil => simp [aRun, received]
  | cons op ops ih =>
    show entries ((aRun E N p (aStep E N p a op) ops).closed.flatMap Prod.snd) ++ _ ++ _ = _
    rw [aRun, ih]
    have he : ∀ t, entries [Chunk.extra t] = [] := fun _ => rfl
    cases op with
    | write m t =>
      simp only [aStep, received]
      have hc : entries (if a.fresh = true then a.cur ++ [Chunk.extra (hdrText t a.hdr)] else a.cur) = entries a.cur := by
        split
        · rw [entries_append, he, List.append_nil]
        · rfl
      split
      · have h1 : ∀ t, entries [Chunk.entry t] = [t] := fun _ => rfl
        simp [entries_append, entries_map, hc, h1]
      · simp [hc]
    | change d i now nt ht o =>
      cases o with
      | true =>
        have h2 : ∀ t u, entries [Chunk.extra t, Chunk.extra u] = [] := fun _ _ => rfl
        simp [aStep, received, entries_append, he, h2]
      | false => simp [aStep, received, entries_append, he]
    | _ => simp [aStep, received]

/-- The number of entries held back. -/
theorem held_run (E : Env) (N : Nat) (hN : 1 ≤ N) (p : Str) (ops : List SinkOp) (a : ASink) (h : a.held.length = a.count % N) :
    (aRun E N p a ops).held.length = (aRun E N p a ops).count % N ∧
    (aRun E N p a ops).count = a.count + (received E a.fmt ops).length := by
  induction ops generalizing a with
  | nil => simp [aRun, received, h]
  | cons op ops ih =>
    show (aRun E N p (aStep E N p a op) ops).held.length = _ ∧ _
    have hs : (aStep E N p a op).held.length = (aStep E N p a op).count % N := by
      cases op with
      | write m t =>
        simp only [aStep]
        split
        · rename_i hd
          simp [Nat.mod_eq_zero_of_dvd hd]
        · rename_i hd
          simp only [List.length_append, List.length_singleton, h]
          have hlt := Nat.mod_lt a.count (show N > 0 by omega)
          by_cases hl : a.count % N + 1 = N
          · exfalso; apply hd
            apply Nat.dvd_of_mod_eq_zero
            rw [Nat.add_mod]
            by_cases h1 : N = 1
            · subst h1; simp [Nat.mod_one]
            · rw [Nat.mod_eq_of_lt (show 1 < N by omega), hl, Nat.mod_self]
          · have h1 : 1 < N := by
              by_contra hc
              have : N = 1 := by omega
              subst this
              exact hd (Nat.one_dvd _)
            have h2 : a.count % N + 1 < N := by omega
            rw [Nat.add_mod, Nat.mod_eq_of_lt h1, Nat.mod_eq_of_lt h2]
      | change d i now nt ht o => cases o <;> exact h
      | _ => exact h
    obtain ⟨h1, h2⟩ := ih _ hs
    refine ⟨h1, ?_⟩
    rw [aRun, h2]
    cases op with
    | write m t =>
      simp only [aStep, received]
      split <;> simp <;> omega
    | change d i now nt ht o => cases o <;> rfl
    | _ => rfl

end G3
