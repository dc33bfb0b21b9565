import Verif.Proofs.FileSink
import Verif.Props.FileName
/-
Properties of the default file sink: C38, C39, C40, C41, C42 (and the sink part of C30, C37).
-/
namespace G3.Props
open G3 G3.Spec

/-- A sink as built by its constructor. -/
def Constructed (s : FileSink) (fs' : FS) (p path : Str) (N : Nat) : Prop :=
  ∃ (fs : FS) (lp dir id nameTime : Str) (o1 o2 : Bool), FileSink.new fs lp dir id N nameTime o1 o2 = .ok (s, fs') ∧
    s.prefixBackup = p ∧ s.path = path

/-- C38, C36, C37: the constructor. With an acceptable prefix the file is created (empty) in the requested
directory, or else in the working directory; all other files are untouched. If the prefix is not
acceptable, or neither place can be opened, the program ends. -/
theorem C38_constructor (fs : FS) (lp dir id nameTime : Str) (N : Nat) (o1 o2 : Bool) :
    (∀ p, acceptPrefix lp = some p →
      (o1 = true → ∃ s, FileSink.new fs lp dir id N nameTime o1 o2 =
        .ok (s, fs.set (pathSanityFix dir (createLogFileName p id nameTime)) []) ∧
        s.path = pathSanityFix dir (createLogFileName p id nameTime)) ∧
      (o1 = false → o2 = true → ∃ s, FileSink.new fs lp dir id N nameTime o1 o2 =
        .ok (s, fs.set ("./".toList ++ createLogFileName p id nameTime) []) ∧
        s.path = "./".toList ++ createLogFileName p id nameTime) ∧
      (o1 = false → o2 = false → FileSink.new fs lp dir id N nameTime o1 o2 = .error .assertOpen)) ∧
    (acceptPrefix lp = none → FileSink.new fs lp dir id N nameTime o1 o2 = .error .abortPrefix) := by
  constructor
  · intro p hp
    unfold FileSink.new createLogFile
    rw [hp]
    refine ⟨?_, ?_, ?_⟩
    · rintro rfl; exact ⟨_, rfl, rfl⟩
    · rintro rfl rfl; exact ⟨_, rfl, rfl⟩
    · rintro rfl rfl; rfl
  · intro h
    unfold FileSink.new
    rw [h]

theorem constructed_inv {s : FileSink} {fs : FS} {p path : Str} {N : Nat} (h : Constructed s fs p path N) :
    FInv N p s fs (aInit path) := by
  obtain ⟨fs0, lp, dir, id, nt, o1, o2, h, h1, h2⟩ := h
  have mk : ∀ (pth q : Str) (f : FS), f pth = some [] →
      FInv N q (FileSink.mk .default pth q { path := pth, off := 0, pend := [] } defaultHeader true [] 0 N) f (aInit pth) := by
    intro pth q f hf
    exact
      { fmt := rfl, hdr := rfl, fresh := rfl, count := rfl, buf := rfl, path := rfl, opath := rfl, pre := rfl, ev := rfl,
        disk := ⟨[], hf, rfl, rfl, [], [], rfl, rfl, List.prefix_refl _⟩, closed := by simp [aInit], apart := by simp [aInit] }
  unfold FileSink.new createLogFile at h
  cases hp : acceptPrefix lp with
  | none => rw [hp] at h; cases h
  | some q =>
    rw [hp] at h
    cases o1 with
    | true =>
      simp only [if_true, Except.ok.injEq, Prod.mk.injEq] at h
      obtain ⟨rfl, rfl⟩ := h
      simp only at h1 h2
      subst h1 h2
      exact mk _ _ _ (FS.set_same _ _ _)
    | false =>
      cases o2 with
      | true =>
        simp only [Bool.false_eq_true, if_false, if_true, Except.ok.injEq, Prod.mk.injEq] at h
        obtain ⟨rfl, rfl⟩ := h
        simp only at h1 h2
        subst h1 h2
        exact mk _ _ _ (FS.set_same _ _ _)
      | false => simp at h

/-! ### C38 -/

/-- The header: written before the first entry, with the header text in force then; nothing without
entries. -/
def firstHeader (h : Str) : List SinkOp → Str
  | [] => []
  | .write _ t :: _ => hdrText t h
  | .overrideHeader g :: ops => firstHeader g ops
  | _ :: ops => firstHeader h ops

/-- No request to change the file. -/
def NoChange (ops : List SinkOp) : Prop := ∀ d i n nt ht o, SinkOp.change d i n nt ht o ∉ ops

theorem aStep_write (E : Env) (N : Nat) (p : Str) (a : ASink) (m : LogMessage) (t : Str) :
    (aStep E N p a (.write m t)).fresh = false ∧ (aStep E N p a (.write m t)).fmt = a.fmt ∧
    (aStep E N p a (.write m t)).closed = a.closed ∧ (aStep E N p a (.write m t)).path = a.path ∧
    chunkText (aStep E N p a (.write m t)).cur ++ (aStep E N p a (.write m t)).held.flatten =
      chunkText a.cur ++ (if a.fresh then hdrText t a.hdr else []) ++ a.held.flatten ++ (toString E m a.fmt).1 := by
  have hh : chunkText (if a.fresh then a.cur ++ [.extra (hdrText t a.hdr)] else a.cur) =
      chunkText a.cur ++ (if a.fresh then hdrText t a.hdr else []) := by
    cases a.fresh
    · simp
    · simp only [if_true]; rw [chunkText_append]; simp [chunkText, Chunk.text]
  simp only [aStep]
  by_cases h : N ∣ a.count + 1
  · rw [if_pos h]
    refine ⟨rfl, rfl, rfl, rfl, ?_⟩
    show chunkText ((if a.fresh then a.cur ++ [.extra (hdrText t a.hdr)] else a.cur) ++ _) ++ [].flatten = _
    rw [chunkText_append, hh, chunkText_entries]
    simp
  · rw [if_neg h]
    refine ⟨rfl, rfl, rfl, rfl, ?_⟩
    show chunkText (if a.fresh then a.cur ++ [.extra (hdrText t a.hdr)] else a.cur) ++ _ = _
    rw [hh]
    simp

theorem NoChange.tail {op : SinkOp} {ops : List SinkOp} (h : NoChange (op :: ops)) : NoChange ops :=
  fun d i n nt ht o hm => h d i n nt ht o (List.mem_cons_of_mem _ hm)

theorem text_run_nochange (E : Env) (N : Nat) (p : Str) (ops : List SinkOp) (hc : NoChange ops) (a : ASink)
    (hx : a.fresh = true → a.held = []) :
    chunkText (aRun E N p a ops).cur ++ (aRun E N p a ops).held.flatten =
      chunkText a.cur ++ a.held.flatten ++ (if a.fresh then firstHeader a.hdr ops else []) ++
        (received E a.fmt ops).flatten ∧
    (aRun E N p a ops).closed = a.closed ∧ (aRun E N p a ops).path = a.path := by
  induction ops generalizing a with
  | nil => simp [aRun, received, firstHeader]
  | cons op ops ih =>
    rw [aRun]
    cases op with
    | write m t =>
      obtain ⟨w1, w2, w3, w4, w5⟩ := aStep_write E N p a m t
      have := ih hc.tail (aStep E N p a (.write m t)) (by rw [w1]; intro h; cases h)
      refine ⟨?_, by rw [this.2.1, w3], by rw [this.2.2, w4]⟩
      rw [this.1, w1, w2, w5, received, firstHeader]
      cases hf : a.fresh with
      | true => simp [hx hf]
      | false => simp
    | change d i n nt ht o => exact absurd (by simp) (hc d i n nt ht o)
    | overrideDetails f => exact ih hc.tail _ hx
    | overrideHeader f => exact ih hc.tail { a with hdr := f } hx
    | fileName => exact ih hc.tail _ hx
    | spill n => exact ih hc.tail _ hx

/-- C38: for a sink that is never redirected, whatever is written, however the formatter or header are
changed in between and whenever the stream spills by itself, after destruction the file contains
exactly the header (if there was any entry), every entry in order of arrival, and the shutdown
line; no other file is touched. -/
theorem C38_content (E : Env) {s : FileSink} {fs : FS} {p path : Str} {N : Nat} (hN : 1 ≤ N) (h : Constructed s fs p path N)
    (ops : List SinkOp) (hc : NoChange ops) (time : Str) :
    ∃ s' fs' outs, sinkRun E s fs ops = .ok (s', fs', outs) ∧
      s'.destroy fs' time path = some (firstHeader s.header ops ++ (received E .default ops).flatten ++
        "g3log g3FileSink shutdown at: ".toList ++ time ++ "\n".toList) ∧
      ∀ q, q ≠ path → s'.destroy fs' time q = fs q := by
  have hI := constructed_inv h
  have hT : targets p ops = [] := by
    clear hI h
    induction ops with
    | nil => rfl
    | cons op ops ih =>
      have hc' : NoChange ops := fun d i n nt ht o hm => hc d i n nt ht o (List.mem_cons_of_mem _ hm)
      rw [targets_cons, ih hc', List.append_nil]
      cases op with
      | change d i n nt ht o => exact absurd (by simp) (hc d i n nt ht o)
      | _ => rfl
  obtain ⟨s', fs', e, hI', hu, ho⟩ := run_sim (E := E) hN ops hI (by rw [hT]; simp [usedBy, aInit])
  refine ⟨s', fs', _, e, ?_, ?_⟩
  · have hd := (destroy_sim hI' time).1
    obtain ⟨h1, h2, h3⟩ := text_run_nochange E N p ops hc (aInit path) (fun _ => rfl)
    have := hd (path, (aRun E N p (aInit path) ops).cur ++ (aRun E N p (aInit path) ops).held.map .entry ++
      [.extra ("g3log g3FileSink shutdown at: ".toList ++ time ++ "\n".toList)])
      (by unfold aFinal; rw [h3]; exact List.mem_append_right _ (List.mem_singleton.mpr rfl))
    rw [this, chunkText_append, chunkText_append, chunkText_entries, h1]
    have hh : s.header = (aInit path).hdr := hI.hdr
    have hfm : (aInit path).fmt = .default := rfl
    have hfr : (aInit path).fresh = true := rfl
    have hhe : (aInit path).held = [] := rfl
    have hcu : (aInit path).cur = [] := rfl
    rw [hh, hfr, hfm, hhe, hcu]
    generalize "g3log g3FileSink shutdown at: ".toList = T
    simp [chunkText, Chunk.text]
  · intro q hq
    have hu' : usedBy (aRun E N p (aInit path) ops) = [path] := by
      rw [hu, hT]; simp [usedBy, aInit]
    rw [(destroy_sim hI' time).2 q (by rw [hu']; simpa using hq)]
    exact ho q (by rw [hT]; simpa [usedBy, aInit] using hq)

/-- C38: the case of no message at all. -/
theorem C38_no_message (E : Env) {s : FileSink} {fs : FS} {p path : Str} {N : Nat} (hN : 1 ≤ N) (h : Constructed s fs p path N)
    (time : Str) : s.destroy fs time path = some ("g3log g3FileSink shutdown at: ".toList ++ time ++ "\n".toList) := by
  obtain ⟨s', fs', outs, e, h1, _⟩ := C38_content E hN h [] (by intro d i n nt ht o; simp) time
  simp only [sinkRun, Except.ok.injEq, Prod.mk.injEq] at e
  obtain ⟨rfl, rfl, _⟩ := e
  rw [h1]; simp [firstHeader, received]

/-- A flush interval of 0 is undefined behaviour at the first message. -/
theorem C38_interval_zero (E : Env) (s : FileSink) (fs : FS) (m : LogMessage) (t : Str) (h : s.every = 0) :
    sinkStep E s fs (.write m t) = .error .moduloZero := by
  unfold sinkStep FileSink.fileWrite FileSink.addLogFileHeader
  cases hf : s.firstEntry <;> simp [h]

/-- The formatter in force after a history. -/
def fmtAfter (f : DetailsFn) : List SinkOp → DetailsFn
  | [] => f
  | .overrideDetails g :: ops => fmtAfter g ops
  | _ :: ops => fmtAfter f ops

theorem received_append (E : Env) (f : DetailsFn) (l1 l2 : List SinkOp) :
    received E f (l1 ++ l2) = received E f l1 ++ received E (fmtAfter f l1) l2 := by
  induction l1 generalizing f with
  | nil => rfl
  | cons op l ih => cases op <;> simp [received, fmtAfter, ih]

/-- C30 (sink part): whatever happened before, messages written after the formatter was overridden appear in
the file exactly as formatted with that formatter. -/
theorem C30_sink_formatter (E : Env) {s : FileSink} {fs : FS} {p path : Str} {N : Nat} (hN : 1 ≤ N) (h : Constructed s fs p path N)
    (ops : List SinkOp) (hc : NoChange ops) (g : DetailsFn) (ms : List LogMessage) (time : Str) :
    ∃ s' fs' outs, sinkRun E s fs (ops ++ .overrideDetails g :: ms.map (.write · [])) = .ok (s', fs', outs) ∧
      ∃ head, s'.destroy fs' time path = some (head ++ (ms.map fun m => (toString E m g).1).flatten ++
        "g3log g3FileSink shutdown at: ".toList ++ time ++ "\n".toList) := by
  have hc' : NoChange (ops ++ .overrideDetails g :: ms.map (.write · [])) := by
    intro d i n nt ht o hm
    rcases List.mem_append.mp hm with hm | hm
    · exact hc d i n nt ht o hm
    · simp at hm
  obtain ⟨s', fs', outs, e, h1, _⟩ := C38_content E hN h _ hc' time
  refine ⟨s', fs', outs, e, firstHeader s.header (ops ++ .overrideDetails g :: ms.map (.write · [])) ++
    (received E .default ops).flatten, ?_⟩
  rw [h1, received_append]
  have : ∀ l : List LogMessage, received E g (l.map (.write · [])) = l.map fun m => (toString E m g).1 := by
    intro l
    induction l with
    | nil => rfl
    | cons m l ih => rw [List.map_cons, received, ih, List.map_cons]
  rw [received, this, List.flatten_append, ← List.append_assoc (firstHeader _ _)]

/-- A concrete constructed sink, for any flush interval. -/
theorem sample_constructed' (N : Nat) : ∃ s fs, Constructed s fs "p".toList "d/p.x.t.log".toList N := by
  have hp : pathSanityFix "d".toList "p.x.t.log".toList = "d/p.x.t.log".toList :=
    C37_path_partial _ _ "d".toList [] (by decide) (by decide) (by decide) (by decide)
  have ha : acceptPrefix "p".toList = some "p".toList := by decide
  have hn : createLogFileName "p".toList "x".toList "t".toList = "p.x.t.log".toList := by decide
  have h := ((C38_constructor (fun _ => none) "p".toList "d".toList "x".toList "t".toList N true true).1 _ ha).1 rfl
  obtain ⟨s, h1, h2⟩ := h
  rw [hn, hp] at h2
  refine ⟨s, _, _, "p".toList, "d".toList, "x".toList, "t".toList, true, true, h1, ?_, h2⟩
  unfold FileSink.new createLogFile at h1
  rw [ha] at h1
  simp only [if_true, Except.ok.injEq, Prod.mk.injEq] at h1
  rw [← h1.1]

theorem sample_constructed : ∃ s fs, Constructed s fs "p".toList "d/p.x.t.log".toList 2 := sample_constructed' 2
theorem sample_constructed1 : ∃ s fs, Constructed s fs "p".toList "d/p.x.t.log".toList 1 := sample_constructed' 1

example : NoChange [.write (LogMessage.new false 0 1 [] 1 [] INFO) [], .overrideHeader "h".toList, .spill 3] := by
  intro d i n nt ht o; simp

/-! ### C39 -/

/-- C39: at any moment (after any history in which changes use new names), all entries received except the
last `n % N` ones (so at most `N - 1`; none for `N = 1`) are in the files on disk, in order. -/
theorem C39_bounded_loss (E : Env) {s : FileSink} {fs : FS} {p path : Str} {N : Nat} (hN : 1 ≤ N) (h : Constructed s fs p path N)
    (ops : List SinkOp) (hnd : (path :: targets p ops).Nodup) :
    ∃ s' fs' outs, sinkRun E s fs ops = .ok (s', fs', outs) ∧
      ∃ (files : List (Str × List Chunk)) (missing : List Str),
        files.map Prod.fst = path :: targets p ops ∧
        (∀ x ∈ files, ∃ c, fs' x.1 = some c ∧ chunkText x.2 <+: c) ∧
        entries (files.flatMap Prod.snd) ++ missing = received E .default ops ∧
        missing.length = (received E .default ops).length % N ∧ missing.length ≤ N - 1 := by
  have hI := constructed_inv h
  obtain ⟨s', fs', e, hI', hu, ho⟩ := run_sim (E := E) hN ops hI (by simpa [usedBy, aInit] using hnd)
  refine ⟨s', fs', _, e, ?_⟩
  obtain ⟨c, h1, h2, h3, A, B, h4, h5, h6⟩ := hI'.disk
  have hent := entries_run E N p ops (aInit path)
  obtain ⟨hh1, hh2⟩ := held_run E N hN p ops (aInit path) rfl
  have hlen : (aRun E N p (aInit path) ops).held.length = (received E .default ops).length % N := by
    rw [hh1, hh2]
    show (0 + (received E DetailsFn.default ops).length) % N = _
    rw [Nat.zero_add]
  refine ⟨(aRun E N p (aInit path) ops).closed ++ [((aRun E N p (aInit path) ops).path, A)],
    (aRun E N p (aInit path) ops).held, ?_, ?_, ?_, hlen, ?_⟩
  · have : usedBy (aRun E N p (aInit path) ops) = path :: targets p ops := by rw [hu]; simp [usedBy, aInit]
    rw [← this]; simp [usedBy]
  · intro x hx
    rcases List.mem_append.mp hx with hx | hx
    · exact ⟨_, hI'.closed x hx, List.prefix_refl _⟩
    · simp only [List.mem_singleton] at hx
      subst hx
      exact ⟨c, h1, h6⟩
  · have e0 : entries ((aInit path).closed.flatMap Prod.snd) ++ entries (aInit path).cur ++ (aInit path).held = [] := rfl
    rw [e0, List.nil_append] at hent
    have hA : entries (aRun E N p (aInit path) ops).cur = entries A := by rw [h4, entries_append, h5, List.append_nil]
    rw [hA] at hent
    rw [List.flatMap_append, entries_append]
    simpa [aInit] using hent
  · rw [hlen]
    have := Nat.mod_lt (received E .default ops).length (show N > 0 by omega)
    omega

/-! ### C40 -/

/-- C40: exactly what every file contains after destruction, for every history of writes, formatter and
header changes, spills and (successful or failing) file changes to new names: the layout computed
by the specification. All other files are untouched, and the caller receives the new name on
success and an empty name on failure. -/
theorem C40_layout (E : Env) {s : FileSink} {fs : FS} {p path : Str} {N : Nat} (hN : 1 ≤ N) (h : Constructed s fs p path N)
    (ops : List SinkOp) (hnd : (path :: targets p ops).Nodup) (time : Str) :
    ∃ s' fs', sinkRun E s fs ops = .ok (s', fs', aOuts E N p (aInit path) ops) ∧
      (∀ x ∈ aFinal (aRun E N p (aInit path) ops) time, s'.destroy fs' time x.1 = some (chunkText x.2)) ∧
      (aFinal (aRun E N p (aInit path) ops) time).map Prod.fst = path :: targets p ops ∧
      ∀ q, q ∉ path :: targets p ops → s'.destroy fs' time q = fs q := by
  have hI := constructed_inv h
  obtain ⟨s', fs', e, hI', hu, ho⟩ := run_sim (E := E) hN ops hI (by simpa [usedBy, aInit] using hnd)
  have hu' : usedBy (aRun E N p (aInit path) ops) = path :: targets p ops := by rw [hu]; simp [usedBy, aInit]
  refine ⟨s', fs', e, (destroy_sim hI' time).1, ?_, ?_⟩
  · rw [← hu']; simp [aFinal, usedBy]
  · intro q hq
    rw [(destroy_sim hI' time).2 q (by rw [hu']; exact hq)]
    exact ho q (by simpa [usedBy, aInit] using hq)

/-- C40: nothing is lost, duplicated or reordered: the entries found in the used files, read in order of
use, are exactly the entries received. -/
theorem C40_no_loss (E : Env) {s : FileSink} {fs : FS} {p path : Str} {N : Nat} (hN : 1 ≤ N) (h : Constructed s fs p path N)
    (ops : List SinkOp) (hnd : (path :: targets p ops).Nodup) (time : Str) :
    ∃ s' fs' outs, sinkRun E s fs ops = .ok (s', fs', outs) ∧
      ∃ files : List (Str × List Chunk), files.map Prod.fst = path :: targets p ops ∧
        (∀ x ∈ files, s'.destroy fs' time x.1 = some (chunkText x.2)) ∧
        entries (files.flatMap Prod.snd) = received E .default ops := by
  obtain ⟨s', fs', e, h1, h2, _⟩ := C40_layout E hN h ops hnd time
  refine ⟨s', fs', _, e, _, h2, h1, ?_⟩
  have hent := entries_run E N p ops (aInit path)
  have e0 : entries ((aInit path).closed.flatMap Prod.snd) ++ entries (aInit path).cur ++ (aInit path).held = [] := rfl
  rw [e0, List.nil_append] at hent
  have hx : ∀ t, entries [Chunk.extra t] = [] := fun _ => rfl
  rw [aFinal, List.flatMap_append, entries_append]
  simp only [List.flatMap_cons, List.flatMap_nil, List.append_nil, entries_append, entries_map, hx]
  rw [← List.append_assoc]; exact hent

/-- C40: a failed change returns an empty name and keeps the current file; a successful one returns the
name of the new file, which `fileName` then reports. -/
theorem C40_result (s : FileSink) (fs : FS) (d i n nt ht : Str) :
    (s.changeLogFile fs d i n nt ht false).2.2 = [] ∧
    (s.changeLogFile fs d i n nt ht false).1.path = s.path ∧
    (s.changeLogFile fs d i n nt ht false).1.buffer = s.buffer ∧
    (s.changeLogFile fs d i n nt ht false).2.1 = fs ∧
    (s.changeLogFile fs d i n nt ht true).2.2 = targetName s.prefixBackup d i nt ∧
    (s.changeLogFile fs d i n nt ht true).1.path = targetName s.prefixBackup d i nt := by
  have := targetName_eq s.prefixBackup d i nt
  refine ⟨rfl, rfl, rfl, rfl, ?_, ?_⟩
  · rw [← this]; rfl
  · rw [← this]; rfl

example : ("d/p.x.t.log".toList :: targets "p".toList
    [.write (LogMessage.new false 0 1 [] 1 [] INFO) [], .change "e/".toList "x".toList [] "t2".toList [] true,
     .change "e/".toList "x".toList [] "t2".toList [] false]).Nodup := by
  decide

/-! ### C41 -/

theorem aRun_append (E : Env) (N : Nat) (p : Str) (a : ASink) (l1 l2 : List SinkOp) :
    aRun E N p a (l1 ++ l2) = aRun E N p (aRun E N p a l1) l2 := by
  induction l1 generalizing a with
  | nil => rfl
  | cons op l ih => rw [List.cons_append, aRun, aRun, ih]

theorem targets_append (p : Str) (l1 l2 : List SinkOp) : targets p (l1 ++ l2) = targets p l1 ++ targets p l2 := by
  induction l1 with
  | nil => rfl
  | cons op l ih => rw [List.cons_append, targets_cons, ih, targets_cons p op l, List.append_assoc]

theorem closed_grow (E : Env) (N : Nat) (p : Str) (a : ASink) (ops : List SinkOp) :
    ∃ t, (aRun E N p a ops).closed = a.closed ++ t ∧
      t.map Prod.fst ++ [(aRun E N p a ops).path] = a.path :: targets p ops := by
  induction ops generalizing a with
  | nil => exact ⟨[], by simp [aRun], by simp [aRun, targets]⟩
  | cons op ops ih =>
    obtain ⟨t, h1, h2⟩ := ih (aStep E N p a op)
    rw [aRun]
    cases op with
    | write m tt =>
      obtain ⟨w1, w2, w3, w4, w5⟩ := aStep_write E N p a m tt
      exact ⟨t, by rw [h1, w3], by rw [h2, w4]; rfl⟩
    | change d i now nt ht o =>
      cases o with
      | false => exact ⟨t, h1, h2⟩
      | true =>
        refine ⟨_ :: t, h1.trans (List.append_assoc _ _ _), ?_⟩
        rw [List.map_cons, List.cons_append, h2, targets]
        rfl
    | overrideDetails f => exact ⟨t, h1, h2⟩
    | overrideHeader f => exact ⟨t, h1, h2⟩
    | fileName => exact ⟨t, h1, h2⟩
    | spill n => exact ⟨t, h1, h2⟩

/-- C41, exact: at a successful change (to a new name) after `ops1`, with flush interval `N`, the files used
up to then keep exactly the first `n - n % N` of the `n` entries received so far. The remaining
`n % N` ones end up in the files used afterwards. -/
theorem C41_exact (E : Env) {s : FileSink} {fs : FS} {p path : Str} {N : Nat} (hN : 1 ≤ N) (h : Constructed s fs p path N)
    (ops1 ops2 : List SinkOp) (d i n nt ht : Str)
    (hnd : (path :: targets p (ops1 ++ .change d i n nt ht true :: ops2)).Nodup) (time : Str) :
    ∃ s' fs' outs, sinkRun E s fs (ops1 ++ .change d i n nt ht true :: ops2) = .ok (s', fs', outs) ∧
      ∃ before after : List (Str × List Chunk),
        before.map Prod.fst = path :: targets p ops1 ∧
        after.map Prod.fst = targetName p d i nt :: targets p ops2 ∧
        (∀ x ∈ before ++ after, s'.destroy fs' time x.1 = some (chunkText x.2)) ∧
        entries (before.flatMap Prod.snd) =
          (received E .default ops1).take ((received E .default ops1).length - (received E .default ops1).length % N) ∧
        entries (after.flatMap Prod.snd) =
          (received E .default ops1).drop ((received E .default ops1).length - (received E .default ops1).length % N) ++
            received E (fmtAfter .default ops1) ops2 := by
  obtain ⟨s', fs', e, h1, h2, _⟩ := C40_layout E hN h _ hnd time
  refine ⟨s', fs', _, e, ?_⟩
  -- the state before the change
  obtain ⟨t1, c1, c2⟩ := closed_grow E N p (aInit path) ops1
  have c1' : (aRun E N p (aInit path) ops1).closed = t1 := by rw [c1]; rfl
  have ent1 := entries_run E N p ops1 (aInit path)
  have e0 : entries ((aInit path).closed.flatMap Prod.snd) ++ entries (aInit path).cur ++ (aInit path).held = [] := rfl
  rw [e0, List.nil_append] at ent1
  obtain ⟨hh1, hh2⟩ := held_run E N hN p ops1 (aInit path) rfl
  have hlen : (aRun E N p (aInit path) ops1).held.length = (received E .default ops1).length % N := by
    rw [hh1, hh2]
    show (0 + (received E DetailsFn.default ops1).length) % N = _
    rw [Nat.zero_add]
  change _ = received E .default ops1 at ent1
  -- the state after it
  set a1 := aRun E N p (aInit path) ops1 with ha1
  set a2 := aStep E N p a1 (.change d i n nt ht true) with ha2
  have hrun : aRun E N p (aInit path) (ops1 ++ .change d i n nt ht true :: ops2) = aRun E N p a2 ops2 := by
    rw [aRun_append, ← ha1, aRun]
  rw [hrun] at h1 h2
  obtain ⟨t2, g1, g2⟩ := closed_grow E N p a2 ops2
  have entall := entries_run E N p ops2 a2
  have hcl : ∃ ex ex', a2.closed = t1 ++ [(a1.path, a1.cur ++ [.extra ex, .extra ex'])] := ⟨_, _, by rw [← c1']; rfl⟩
  obtain ⟨ex, ex', hcl⟩ := hcl
  have hheld : a2.held = a1.held := rfl
  have hcur : entries a2.cur = [] := rfl
  have hfmt : a2.fmt = fmtAfter .default ops1 := by
    show a1.fmt = _
    rw [ha1]
    have : ∀ (l : List SinkOp) (a : ASink), (aRun E N p a l).fmt = fmtAfter a.fmt l := by
      intro l
      induction l with
      | nil => intro a; rfl
      | cons op l ih =>
        intro a
        rw [aRun, ih]
        cases op with
        | write m tt => rw [(aStep_write E N p a m tt).2.1]; rfl
        | change d i now nt ht o => cases o <;> rfl
        | _ => rfl
    exact this _ _
  have hpre : entries (a2.closed.flatMap Prod.snd) =
      (received E .default ops1).take ((received E .default ops1).length - (received E .default ops1).length % N) := by
    have he : entries (a2.closed.flatMap Prod.snd) = entries (a1.closed.flatMap Prod.snd) ++ entries a1.cur := by
      rw [hcl, c1', List.flatMap_append, entries_append]
      congr 1
      simp only [List.flatMap_cons, List.flatMap_nil, List.append_nil, entries_append]
      exact List.append_nil _
    rw [he]
    have hl : (entries (a1.closed.flatMap Prod.snd) ++ entries a1.cur).length =
        (received E .default ops1).length - (received E .default ops1).length % N := by
      rw [← hlen, ← ent1, List.length_append (bs := a1.held)]; omega
    rw [← hl, ← ent1, List.take_left]
  have hpost : a1.held =
      (received E .default ops1).drop ((received E .default ops1).length - (received E .default ops1).length % N) := by
    have hl : (entries (a1.closed.flatMap Prod.snd) ++ entries a1.cur).length =
        (received E .default ops1).length - (received E .default ops1).length % N := by
      rw [← hlen, ← ent1, List.length_append (bs := a1.held)]; omega
    rw [← hl, ← ent1, List.drop_left]
  refine ⟨a2.closed, t2 ++ [((aRun E N p a2 ops2).path, (aRun E N p a2 ops2).cur ++ (aRun E N p a2 ops2).held.map .entry ++
    [.extra ("g3log g3FileSink shutdown at: ".toList ++ time ++ "\n".toList)])], ?_, ?_, ?_, hpre, ?_⟩
  · rw [hcl, List.map_append]
    exact c2
  · rw [List.map_append]
    exact g2
  · intro x hx
    apply h1
    rw [aFinal, g1, List.append_assoc]
    exact hx
  · rw [g1, List.flatMap_append, entries_append, hcur, hheld, hfmt, List.append_nil] at entall
    simp only [List.append_assoc] at entall
    have := List.append_cancel_left entall
    rw [List.flatMap_append, entries_append]
    simp only [List.flatMap_cons, List.flatMap_nil, List.append_nil, entries_append, entries_map]
    rw [← hpost, ← this]
    have hx : ∀ t, entries [Chunk.extra t] = [] := fun _ => rfl
    rw [hx, List.append_nil]

/-- C41 (partial: only for flush interval 1): all entries received before a successful change are in the
files used before it, all later ones in the files used after it. -/
theorem C41_old_file_partial (E : Env) {s : FileSink} {fs : FS} {p path : Str} (h : Constructed s fs p path 1)
    (ops1 ops2 : List SinkOp) (d i n nt ht : Str)
    (hnd : (path :: targets p (ops1 ++ .change d i n nt ht true :: ops2)).Nodup) (time : Str) :
    ∃ s' fs' outs, sinkRun E s fs (ops1 ++ .change d i n nt ht true :: ops2) = .ok (s', fs', outs) ∧
      ∃ before after : List (Str × List Chunk),
        before.map Prod.fst = path :: targets p ops1 ∧
        after.map Prod.fst = targetName p d i nt :: targets p ops2 ∧
        (∀ x ∈ before ++ after, s'.destroy fs' time x.1 = some (chunkText x.2)) ∧
        entries (before.flatMap Prod.snd) = received E .default ops1 ∧
        entries (after.flatMap Prod.snd) = received E (fmtAfter .default ops1) ops2 := by
  have := C41_exact E (le_refl 1) h ops1 ops2 d i n nt ht hnd time
  simpa [Nat.mod_one] using this

/-- C41 does not hold: with flush interval 2, an entry received before a change of file is missing from the
old file and stands in the new one. -/
theorem C41_negation (E : Env) (m : LogMessage) :
    ∃ (s : FileSink) (fs : FS) (p path : Str), Constructed s fs p path 2 ∧
      ∃ (c : SinkOp) (new : Str), path ≠ new ∧ targets p [c] = [new] ∧
      ∃ s' fs' outs, sinkRun E s fs [.write m [], c] = .ok (s', fs', outs) ∧
        ∃ old later : List Chunk, s'.destroy fs' [] path = some (chunkText old) ∧ entries old = [] ∧
          s'.destroy fs' [] new = some (chunkText later) ∧ entries later = [(toString E m .default).1] := by
  obtain ⟨s, fs, h⟩ := sample_constructed
  have hne : "d/p.x.t.log".toList ≠ targetName "p".toList "e/".toList [] "t".toList := by decide
  refine ⟨s, fs, _, _, h, .change "e/".toList [] [] "t".toList [] true, _, hne, rfl, ?_⟩
  obtain ⟨s', fs', outs, e, b, a, hb, ha, hd, eb, ea⟩ := C41_exact E (by decide) h [.write m []] [] "e/".toList [] [] "t".toList []
    (by simpa [targets] using hne) []
  refine ⟨s', fs', outs, e, ?_⟩
  have lb := congrArg List.length hb
  have la := congrArg List.length ha
  simp only [List.length_map, targets, List.length_cons, List.length_nil] at lb la
  obtain ⟨b1, rfl⟩ := List.length_eq_one_iff.mp lb
  obtain ⟨a1, rfl⟩ := List.length_eq_one_iff.mp la
  refine ⟨b1.2, a1.2, ?_, ?_, ?_, ?_⟩
  · have := hd b1 (by simp)
    simp [targets] at hb
    rw [hb] at this
    exact this
  · simpa [received] using eb
  · have := hd a1 (by simp)
    simp [targets] at ha
    rw [ha] at this
    exact this
  · simpa [received] using ea

/-! ### C42 -/

/-- C42 (partial: the new name must not be in use): a change of file, successful or not, after any history,
only ever appends to the files written so far. -/
theorem C42_kept_partial (E : Env) {s : FileSink} {fs : FS} {p path : Str} {N : Nat} (hN : 1 ≤ N) (h : Constructed s fs p path N)
    (ops : List SinkOp) (d i n nt ht : Str) (o : Bool)
    (hnd : (path :: targets p (ops ++ [.change d i n nt ht o])).Nodup) :
    ∃ s' fs' outs, sinkRun E s fs ops = .ok (s', fs', outs) ∧
      ∀ q c, q ∈ path :: targets p ops → fs' q = some c →
        ∃ c', (s'.changeLogFile fs' d i n nt ht o).2.1 q = some c' ∧ c <+: c' := by
  have hI := constructed_inv h
  rw [targets_append] at hnd
  have hnd1 : (path :: targets p ops).Nodup := (List.nodup_append.mp (by simpa using hnd : ((path :: targets p ops) ++ _).Nodup)).1
  obtain ⟨s', fs', e, hI', hu, ho⟩ := run_sim (E := E) hN ops hI (by simpa [usedBy, aInit] using hnd1)
  have hu' : usedBy (aRun E N p (aInit path) ops) = path :: targets p ops := by rw [hu]; simp [usedBy, aInit]
  refine ⟨s', fs', _, e, ?_⟩
  intro q c hq hc
  cases o with
  | false => exact ⟨c, hc, List.prefix_refl _⟩
  | true =>
    have hnew : NewName p (aRun E N p (aInit path) ops) (.change d i n nt ht true) := by
      show targetName p d i nt ∉ usedBy _
      rw [hu']
      intro hm
      exact (List.nodup_append.mp (by simpa using hnd : ((path :: targets p ops) ++ targets p [SinkOp.change d i n nt ht true]).Nodup)).2.2
        _ hm _ (by simp [targets]) rfl
    obtain ⟨s2, fs2, e2, hI2, _⟩ := step_sim (E := E) hN hI' (.change d i n nt ht true) hnew
    simp only [sinkStep, Except.ok.injEq] at e2
    have hfs2 : (s'.changeLogFile fs' d i n nt ht true).2.1 = fs2 := by rw [e2]
    rw [hfs2]
    rw [← hu'] at hq
    rcases List.mem_append.mp hq with hq | hq
    · obtain ⟨x, hx, rfl⟩ := List.mem_map.mp hq
      have h1 := hI'.closed x hx
      have h2 := hI2.closed x (List.mem_append_left _ hx)
      rw [h1] at hc
      cases hc
      exact ⟨_, h2, List.prefix_refl _⟩
    · simp only [List.mem_singleton] at hq
      subst hq
      obtain ⟨c0, h1, h2, h3, _⟩ := hI'.disk
      rw [h1] at hc
      cases hc
      have h4 := hI2.closed _ (List.mem_append_right _ (List.mem_singleton.mpr rfl))
      refine ⟨_, h4, ?_⟩
      rw [chunkText_append, ← h3, List.append_assoc]
      exact List.prefix_append _ _

/-- C42 does not hold: whenever a successful change asks for the name in use (same directory and identifier
within one second), every character of the file is replaced by a NUL: only what the old stream had
not yet written survives, behind those NULs. -/
theorem C42_same_name (E : Env) {s : FileSink} {fs : FS} {p path : Str} {N : Nat} (hN : 1 ≤ N) (h : Constructed s fs p path N)
    (ops : List SinkOp) (hnd : (path :: targets p ops).Nodup) (d i n nt ht : Str) :
    ∃ s' fs' outs, sinkRun E s fs ops = .ok (s', fs', outs) ∧ ∃ c, fs' s'.path = some c ∧
      (targetName p d i nt = s'.path →
        ∃ rest, (s'.changeLogFile fs' d i n nt ht true).2.1 s'.path = some (List.replicate c.length (Char.ofNat 0) ++ rest)) := by
  have hI := constructed_inv h
  obtain ⟨s', fs', e, hI', hu, ho⟩ := run_sim (E := E) hN ops hI (by simpa [usedBy, aInit] using hnd)
  obtain ⟨c, h1, h2, h3, _⟩ := hI'.disk
  refine ⟨s', fs', _, e, c, by rw [hI'.path]; exact h1, ?_⟩
  intro heq
  have hp : d ++ createLogFileName s'.prefixBackup i nt = s'.path := by rw [targetName_eq, hI'.pre, heq]
  unfold FileSink.changeLogFile createLogFile
  simp only [if_true]
  rw [hp]
  unfold OStream.flush OStream.spill FileSink.addLogFileHeader
  simp only [OStream.put]
  have ho' : s'.out.path = s'.path := by rw [hI'.opath, hI'.path]
  rw [ho', FS.set_same]
  simp only
  rw [FS.set_same, List.take_length]
  unfold writeAt
  rw [if_neg (by intro hnil; have := congrArg List.length hnil; simp [List.length_append] at this)]
  rw [h2]
  simp only [List.nil_append, List.length_nil, Nat.sub_zero, List.drop_nil, List.append_nil]
  rw [List.take_of_length_le (by simp)]
  exact ⟨_, rfl⟩

/-- C42: what is left of the file when a change asked for the name in use and the sink is then destroyed: the notes of the
new stream at the front, then whatever they do not cover of the NULs and of the last words of the old stream. -/
theorem C42_same_name_destroyed (E : Env) {s : FileSink} {fs : FS} {p path : Str} {N : Nat} (hN : 1 ≤ N) (h : Constructed s fs p path N)
    (ops : List SinkOp) (hnd : (path :: targets p ops).Nodup) (d i n nt ht t : Str) :
    ∃ s' fs' outs, sinkRun E s fs ops = .ok (s', fs', outs) ∧ ∃ c, fs' s'.path = some c ∧
      (targetName p d i nt = s'.path →
        let front := n ++ "\n\tNew log file. The previous log file was at: ".toList ++ s'.path ++ "\n".toList ++
          s'.buffer ++ "g3log g3FileSink shutdown at: ".toList ++ t ++ "\n".toList
        let back := List.replicate c.length (Char.ofNat 0) ++ s'.out.pend ++ headerText ht s'.header ++ n ++
          "\n\tChanging log file from : ".toList ++ s'.path ++ "\n\tto new location: ".toList ++ s'.path ++ "\n".toList
        (s'.changeLogFile fs' d i n nt ht true).1.destroy (s'.changeLogFile fs' d i n nt ht true).2.1 t s'.path =
          some (front ++ back.drop front.length)) := by
  have hI := constructed_inv h
  obtain ⟨s', fs', e, hI', hu, ho⟩ := run_sim (E := E) hN ops hI (by simpa [usedBy, aInit] using hnd)
  obtain ⟨c, h1, h2, h3, _⟩ := hI'.disk
  refine ⟨s', fs', _, e, c, by rw [hI'.path]; exact h1, ?_⟩
  intro heq front back
  have hp : d ++ createLogFileName s'.prefixBackup i nt = s'.path := by rw [targetName_eq, hI'.pre, heq]
  have ho' : s'.out.path = s'.path := by rw [hI'.opath, hI'.path]
  unfold FileSink.destroy FileSink.changeLogFile createLogFile
  simp only [if_true]
  rw [hp]
  unfold OStream.flush OStream.spill FileSink.addLogFileHeader
  simp only [OStream.put]
  rw [ho', FS.set_same]
  simp only
  rw [FS.set_same]
  simp only
  rw [FS.set_same, List.take_length, List.take_length]
  have hback : writeAt [] s'.out.off (s'.out.pend ++ headerText ht s'.header ++
      (n ++ ("\n\tChanging log file from : ".toList ++ s'.path ++ "\n\tto new location: ".toList ++ s'.path ++ "\n".toList))) = back := by
    unfold writeAt
    rw [if_neg (by intro hnil; have := congrArg List.length hnil; simp [List.length_append] at this), h2]
    simp only [List.nil_append, List.length_nil, Nat.sub_zero, List.drop_nil, List.append_nil]
    rw [List.take_of_length_le (by simp)]
    simp only [back, List.append_assoc]
  rw [hback]
  unfold writeAt
  rw [if_neg (by intro hnil; have := congrArg List.length hnil; simp [List.length_append] at this)]
  have hf : ([] ++ (n ++ ("\n\tNew log file. The previous log file was at: ".toList ++ s'.path ++ "\n".toList)) ++
      (s'.buffer ++ ("g3log g3FileSink shutdown at: ".toList ++ t ++ "\n".toList))) = front := by
    simp only [front, List.append_assoc, List.nil_append]
  rw [hf]
  simp

/-- A concrete instance of `C42_same_name`: an entry on disk (flush interval 1) is wiped out. -/
theorem C42_negation (E : Env) (m : LogMessage) :
    ∃ (s : FileSink) (fs : FS) (p path : Str), Constructed s fs p path 1 ∧
      ∃ s' fs' outs, sinkRun E s fs [.write m []] = .ok (s', fs', outs) ∧
      ∃ c d i nt rest, fs' path = some c ∧ (toString E m .default).1 <:+: c ∧
        (s'.changeLogFile fs' d i [] nt [] true).2.1 path = some (List.replicate c.length (Char.ofNat 0) ++ rest) := by
  obtain ⟨s, fs, h⟩ := sample_constructed1
  have hI := constructed_inv h
  obtain ⟨s', fs', e, hI', hu, ho⟩ := run_sim (E := E) (le_refl 1) [.write m []] hI (by simp [usedBy, aInit, targets])
  obtain ⟨s1, fs1, outs1, e1, c1, hc1, hx⟩ := C42_same_name E (le_refl 1) h [.write m []] (by simp [targets]) "d/".toList "x".toList [] "t".toList []
  rw [e] at e1
  simp only [Except.ok.injEq, Prod.mk.injEq] at e1
  obtain ⟨rfl, rfl, _⟩ := e1
  have hpath : s'.path = "d/p.x.t.log".toList := by rw [hI'.path]; simp only [aRun, aStep]; split <;> rfl
  obtain ⟨rest, hr⟩ := hx (by rw [hpath]; decide)
  rw [hpath] at hr hc1
  refine ⟨s, fs, _, _, h, s', fs', _, e, c1, "d/".toList, "x".toList, "t".toList, rest, hc1, ?_, hr⟩
  obtain ⟨c, h1, h2, h3, A, B, h4, h5, h6⟩ := hI'.disk
  have : (aRun E 1 "p".toList (aInit "d/p.x.t.log".toList) [.write m []]).cur =
      [.extra (hdrText [] (aInit "d/p.x.t.log".toList).hdr), .entry (toString E m .default).1] := by
    simp only [aRun, aStep]
    rw [if_pos (one_dvd _)]
    rfl
  have hp2 : (aRun E 1 "p".toList (aInit "d/p.x.t.log".toList) [.write m []]).path = "d/p.x.t.log".toList := by
    simp only [aRun, aStep]; split <;> rfl
  rw [hp2, hc1] at h1
  cases h1
  rw [this] at h4
  have hB : B = [] := by
    rcases List.eq_nil_or_concat B with hB | ⟨B', b, hB⟩
    · exact hB
    · rw [hB, List.concat_eq_append, ← List.append_assoc] at h4
      have := List.append_inj' (s₁ := [Chunk.extra (hdrText [] (aInit "d/p.x.t.log".toList).hdr)]) (t₁ := [Chunk.entry (toString E m .default).1]) h4 rfl
      have hb : b = Chunk.entry (toString E m .default).1 := by simpa using this.2.symm
      rw [hB, List.concat_eq_append, entries_append, hb] at h5
      simp [entries] at h5
  rw [hB, List.append_nil] at h4
  rw [← h4] at h6
  obtain ⟨z, hz⟩ := h6
  refine ⟨hdrText [] (aInit "d/p.x.t.log".toList).hdr, z, ?_⟩
  rw [← hz]
  simp [chunkText, Chunk.text]

end G3.Props
