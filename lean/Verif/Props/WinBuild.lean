import Verif.Model.WinBuild
import Verif.Spec.WinBuild
import Verif.Spec.WinHandlers
import Verif.Props.Windows
/-
C115: the reports of an exception on Windows, in all builds.
-/
namespace G3.Props
open G3 G3.Spec

/-! ### The parts -/

/-- The usual build. -/
def winDefault : WinBuild := { signals := true, vectored := true, breaks := false }

/-- C115: in the usual build the functions are those of Model/Windows (C59, C63, C64). -/
theorem C115_default (s : WinState) (t : Nat) (level : Level) (id : Nat) :
    winInstallThreadB winDefault s t = winInstallThread s t ∧ winInstallCrashB winDefault s t = winInstallCrash s t ∧
    winRestoreB winDefault s t = winRestore s t ∧ winExitB winDefault s t level id = winExit s t level id := ⟨rfl, rfl, rfl, rfl⟩

/-- C115: the signals. A build with signal handling treats them as the usual one, whatever the other options; a build without never touches them. -/
theorem C115_signals (b : WinBuild) (s : WinState) (t : Nat) :
    (b.signals = true → winInstallThreadB b s t = winInstallThread s t ∧ (winInstallCrashB b s t).sig = (winInstallCrash s t).sig ∧
      (winInstallCrashB b s t).installed = (winInstallCrash s t).installed ∧ (winRestoreB b s t).sig = (winRestore s t).sig) ∧
    (b.signals = false → winInstallThreadB b s t = s ∧ (winInstallCrashB b s t).sig = s.sig ∧ (winInstallCrashB b s t).installed = s.installed ∧
      winRestoreB b s t = s ∧ ∀ w code pid caught, (winDispatch b s t w code pid caught).sig = s.sig) := by
  obtain ⟨sg, ve, br⟩ := b
  constructor
  · intro h
    simp only at h
    subst h
    cases ve <;> exact ⟨rfl, rfl, rfl, rfl⟩
  · intro h
    simp only at h
    subst h
    refine ⟨rfl, by cases ve <;> rfl, by cases ve <;> rfl, rfl, ?_⟩
    intro w code pid caught
    have hrep : ∀ (x : WinState) (hn : Str), (winReportB ⟨false, ve, br⟩ x t w hn code pid).sig = x.sig := fun x hn => rfl
    have hfold : ∀ (l : List Nat) (x : WinState), (l.foldl (winTurn ⟨false, ve, br⟩ t w code pid) x).sig = x.sig := by
      intro l
      induction l with
      | nil => intro x; rfl
      | cons a l ih =>
        intro x
        rw [List.foldl_cons, ih]
        unfold winTurn
        split
        · split
          · exact hrep _ _
          · rfl
        · rfl
    unfold winDispatch
    dsimp only
    split
    · exact hfold _ _
    · split
      · rw [hrep]; exact hfold _ _
      · exact hfold _ _

/-- What a LOG call or the installation of the signals of a thread leaves alone. -/
theorem winInstallThreadB_keeps (b : WinBuild) (s : WinState) (t : Nat) :
    (winInstallThreadB b s t).filter = s.filter ∧ (winInstallThreadB b s t).prevFilter = s.prevFilter ∧ (winInstallThreadB b s t).vectored = s.vectored ∧
    (winInstallThreadB b s t).vhandle = s.vhandle ∧ (winInstallThreadB b s t).nextHandle = s.nextHandle ∧ (winInstallThreadB b s t).pushed = s.pushed ∧
    (winInstallThreadB b s t).block = s.block ∧ (winInstallThreadB b s t).raised = s.raised := by
  unfold winInstallThreadB winInstallThread
  split
  · split <;> exact ⟨rfl, rfl, rfl, rfl, rfl, rfl, rfl, rfl⟩
  · exact ⟨rfl, rfl, rfl, rfl, rfl, rfl, rfl, rfl⟩

/-- Installed once, over the filter f. -/
structure OnceIn (b : WinBuild) (f : WinFilter) (h : Nat) (s : WinState) : Prop where
  filter : s.filter = .g3log
  prev : s.prevFilter = f
  vec : s.vectored = if b.vectored then [h] else []
  vh : b.vectored = true → s.vhandle = some h

theorem onceIn_install (b : WinBuild) (s : WinState) (t : Nat) (hv : s.vectored = []) : OnceIn b s.filter s.nextHandle (winInstallCrashB b s t) := by
  obtain ⟨h1, h2, h3, h4, h5, _⟩ := winInstallThreadB_keeps b s t
  unfold winInstallCrashB
  by_cases hb : b.vectored = true
  · simp only [hb, if_true]
    exact ⟨rfl, h1, by simp [h3, h5, hv, hb], fun _ => by simp [h5]⟩
  · simp only [hb]
    exact ⟨rfl, h1, by simp [h3, hv, hb], fun hh => absurd hh hb⟩

theorem onceIn_log {b : WinBuild} {f : WinFilter} {h : Nat} {s : WinState} (ho : OnceIn b f h s) (t : Nat) : OnceIn b f h (winInstallThreadB b s t) := by
  obtain ⟨h1, h2, h3, h4, h5, _⟩ := winInstallThreadB_keeps b s t
  exact ⟨h1 ▸ ho.filter, h2 ▸ ho.prev, h3 ▸ ho.vec, fun hb => h4 ▸ ho.vh hb⟩

theorem onceIn_logs {b : WinBuild} {f : WinFilter} {h : Nat} (ts : List Nat) {s : WinState} (ho : OnceIn b f h s) :
    OnceIn b f h (ts.foldl (winInstallThreadB b) s) ∧ (ts.foldl (winInstallThreadB b) s).pushed = s.pushed := by
  induction ts generalizing s with
  | nil => exact ⟨ho, rfl⟩
  | cons t ts ih =>
    obtain ⟨i1, i2⟩ := ih (onceIn_log ho t)
    exact ⟨i1, by rw [List.foldl_cons, i2]; exact (winInstallThreadB_keeps b s t).2.2.2.2.2.1⟩

/-- A report: what it pushes and what it leaves of the handlers. -/
theorem report_facts (b : WinBuild) (s : WinState) (t w : Nat) (hn : Str) (code pid : Nat) :
    (winReportB b s t w hn code pid).pushed = s.pushed ++ [excReport hn code pid] ∧
    (winReportB b s t w hn code pid).filter = (if b.signals then s.prevFilter else s.filter) ∧
    (winReportB b s t w hn code pid).prevFilter = s.prevFilter ∧
    (winReportB b s t w hn code pid).vhandle = s.vhandle ∧
    (winReportB b s t w hn code pid).block = false ∧
    (winReportB b s t w hn code pid).raised = s.raised ∧
    (winReportB b s t w hn code pid).vectored =
      (if b.signals && b.vectored then (match s.vhandle with | none => s.vectored | some h => s.vectored.filter (fun k => decide (k ≠ h))) else s.vectored) := by
  have hex : winExitReasonName FATAL_EXCEPTION code = exceptionIdToText code := by
    unfold winExitReasonName; rw [if_pos rfl]
  obtain ⟨sg, ve, br⟩ := b
  unfold winReportB winExitB
  rw [if_pos rfl]
  cases sg
  · refine ⟨?_, rfl, rfl, rfl, rfl, rfl, rfl⟩
    simp only [winRestoreB, winException, hex, excReport, if_false, Bool.false_eq_true]
  · cases ve
    · refine ⟨?_, rfl, rfl, rfl, rfl, rfl, rfl⟩
      simp only [winRestoreB, winRestore, winException, hex, excReport, if_false, if_true, Bool.false_eq_true]
    · refine ⟨?_, rfl, rfl, rfl, rfl, rfl, ?_⟩
      · simp only [winRestoreB, winRestore, winException, hex, excReport, if_true]
      · simp only [winRestoreB, winRestore, winException, if_true, Bool.and_self]
        cases s.vhandle with
        | none => rfl
        | some h => simp [List.filter_filter]

/-! ### All builds -/

/-- C115: exactly which reports of an exception there are, in every build, when the crash handler has been installed once, whatever was
there before, whatever has been logged on whatever threads since. Afterwards the handlers of g3log are gone in builds with
signal handling if there was a report; otherwise they all are still there. -/
theorem C115_exact (b : WinBuild) (s : WinState) (hv : s.vectored = []) (hf : s.filter ≠ .g3log) (t0 : Nat) (ts : List Nat) (t w code pid : Nat)
    (caught : Bool) :
    let s1 := ts.foldl (winInstallThreadB b) (winInstallCrashB b s t0)
    let s2 := winDispatch b s1 t w code pid caught
    let l := reporters b.signals b.vectored (isKnownException code) caught
    s2.pushed = s.pushed ++ l.map (fun r => excReport r.name code pid) ∧
    s2.filter = (if b.signals && !l.isEmpty then s.filter else .g3log) ∧
    s2.vectored = (if b.vectored && !(b.signals && !l.isEmpty) then [s.nextHandle] else []) := by
  intro s1 s2 l
  obtain ⟨ho, hp⟩ := onceIn_logs ts (onceIn_install b s t0 hv)
  change OnceIn b s.filter s.nextHandle s1 at ho
  have hp1 : s1.pushed = s.pushed := by
    rw [hp]
    unfold winInstallCrashB
    have := (winInstallThreadB_keeps b s t0).2.2.2.2.2.1
    split <;> exact this
  have hs2 : s2 = winDispatch b s1 t w code pid caught := rfl
  have hl : l = reporters b.signals b.vectored (isKnownException code) caught := rfl
  clear_value s1 s2 l
  subst hs2 hl
  rw [← hp1]
  generalize s.filter = f at *
  generalize s.nextHandle = h at *
  generalize hk : isKnownException code = known
  obtain ⟨sg, ve, br⟩ := b
  have hturn : s1.vectored.foldl (winTurn ⟨sg, ve, br⟩ t w code pid) s1 =
      if ve && known then winReportB ⟨sg, ve, br⟩ s1 t w "Vectored Exception Handler".toList code pid else s1 := by
    rw [ho.vec]
    cases ve with
    | false => rfl
    | true =>
      show winTurn ⟨sg, true, br⟩ t w code pid s1 h = _
      unfold winTurn
      rw [if_pos (by rw [ho.vec]; exact List.mem_singleton.mpr rfl), hk]
      rw [Bool.true_and]
  have hdisp : winDispatch ⟨sg, ve, br⟩ s1 t w code pid caught =
      (let x := if ve && known then winReportB ⟨sg, ve, br⟩ s1 t w WinSource.vectored.name code pid else s1
       if caught then x else if x.filter = .g3log then winReportB ⟨sg, ve, br⟩ x t w WinSource.unexpected.name code pid else x) := by
    unfold winDispatch
    rw [hturn]
    rfl
  rw [hdisp]
  have hfacts : ∀ (x : WinState) (r : WinSource), _ := fun x r => report_facts ⟨sg, ve, br⟩ x t w r.name code pid
  clear hdisp hturn
  generalize WinSource.name = N at *
  generalize hE : (fun r => excReport (N r) code pid) = E
  have hfacts' : ∀ (x : WinState) (r : WinSource),
      (winReportB ⟨sg, ve, br⟩ x t w (N r) code pid).pushed = x.pushed ++ [E r] ∧
      (winReportB ⟨sg, ve, br⟩ x t w (N r) code pid).filter = (if sg then x.prevFilter else x.filter) ∧
      (winReportB ⟨sg, ve, br⟩ x t w (N r) code pid).vectored =
        (if sg && ve then (match x.vhandle with | none => x.vectored | some h => x.vectored.filter (fun k => decide (k ≠ h))) else x.vectored) := by
    intro x r
    obtain ⟨a1, a2, _, _, _, _, a3⟩ := hfacts x r
    exact ⟨by rw [a1, ← hE], a2, a3⟩
  clear hfacts hE
  have hvec := ho.vec
  have hfil := ho.filter
  have hprev := ho.prev
  have hvh := ho.vh
  obtain ⟨r1, r2, r5⟩ := hfacts' s1 .vectored
  obtain ⟨u1, u2, u5⟩ := hfacts' s1 .unexpected
  cases ve with
  | false =>
    cases caught with
    | true => exact ⟨by simp [reporters], by simp [reporters, hfil], by simp [hvec]⟩
    | false =>
      simp only [Bool.false_and, Bool.false_eq_true, if_false, hfil, if_true]
      exact ⟨by rw [u1]; rfl, by rw [u2, hprev, hfil]; cases sg <;> rfl, by rw [u5]; simp [hvec]⟩
  | true =>
    have hvh := hvh rfl
    rw [hvec, hvh] at r5 u5
    cases known with
    | false =>
      cases caught with
      | true => exact ⟨by simp [reporters], by simp [reporters, hfil], by simp [reporters, hvec]⟩
      | false =>
        simp only [Bool.and_false, Bool.false_eq_true, if_false, hfil, if_true]
        exact ⟨by rw [u1]; rfl, by rw [u2, hprev, hfil]; cases sg <;> rfl, by rw [u5]; cases sg <;> simp [reporters]⟩
    | true =>
      simp only [Bool.and_self, if_true]
      cases caught with
      | true =>
        simp only [if_true]
        exact ⟨by rw [r1]; rfl, by rw [r2, hprev, hfil]; cases sg <;> rfl, by rw [r5]; cases sg <;> simp [reporters]⟩
      | false =>
        simp only [Bool.false_eq_true, if_false]
        cases sg with
        | true =>
          rw [if_pos rfl] at r2
          rw [if_neg (by rw [r2, hprev]; exact hf)]
          exact ⟨by rw [r1]; rfl, by rw [r2, hprev]; rfl, by rw [r5]; simp [reporters]⟩
        | false =>
          rw [if_neg (by simp)] at r2
          rw [if_pos (by rw [r2, hfil])]
          obtain ⟨v1, v2, v5⟩ := hfacts' (winReportB ⟨false, true, br⟩ s1 t w (N .vectored) code pid) .unexpected
          exact ⟨by rw [v1, r1, List.append_assoc]; rfl, by rw [v2]; simp [r2, hfil], by rw [v5]; simp [r5]⟩

/-- C115 as far as it holds: in a build with signal handling, installed once, an exception that nobody takes is reported exactly once. One that
the program handles is not reported, provided it is none of the listed ones or the build has no vectored handlers. -/
theorem C115_once_partial (b : WinBuild) (hs : b.signals = true) (code : Nat) (caught : Bool) (h : caught = true → (b.vectored && isKnownException code) = false) :
    onceIfFatal caught (reporters b.signals b.vectored (isKnownException code) caught) := by
  unfold onceIfFatal reporters
  rw [hs]
  cases hc : caught with
  | true => rw [h hc]; rfl
  | false => cases b.vectored && isKnownException code <;> rfl

/-- C115 fails: an exception of the table that the program handles is reported as fatal all the same. -/
theorem C115_caught_negation (b : WinBuild) (hb : b.vectored = true) (code : Nat) (hk : isKnownException code = true) :
    ¬ onceIfFatal true (reporters b.signals b.vectored (isKnownException code) true) := by
  rw [hb, hk]; simp [onceIfFatal, reporters]

/-- C115 fails: in a build with signal handling switched off, an exception of the table that nobody takes is reported twice, and both handlers of g3log
stay in place for good. -/
theorem C115_negation (b : WinBuild) (hs : b.signals = false) (hb : b.vectored = true) (s : WinState) (hv : s.vectored = []) (hf : s.filter ≠ .g3log)
    (t0 t w code pid : Nat) (hk : isKnownException code = true) :
    let s2 := winDispatch b (winInstallCrashB b s t0) t w code pid false
    s2.pushed = s.pushed ++ [excReport "Vectored Exception Handler".toList code pid, excReport "Unexpected Exception Handler".toList code pid] ∧
    s2.filter = .g3log ∧ s2.vectored = [s.nextHandle] ∧ winRestoreB b s2 t = s2 := by
  intro s2
  obtain ⟨h1, h2, h3⟩ := C115_exact b s hv hf t0 [] t w code pid false
  rw [hs, hb, hk] at h1 h2 h3
  refine ⟨h1, h2, h3, ?_⟩
  unfold winRestoreB
  rw [if_neg (by simp [hs])]

/-- C115 fails: when the crash handler is installed twice (C64), an exception of the table that nobody takes is reported twice even in the usual build. -/
theorem C115_twice_negation (s : WinState) (hv : s.vectored = []) (t0 t w code pid : Nat) (hk : isKnownException code = true) :
    (winDispatch winDefault (winInstallCrashB winDefault (winInstallCrashB winDefault s t0) t0) t w code pid false).pushed =
      s.pushed ++ [excReport "Vectored Exception Handler".toList code pid, excReport "Unexpected Exception Handler".toList code pid] := by
  have ho := onceIn_install winDefault s t0 hv
  have hn1 : (winInstallCrashB winDefault s t0).nextHandle = s.nextHandle + 1 := by
    show (winInstallThreadB winDefault s t0).nextHandle + 1 = _
    rw [(winInstallThreadB_keeps winDefault s t0).2.2.2.2.1]
  have hp1 : (winInstallCrashB winDefault s t0).pushed = s.pushed := (winInstallThreadB_keeps winDefault s t0).2.2.2.2.2.1
  generalize winInstallCrashB winDefault s t0 = s1 at *
  obtain ⟨k1, k2, k3, k4, k5, k6, _⟩ := winInstallThreadB_keeps winDefault s1 t0
  have hvec : s1.vectored = [s.nextHandle] := ho.vec
  have g1 : (winInstallCrashB winDefault s1 t0).filter = .g3log := rfl
  have g2 : (winInstallCrashB winDefault s1 t0).prevFilter = .g3log := by
    show (winInstallThreadB winDefault s1 t0).filter = _
    rw [k1]; exact ho.filter
  have g3 : (winInstallCrashB winDefault s1 t0).vectored = [s.nextHandle, s.nextHandle + 1] := by
    show (winInstallThreadB winDefault s1 t0).vectored ++ [(winInstallThreadB winDefault s1 t0).nextHandle] = _
    rw [k3, k5, hvec, hn1]; rfl
  have g4 : (winInstallCrashB winDefault s1 t0).vhandle = some (s.nextHandle + 1) := by
    show some (winInstallThreadB winDefault s1 t0).nextHandle = _
    rw [k5, hn1]
  have g5 : (winInstallCrashB winDefault s1 t0).pushed = s.pushed := by
    show (winInstallThreadB winDefault s1 t0).pushed = _
    rw [k6, hp1]
  generalize winInstallCrashB winDefault s1 t0 = s2 at *
  obtain ⟨r1, r2, r3, r4, _, _, r5⟩ := report_facts winDefault s2 t w "Vectored Exception Handler".toList code pid
  have e1 : winTurn winDefault t w code pid s2 s.nextHandle = winReportB winDefault s2 t w "Vectored Exception Handler".toList code pid := by
    unfold winTurn
    rw [if_pos (by rw [g3]; simp), if_pos hk]
  generalize hR : winReportB winDefault s2 t w "Vectored Exception Handler".toList code pid = R at *
  have r5' : R.vectored = [s.nextHandle] := by
    rw [r5, g4, g3]; simp [winDefault]
  have e2 : winTurn winDefault t w code pid R (s.nextHandle + 1) = R := by
    unfold winTurn
    rw [if_neg (by rw [r5']; simp)]
  have hfold : s2.vectored.foldl (winTurn winDefault t w code pid) s2 = R := by
    rw [g3]
    show winTurn winDefault t w code pid (winTurn winDefault t w code pid s2 s.nextHandle) (s.nextHandle + 1) = R
    rw [e1, e2]
  unfold winDispatch
  simp only [hfold, Bool.false_eq_true, if_false]
  rw [if_pos (by rw [r2]; exact g2), (report_facts winDefault R t w _ code pid).1, r1, g5, List.append_assoc]
  rfl

/-! ### Signals -/

/-- C115: a signal is reported and raised again, in every build without the breakpoint, or with a debugger. -/
theorem C115_signal (b : WinBuild) (s : WinState) (t w n pid : Nat) (debugger : Bool) (h : b.breaks = false ∨ debugger = true) :
    (winSignalB b s t w n pid debugger).pushed = (winSignal s n pid).pushed ∧ (winSignalB b s t w n pid debugger).raised = some n ∧
    (winSignalB b s t w n pid debugger).block = s.block ∧
    (winSignalB b s t w n pid debugger).filter = (if b.signals then s.prevFilter else s.filter) := by
  unfold winSignalB
  rw [if_neg (by rcases h with h | h <;> simp [h])]
  unfold winExitB
  rw [if_neg (by decide)]
  obtain ⟨sg, ve, br⟩ := b
  cases sg <;> cases ve <;> exact ⟨rfl, rfl, rfl, rfl⟩

/-- C115 fails: a build that stops at fatal signals, without a debugger. The breakpoint comes before the message is handed over: the log gets the report of
a breakpoint, and nothing of the signal. -/
theorem C115_break_negation (b : WinBuild) (hb : b.breaks = true) (hs : b.signals = true) (s : WinState) (hv : s.vectored = []) (hf : s.filter ≠ .g3log)
    (t0 : Nat) (ts : List Nat) (t w n pid : Nat) :
    let s1 := ts.foldl (winInstallThreadB b) (winInstallCrashB b s t0)
    let s2 := winSignalB b s1 t w n pid false
    (∃ src : WinSource, s2.pushed = s.pushed ++ [excReport src.name 0x80000003 pid]) ∧ ∀ x ∈ s2.pushed, x ∉ s.pushed → x.1 ≠ FATAL_SIGNAL := by
  intro s1 s2
  have he : s2 = winDispatch b s1 t w 0x80000003 pid false := by
    show winSignalB b s1 t w n pid false = _
    unfold winSignalB
    rw [if_pos (by simp [hb])]
  obtain ⟨h1, _, _⟩ := C115_exact b s hv hf t0 ts t w 0x80000003 pid false
  rw [hs] at h1
  have h2 : ∃ src : WinSource, s2.pushed = s.pushed ++ [excReport src.name 0x80000003 pid] := by
    rw [he]
    cases hvv : b.vectored && isKnownException 0x80000003 with
    | true => exact ⟨.vectored, by rw [show winDispatch b s1 t w 0x80000003 pid false = _ from rfl, h1]; simp [reporters, hvv]⟩
    | false => exact ⟨.unexpected, by rw [show winDispatch b s1 t w 0x80000003 pid false = _ from rfl, h1]; simp [reporters, hvv]⟩
  refine ⟨h2, ?_⟩
  obtain ⟨src, h3⟩ := h2
  intro x hx hn
  rw [h3] at hx
  rcases List.mem_append.mp hx with hx | hx
  · exact absurd hx hn
  · rw [List.mem_singleton.mp hx]
    intro hh
    have : FATAL_EXCEPTION.value = FATAL_SIGNAL.value := congrArg Level.value hh
    exact absurd this (by decide)

/-- What a report does to the actions of the signals, in a build with signal handling. -/
theorem report_actions (b : WinBuild) (hb : b.signals = true) (s : WinState) (t w : Nat) (hn : Str) (code pid : Nat) (u n : Nat) :
    (winReportB b s t w hn code pid).sig u n = if n ∈ [22, 8, 11, 4, 15] ∧ (reachesThread t u n ∨ reachesThread w u n) then .dfl else s.sig u n := by
  have hr : ∀ (x : WinState) (v : Nat), (winRestoreB b x v).sig u n = if n ∈ [22, 8, 11, 4, 15] ∧ reachesThread v u n then .dfl else x.sig u n := by
    intro x v
    have : (winRestoreB b x v).sig = [22, 8, 11, 4, 15].foldl (fun g n => setSig g v n .dfl) x.sig := by
      unfold winRestoreB
      rw [if_pos hb]
      split <;> rfl
    rw [this, foldl_sig]
    refine if_congr (and_congr Iff.rfl ?_) rfl rfl
    unfold reachesThread processWide WIN_SIGABRT
    rw [Bool.or_eq_true, decide_eq_true_iff, decide_eq_true_iff]
    exact or_congr eq_comm Iff.rfl
  have he : (winReportB b s t w hn code pid).sig = (winRestoreB b (winException (winRestoreB b s t) hn code pid) w).sig := by
    unfold winReportB winExitB
    rw [if_pos rfl]
  have hx : (winException (winRestoreB b s t) hn code pid).sig u n = (winRestoreB b s t).sig u n := rfl
  rw [he, hr, hx, hr]
  by_cases h1 : n ∈ [22, 8, 11, 4, 15]
  · by_cases h2 : reachesThread t u n
    · by_cases h3 : reachesThread w u n
      · rw [if_pos ⟨h1, h3⟩, if_pos ⟨h1, .inl h2⟩]
      · rw [if_neg (fun h => h3 h.2), if_pos ⟨h1, h2⟩, if_pos ⟨h1, .inl h2⟩]
    · by_cases h3 : reachesThread w u n
      · rw [if_pos ⟨h1, h3⟩, if_pos ⟨h1, .inr h3⟩]
      · rw [if_neg (fun h => h3 h.2), if_neg (fun h => h2 h.2), if_neg (fun h => h.2.elim h2 h3)]
  · rw [if_neg (fun h => h1 h.1), if_neg (fun h => h1 h.1), if_neg (fun h => h1 h.1)]

/-- C115: what an exception does to the actions of the signals in a build with signal handling, from whatever state: if it was reported, the signals of
g3log have their default actions on the thread that had the exception and on the worker's thread (SIGTERM and SIGABRT everywhere), and all others what they
had; if it was not reported, none is changed. -/
theorem C115_actions (b : WinBuild) (hb : b.signals = true) (s : WinState) (t w code pid : Nat) (caught : Bool) :
    let s2 := winDispatch b s t w code pid caught
    (s2.pushed ≠ s.pushed → ∀ u n, s2.sig u n = if n ∈ [22, 8, 11, 4, 15] ∧ (reachesThread t u n ∨ reachesThread w u n) then .dfl else s.sig u n) ∧
    (s2.pushed = s.pushed → s2.sig = s.sig) := by
  let P : WinState → Prop := fun x => (x.pushed = s.pushed ∧ x.sig = s.sig) ∨ (s.pushed.length < x.pushed.length ∧
    ∀ u n, x.sig u n = if n ∈ [22, 8, 11, 4, 15] ∧ (reachesThread t u n ∨ reachesThread w u n) then .dfl else s.sig u n)
  have hrep : ∀ x hn, P x → P (winReportB b x t w hn code pid) := by
    intro x hn hx
    refine .inr ⟨?_, ?_⟩
    · rw [(report_facts b x t w hn code pid).1, List.length_append]
      rcases hx with hx | hx
      · rw [hx.1]; exact Nat.lt_succ_self _
      · exact Nat.lt_of_lt_of_le hx.1 (Nat.le_add_right _ _)
    · intro u n
      rw [report_actions b hb x]
      rcases hx with hx | hx
      · rw [hx.2]
      · rw [hx.2]
        by_cases h : n ∈ [22, 8, 11, 4, 15] ∧ (reachesThread t u n ∨ reachesThread w u n)
        · rw [if_pos h, if_pos h]
        · rw [if_neg h, if_neg h]
  have hturn : ∀ x h, P x → P (winTurn b t w code pid x h) := by
    intro x h hx
    unfold winTurn
    split
    · split
      · exact hrep x _ hx
      · exact hx
    · exact hx
  have hfold : ∀ (l : List Nat) x, P x → P (l.foldl (winTurn b t w code pid) x) := by
    intro l
    induction l with
    | nil => intro x hx; exact hx
    | cons a l ih => intro x hx; exact ih _ (hturn x a hx)
  have hall : P (winDispatch b s t w code pid caught) := by
    have h1 := hfold s.vectored s (.inl ⟨rfl, rfl⟩)
    unfold winDispatch
    dsimp only
    split
    · exact h1
    · split
      · exact hrep _ _ h1
      · exact h1
  intro s2
  rcases hall with h | h
  · exact ⟨fun hne => absurd h.1 hne, fun _ => h.2⟩
  · exact ⟨fun _ => h.2, fun he => absurd (congrArg List.length he) (Nat.ne_of_gt h.1)⟩

/-! ### Examples -/

/-- The hypotheses are met: a process with a filter of its own; an access violation. -/
example : (winStart (.user 3) (fun _ _ => .dfl)).vectored = [] ∧ (winStart (.user 3) (fun _ _ => .dfl)).filter ≠ .g3log ∧
    isKnownException 0xC0000005 = true ∧ isKnownException 0xE06D7363 = false := by
  refine ⟨rfl, ?_, by decide +kernel, by decide +kernel⟩
  show WinFilter.user 3 ≠ .g3log
  simp

/-- The usual build: an access violation that nobody takes is reported once; a C++ exception that is caught not at all. -/
example : ((winDispatch winDefault (winInstallCrashB winDefault (winStart (.user 3) (fun _ _ => .dfl)) 0) 0 1 0xC0000005 7 false).pushed.length,
    (winDispatch winDefault (winInstallCrashB winDefault (winStart (.user 3) (fun _ _ => .dfl)) 0) 0 1 0xE06D7363 7 true).pushed.length) = (1, 0) := by decide +kernel

end G3.Props
