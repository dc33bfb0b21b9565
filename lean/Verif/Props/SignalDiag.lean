import Verif.Spec.SignalDiag
import Verif.Props.FileDiag
import Verif.Props.Signals
/-
C96: signal handlers that the system refuses to install or to restore.
-/
namespace G3.Props
open G3 G3.Spec

theorem setAt_eq {β : Type} (f : Int → β) (n : Int) (v : β) : setAt f n v = fun k => if k = n then v else f k := rfl

/-! ### One call -/

theorem cStr_upTo (t : Str) : cStr t = upToNul t := cStr_eq t

theorem x_install (g : Int → Option Str) (n : Int) (name why : Str) :
    eventText g (.install n name false why) = upToNul ("sigaction - ".toList ++ name) ++ ": ".toList ++ why ++ "\n".toList := rfl
theorem x_restore (g : Int → Option Str) (n : Int) (old : Disp) :
    eventText g (.restore n old false) = upToNul ("sigaction - ".toList ++ describe g n) := rfl
theorem x_exit (g : Int → Option Str) (l : Level) (n : Int) :
    eventText g (.exit l n) =
      "\n\nexitWithDefaultSignalHandler:232. Exiting due to ".toList ++ l.text ++ ", ".toList ++ decInt n ++ "   \n\n".toList := rfl
theorem x_install_ok (g : Int → Option Str) (n : Int) (name why : Str) : eventText g (.install n name true why) = [] := rfl
theorem x_restore_ok (g : Int → Option Str) (n : Int) (old : Disp) : eventText g (.restore n old true) = [] := rfl
theorem lit7 (r : Str) : "\n\n".toList ++ ("exitWithDefaultSignalHandler".toList ++ (":".toList ++ ("232".toList ++ (". Exiting due to ".toList ++ r)))) =
    "\n\nexitWithDefaultSignalHandler:232. Exiting due to ".toList ++ r := by
  simp only [← List.append_assoc]; exact congrArg (· ++ r) (by decide +kernel)

/-- How the system gets from `s` to `t`: by the events in between. -/
structure Explains (y : SigSys) (s t : SigD) (es : List SigEvent) : Prop where
  tr : t.tr = s.tr ++ es
  err : t.err = s.err ++ (es.map (eventText y.sigName)).flatten
  disp : (t.disp, t.saved) = replay s.disp s.saved es
  calls : t.calls = s.calls + (es.filterMap SigEvent.about).length
  ans : Answers y s.calls es

theorem replay_append (d : Int → Disp) (sv : Int → Option Disp) (a b : List SigEvent) :
    replay d sv (a ++ b) = replay (replay d sv a).1 (replay d sv a).2 b := by
  induction a generalizing d sv with
  | nil => rfl
  | cons e a ih => exact ih _ _

theorem answers_append (y : SigSys) (k : Nat) (a b : List SigEvent) (h1 : Answers y k a)
    (h2 : Answers y (k + (a.filterMap SigEvent.about).length) b) : Answers y k (a ++ b) := by
  induction a generalizing k with
  | nil => exact h2
  | cons e a ih =>
    cases e with
    | install n nm ok why =>
      refine ⟨h1.1, h1.2.1, ih (k + 1) h1.2.2 ?_⟩
      have : (List.filterMap SigEvent.about (.install n nm ok why :: a)).length = (List.filterMap SigEvent.about a).length + 1 := by
        simp [SigEvent.about]
      rw [this] at h2
      rw [Nat.add_right_comm]; exact h2
    | restore n old ok =>
      refine ⟨h1.1, ih (k + 1) h1.2 ?_⟩
      have : (List.filterMap SigEvent.about (.restore n old ok :: a)).length = (List.filterMap SigEvent.about a).length + 1 := by
        simp [SigEvent.about]
      rw [this] at h2
      rw [Nat.add_right_comm]; exact h2
    | exit l n =>
      refine ih k h1 ?_
      have : (List.filterMap SigEvent.about (.exit l n :: a)) = (List.filterMap SigEvent.about a) := rfl
      rw [this] at h2
      exact h2

theorem Explains.refl (y : SigSys) (s : SigD) : Explains y s s [] := ⟨by simp, by simp, rfl, rfl, trivial⟩

theorem Explains.trans {y : SigSys} {s t u : SigD} {a b : List SigEvent} (h1 : Explains y s t a) (h2 : Explains y t u b) :
    Explains y s u (a ++ b) := by
  refine ⟨by rw [h2.tr, h1.tr, List.append_assoc], ?_, ?_, ?_, ?_⟩
  · rw [h2.err, h1.err, List.map_append, List.flatten_append, List.append_assoc]
  · rw [h2.disp, replay_append, ← h1.disp]
  · rw [h2.calls, h1.calls, List.filterMap_append, List.length_append, Nat.add_assoc]
  · exact answers_append y _ a b h1.ans (by rw [← h1.calls]; exact h2.ans)

/-- A stderr that takes every text. -/
def Takes (y : SigSys) : Prop := ∀ t, y.takes t = some t.length

theorem installOne_explains (y : SigSys) (s : SigD) (p : Int × Str) :
    ∃ es, Explains y s (installOneD y s p) es ∧ es.filterMap SigEvent.about = [(true, p.1)] ∧ (installOneD y s p).gSignals = s.gSignals := by
  unfold installOneD
  cases h : y.accepts s.calls p.1 with
  | true =>
    simp only [if_true]
    refine ⟨[.install p.1 p.2 true []], ⟨rfl, by simp [x_install_ok], ?_, rfl, ⟨h.symm, (by intro e; cases e), trivial⟩⟩, rfl, trivial⟩
    simp only [replay, eventDisp, eventSaved, setAt_eq]
  | false =>
    simp only [Bool.false_eq_true, if_false]
    refine ⟨[.install p.1 p.2 false (y.errText s.calls)], ⟨rfl, ?_, rfl, rfl, ⟨h.symm, fun _ => rfl, trivial⟩⟩, rfl, trivial⟩
    simp only [List.map_cons, List.map_nil, List.flatten_cons, List.flatten_nil, List.append_nil, x_install, perrorText, cStr_upTo]

theorem install_explains (y : SigSys) (ps : List (Int × Str)) (s : SigD) :
    ∃ es, Explains y s (ps.foldl (installOneD y) s) es ∧ es.filterMap SigEvent.about = ps.map (fun p => (true, p.1)) ∧
      (ps.foldl (installOneD y) s).gSignals = s.gSignals := by
  induction ps generalizing s with
  | nil => exact ⟨[], .refl y s, rfl, rfl⟩
  | cons p ps ih =>
    obtain ⟨a, h1, h2, h3⟩ := installOne_explains y s p
    obtain ⟨b, k1, k2, k3⟩ := ih (installOneD y s p)
    exact ⟨a ++ b, h1.trans k1, by rw [List.filterMap_append, h2, k2]; rfl, by rw [List.foldl_cons, k3, h3]⟩

theorem toStr_eq (y : SigSys) (n : Int) : signalToStr y n = describe y.sigName n := by
  unfold signalToStr describe
  cases y.sigName n <;> rfl

theorem restore_explains (y : SigSys) (ht : Takes y) (ho : y.off = false) (s : SigD) (n : Int) :
    ∃ es, Explains y s (restoreD y s n) es ∧ es.filterMap SigEvent.about = (if (s.saved n).isSome then [(false, n)] else []) ∧
      (restoreD y s n).gSignals = s.gSignals ∧
      (restoreD y s n).saved = (if (s.saved n).isSome then (fun k => if k = n then none else s.saved k) else s.saved) := by
  unfold restoreD
  rw [ho]
  simp only [Bool.false_eq_true, if_false]
  cases hs : s.saved n with
  | none => exact ⟨[], .refl y s, rfl, rfl, rfl⟩
  | some old =>
    cases h : y.accepts s.calls n with
    | true =>
      simp only [if_true]
      refine ⟨[.restore n old true], ⟨rfl, by simp [x_restore_ok], ?_, rfl, ⟨h.symm, trivial⟩⟩, rfl, trivial, by simp [setAt_eq]⟩
      simp only [replay, eventDisp, eventSaved, setAt_eq]
    | false =>
      simp only [Bool.false_eq_true, if_false]
      refine ⟨[.restore n old false], ⟨rfl, ?_, ?_, rfl, ⟨h.symm, trivial⟩⟩, rfl, trivial, by simp [setAt_eq]⟩
      · simp only [List.map_cons, List.map_nil, List.flatten_cons, List.flatten_nil, List.append_nil, x_restore, writeErrorMessage, cStr_upTo,
          toStr_eq]
        rw [ht]
        simp only [List.take_length]
      · simp only [replay, eventDisp, eventSaved, setAt_eq]

theorem restoreAll_explains (y : SigSys) (ht : Takes y) (ho : y.off = false) (ps : List (Int × Str)) (s : SigD) :
    ∃ es, Explains y s (ps.foldl (fun t p => restoreD y t p.1) s) es ∧
      es.filterMap SigEvent.about = (dueRestores s.saved (ps.map Prod.fst)).map (fun n => (false, n)) ∧
      (ps.foldl (fun t p => restoreD y t p.1) s).gSignals = s.gSignals := by
  induction ps generalizing s with
  | nil => exact ⟨[], .refl y s, rfl, rfl⟩
  | cons p ps ih =>
    obtain ⟨a, h1, h2, h3, h4⟩ := restore_explains y ht ho s p.1
    obtain ⟨b, k1, k2, k3⟩ := ih (restoreD y s p.1)
    refine ⟨a ++ b, h1.trans k1, ?_, by rw [List.foldl_cons, k3, h3]⟩
    rw [List.filterMap_append, h2, k2, h4, List.map_cons, dueRestores]
    cases hs : (s.saved p.1).isSome with
    | true => simp
    | false => simp

/-- The signals in use after a call. -/
def signalsAfter (signals : List (Int × Str)) : SigCall → List (Int × Str)
  | .override ps => ps
  | _ => signals

theorem Explains.congr {y : SigSys} {s t u : SigD} {es : List SigEvent} (h : Explains y t u es) (h1 : t.tr = s.tr) (h2 : t.err = s.err)
    (h3 : t.disp = s.disp) (h4 : t.saved = s.saved) (h5 : t.calls = s.calls) : Explains y s u es :=
  ⟨by rw [← h1]; exact h.tr, by rw [← h2]; exact h.err, by rw [← h3, ← h4]; exact h.disp, by rw [← h5]; exact h.calls, by rw [← h5]; exact h.ans⟩

/-- C96: every call: which attempts it makes and in which order, what the system answered to each, what this does to the dispositions, and
what is written: for every refusal a text naming the signal, for nothing else anything. -/
theorem C96_call (y : SigSys) (ht : Takes y) (ho : y.off = false) (s : SigD) (op : SigCall) :
    ∃ es, Explains y s (sigStep y s op) es ∧ es.filterMap SigEvent.about = attempts s.saved s.gSignals op ∧
      (sigStep y s op).gSignals = signalsAfter s.gSignals op := by
  cases op with
  | install =>
    simp only [sigStep, installD, ho, Bool.false_eq_true, if_false]
    exact install_explains y s.gSignals s
  | override ps =>
    simp only [sigStep, overrideD, installD, ho, Bool.false_eq_true, if_false]
    obtain ⟨a, h1, h2, h3⟩ := restoreAll_explains y ht ho s.gSignals s
    obtain ⟨b, k1, k2, k3⟩ := install_explains y ps { restoreAllD y s with gSignals := ps }
    refine ⟨a ++ b, Explains.trans h1 (Explains.congr k1 rfl rfl rfl rfl rfl), ?_, k3⟩
    rw [List.filterMap_append, h2, k2, attempts]
  | restore n =>
    obtain ⟨a, h1, h2, h3, _⟩ := restore_explains y ht ho s n
    exact ⟨a, h1, h2, h3⟩
  | exit l n =>
    obtain ⟨a, h1, h2, h3⟩ := restoreAll_explains y ht ho s.gSignals s
    refine ⟨a ++ [.exit l n], Explains.trans h1 ?_, ?_, h3⟩
    · refine ⟨rfl, ?_, rfl, rfl, trivial⟩
      simp only [sigStep, exitTextD, List.map_cons, List.map_nil, List.flatten_cons, List.flatten_nil, List.append_nil, x_exit, restoreAllD,
        List.append_assoc, lit7]
    · rw [List.filterMap_append, h2]; simp [attempts, SigEvent.about]

/-- C96: any calls from the start of the program. stderr is the concatenation of the texts of the events, the dispositions and the remembered
actions are those that the events lead to, and the answers are those of the system in the order of the attempts. -/
theorem C96_history (y : SigSys) (ht : Takes y) (ho : y.off = false) (d0 : Int → Disp) (ops : List SigCall) :
    (sigRun y (.start d0) ops).err = ((sigRun y (.start d0) ops).tr.map (eventText y.sigName)).flatten ∧
    ((sigRun y (.start d0) ops).disp, (sigRun y (.start d0) ops).saved) = replay d0 (fun _ => none) (sigRun y (.start d0) ops).tr ∧
    Answers y 0 (sigRun y (.start d0) ops).tr := by
  have key : ∀ (ops : List SigCall) (s : SigD), ∃ es, Explains y s (sigRun y s ops) es := by
    intro ops
    induction ops with
    | nil => exact fun s => ⟨[], .refl y s⟩
    | cons op ops ih =>
      intro s
      obtain ⟨a, h1, _⟩ := C96_call y ht ho s op
      obtain ⟨b, h2⟩ := ih (sigStep y s op)
      exact ⟨a ++ b, h1.trans h2⟩
  obtain ⟨es, h⟩ := key ops (.start d0)
  have h1 := h.tr
  rw [show (SigD.start d0).tr = [] from rfl, List.nil_append] at h1
  rw [h1]
  exact ⟨by rw [h.err]; exact List.nil_append _, h.disp, h.ans⟩

theorem install_err (y : SigSys) : ∀ (ps : List (Int × Str)) (s : SigD), (ps.foldl (installOneD y) s).err = s.err ++
    (ps.zipIdx s.calls).flatMap (fun x => if y.accepts x.2 x.1.1 then [] else cStr ("sigaction - ".toList ++ x.1.2) ++ ": ".toList ++ y.errText x.2 ++ "\n".toList)
  | [], s => by simp
  | p :: ps, s => by
    rw [List.foldl_cons, install_err y ps, List.zipIdx_cons, List.flatMap_cons]
    unfold installOneD
    by_cases h : y.accepts s.calls p.1 = true
    · rw [if_pos h, if_pos h]; rfl
    · rw [if_neg h, if_neg h]
      simp only [perrorText, List.append_assoc]

/-- C96: the first installation. The five signals are tried in the order of their numbers; for each one refused there is one line with its name. -/
theorem C96_first (y : SigSys) (ho : y.off = false) (d0 : Int → Disp) :
    (sigRun y (.start d0) [.install]).err =
      ([("SIGILL".toList, 4), ("SIGABRT".toList, 6), ("SIGFPE".toList, 8), ("SIGSEGV".toList, 11), ("SIGTERM".toList, 15)].zipIdx).flatMap fun x =>
        if y.accepts x.2 x.1.2 then [] else "sigaction - ".toList ++ x.1.1 ++ ": ".toList ++ y.errText x.2 ++ "\n".toList := by
  have h : (sigRun y (.start d0) [.install]).err = (kSignalNames.foldl (installOneD y) (.start d0)).err := by
    show (installD y (.start d0)).err = _
    unfold installD
    rw [ho]
    rfl
  rw [h, install_err]
  have gen : ∀ (ps : List (Str × Int)) (k : Nat), (∀ p ∈ ps, cStr ("sigaction - ".toList ++ p.1) = "sigaction - ".toList ++ p.1) →
      ((ps.map fun p => (p.2, p.1)).zipIdx k).flatMap (fun x => if y.accepts x.2 x.1.1 then [] else
        cStr ("sigaction - ".toList ++ x.1.2) ++ ": ".toList ++ y.errText x.2 ++ "\n".toList) =
      (ps.zipIdx k).flatMap fun x => if y.accepts x.2 x.1.2 then [] else "sigaction - ".toList ++ x.1.1 ++ ": ".toList ++ y.errText x.2 ++ "\n".toList := by
    intro ps
    induction ps with
    | nil => exact fun _ _ => rfl
    | cons p ps ih =>
      intro k hp
      rw [List.map_cons, List.zipIdx_cons, List.zipIdx_cons, List.flatMap_cons, List.flatMap_cons, ih (k + 1) fun q hq => hp q (List.mem_cons_of_mem _ hq)]
      dsimp only
      rw [hp p (List.mem_cons_self ..)]
  exact gen [("SIGILL".toList, 4), ("SIGABRT".toList, 6), ("SIGFPE".toList, 8), ("SIGSEGV".toList, 11), ("SIGTERM".toList, 15)] 0 (by decide +kernel)

/-- C96: builds without signal handling make no attempt and write nothing but the line before the end of the process. -/
theorem C96_off (y : SigSys) (ho : y.off = true) (s : SigD) (op : SigCall) :
    (sigStep y s op).disp = s.disp ∧ (sigStep y s op).saved = s.saved ∧ (sigStep y s op).calls = s.calls ∧
    (sigStep y s op).err = s.err ++ (match op with | .exit l n => eventText y.sigName (.exit l n) | _ => []) := by
  have hr : ∀ (ps : List (Int × Str)) (t : SigD), ps.foldl (fun t p => restoreD y t p.1) t = t := by
    intro ps
    induction ps with
    | nil => exact fun _ => rfl
    | cons p ps ih => intro t; rw [List.foldl_cons, show restoreD y t p.1 = t by unfold restoreD; rw [ho]; rfl, ih]
  cases op with
  | install => simp [sigStep, installD, ho]
  | override ps => simp [sigStep, overrideD, installD, ho, restoreAllD, hr]
  | restore n => simp [sigStep, restoreD, ho]
  | exit l n =>
    refine ⟨?_, ?_, ?_, ?_⟩
    · simp only [sigStep, exitTextD, restoreAllD, hr]
    · simp only [sigStep, exitTextD, restoreAllD, hr]
    · simp only [sigStep, exitTextD, restoreAllD, hr]
    · simp only [sigStep, exitTextD, restoreAllD, hr, x_exit, List.append_assoc, lit7]

/-! ### Agreement with Model/Signals -/

/-- Without the diagnostics. -/
def plainSig (s : SigD) : SigState := { disp := s.disp, saved := s.saved, gSignals := s.gSignals.map Prod.fst }

/-- C96: when the system always gives the same answer for one signal, these are the functions that C43 and C44 speak about. -/
theorem C96_same (y : SigSys) (e : SigEnv) (h1 : y.off = e.off) (h2 : ∀ k n, y.accepts k n = e.accepts n) (s : SigD) :
    plainSig (sigStep y s .install) = installSignalHandler e (plainSig s) ∧
    (∀ ps, plainSig (sigStep y s (.override ps)) = overrideSetupSignals e (plainSig s) (ps.map Prod.fst)) ∧
    (∀ n, plainSig (sigStep y s (.restore n)) = restoreSignalHandler e (plainSig s) n) ∧
    ∀ l n, plainSig (sigStep y s (.exit l n)) = restoreAll e (plainSig s) := by
  have hi : ∀ (ps : List (Int × Str)) (s : SigD), plainSig (ps.foldl (installOneD y) s) = (ps.map Prod.fst).foldl (installOne e) (plainSig s) := by
    intro ps
    induction ps with
    | nil => exact fun _ => rfl
    | cons p ps ih =>
      intro s
      rw [List.foldl_cons, ih, List.map_cons, List.foldl_cons]
      congr 1
      unfold installOneD installOne
      rw [h2]
      split <;> rfl
  have hr1 : ∀ (s : SigD) (n : Int), plainSig (restoreD y s n) = restoreSignalHandler e (plainSig s) n := by
    intro s n
    unfold restoreD restoreSignalHandler
    rw [h1, show (plainSig s).saved n = s.saved n from rfl]
    cases e.off with
    | true => rfl
    | false =>
      simp only [Bool.false_eq_true, if_false]
      cases s.saved n with
      | none => rfl
      | some old =>
        simp only [h2]
        cases e.accepts n <;> rfl
  have hr : ∀ (ps : List (Int × Str)) (s : SigD), plainSig (ps.foldl (fun t p => restoreD y t p.1) s) =
      (ps.map Prod.fst).foldl (restoreSignalHandler e) (plainSig s) := by
    intro ps
    induction ps with
    | nil => exact fun _ => rfl
    | cons p ps ih => intro s; rw [List.foldl_cons, ih, List.map_cons, List.foldl_cons, hr1]
  have hin : ∀ s : SigD, plainSig (installD y s) = installSignalHandler e (plainSig s) := by
    intro s
    unfold installD installSignalHandler
    rw [h1]
    cases e.off with
    | true => rfl
    | false => exact hi s.gSignals s
  refine ⟨hin s, ?_, hr1 s, ?_⟩
  · intro ps
    show plainSig (installD y _) = _
    rw [hin]
    unfold overrideSetupSignals
    congr 1
    have := hr s.gSignals s
    unfold restoreAll
    show SigState.mk (restoreAllD y s).disp (restoreAllD y s).saved _ = _
    rw [show (restoreAllD y s).disp = (plainSig (restoreAllD y s)).disp from rfl, show (restoreAllD y s).saved = (plainSig (restoreAllD y s)).saved from rfl,
      show plainSig (restoreAllD y s) = _ from this]
    rfl
  · intro l n
    exact hr s.gSignals s

/-! ### What does not hold -/

/-- C96: whether the system accepts or not, an attempt to restore a signal uses up what was remembered: every later one does nothing. -/
theorem C96_forgotten (y y' : SigSys) (s : SigD) (n : Int) (ho : y.off = false) : restoreD y' (restoreD y s n) n = restoreD y s n := by
  have : (restoreD y s n).saved n = none := by
    unfold restoreD
    rw [ho]
    simp only [Bool.false_eq_true, if_false]
    cases hs : s.saved n with
    | none => exact hs
    | some old => simp only; split <;> simp [setAt]
  generalize restoreD y s n = t at this ⊢
  unfold restoreD
  rw [this]
  simp

/-- A system that refuses only the calls in a list. -/
def refusing (g : Int → Option Str) (l : List Nat) : SigSys :=
  { off := false, accepts := fun k _ => decide (k ∉ l), errText := fun _ => "No".toList, sigName := g, takes := fun t => some t.length }

/-- C96: refused once, a handler cannot be restored any more, although the system would accept it and nothing is written about it. -/
theorem C96_negation_forgotten (g : Int → Option Str) :
    let s := sigRun (refusing g [1]) (.start fun _ => .dfl) [.override [(SIGABRT, "SIGABRT".toList)], .restore SIGABRT]
    let s' := sigStep (refusing g [1]) s (.restore SIGABRT)
    s.disp SIGABRT = .g3log ∧ s'.disp SIGABRT = .g3log ∧ s'.err = s.err ∧ s'.calls = s.calls ∧
      (refusing g [1]).accepts s.calls SIGABRT = true := by
  refine ⟨rfl, rfl, rfl, rfl, rfl⟩

/-- C96: two handlers that cannot be restored are reported in one line. -/
theorem C96_negation_one_line :
    let g : Int → Option Str := fun n => if n = SIGABRT then some "Aborted".toList else some "Floating point exception".toList
    let y := refusing g [2, 3]
    Takes y ∧ (sigRun y (.start fun _ => .dfl) [.override [(SIGABRT, "SIGABRT".toList), (SIGFPE, "SIGFPE".toList)], .override []]).err =
      "sigaction - Abortedsigaction - Floating point exception".toList := by
  refine ⟨fun t => rfl, ?_⟩
  decide +kernel

/-- C96: the function for error messages. Nothing is written for a null pointer; otherwise the text up to its first NUL goes to one `write`. -/
theorem C96_write (y : SigSys) :
    writeErrorMessage y none = (0, []) ∧
    ∀ m, (∀ k, y.takes (upToNul m) = some k → writeErrorMessage y (some m) = (k, (upToNul m).take k)) ∧
      (y.takes (upToNul m) = none → writeErrorMessage y (some m) = (18446744073709551615, [])) := by
  refine ⟨rfl, fun m => ⟨?_, ?_⟩⟩
  · intro k h
    unfold writeErrorMessage
    simp only [cStr_upTo, h]
  · intro h
    unfold writeErrorMessage
    simp only [cStr_upTo, h, sizeMax]

/-- C96 (partial: writes that do not fail): its result is the number of characters that got to stderr. -/
theorem C96_result_partial (y : SigSys) (m : Option Str) (k : Nat) (hk : ∀ t, m = some t → y.takes (upToNul t) = some k ∧ k ≤ (upToNul t).length) :
    (writeErrorMessage y m).1 = (writeErrorMessage y m).2.length := by
  cases m with
  | none => rfl
  | some t =>
    obtain ⟨h1, h2⟩ := hk t rfl
    rw [((C96_write y).2 t).1 k h1, List.length_take, Nat.min_eq_left h2]

/-- C96: when the write fails, nothing is written but a huge number is returned. -/
theorem C96_negation_result (y : SigSys) (h : ∀ t, y.takes t = none) (m : Str) :
    (writeErrorMessage y (some m)).1 = 18446744073709551615 ∧ (writeErrorMessage y (some m)).2 = [] := by
  rw [((C96_write y).2 m).2 (h _)]
  exact ⟨rfl, rfl⟩

/-! ### Windows -/

theorem processWide_iff (n : Nat) : processWide n = true ↔ n = 15 ∨ n = 22 := by
  unfold processWide WIN_SIGABRT; simp

theorem setSig_fold (acc : Nat → Bool) (t : Nat) (d : Disp) (ns : List Nat) (g : Nat → Nat → Disp) (t' n' : Nat) :
    (ns.foldl (fun g n => if acc n then setSig g t n d else g) g) t' n' =
      if n' ∈ ns ∧ acc n' = true ∧ (t' = t ∨ processWide n' = true) then d else g t' n' := by
  induction ns generalizing g with
  | nil => simp
  | cons n ns ih =>
    rw [List.foldl_cons, ih]
    by_cases h1 : n' ∈ ns ∧ acc n' = true ∧ (t' = t ∨ processWide n' = true)
    · rw [if_pos h1, if_pos ⟨List.mem_cons_of_mem _ h1.1, h1.2⟩]
    · rw [if_neg h1]
      by_cases h2 : n' = n
      · subst h2
        cases ha : acc n' with
        | true =>
          simp only [if_true, setSig]
          by_cases h3 : t' = t ∨ processWide n' = true
          · simp [h3]
          · simp [h3]
        | false => simp
      · have : ¬ (n' ∈ n :: ns ∧ acc n' = true ∧ (t' = t ∨ processWide n' = true)) := by
          rintro ⟨a, b⟩
          rcases List.mem_cons.mp a with a | a
          · exact h2 a
          · exact h1 ⟨a, b⟩
        rw [if_neg this]
        split
        · simp [setSig, h2]
        · rfl

/-- The five signals with their names, in the order of the installation. -/
def winNamed : List (Nat × Str) := [(15, "SIGTERM".toList), (22, "SIGABRT".toList), (8, "SIGFPE".toList), (11, "SIGSEGV".toList), (4, "SIGILL".toList)]

/-- The line about a signal. -/
def winLine (w : WinSys) (name : Str) : Str := "signal - ".toList ++ name ++ ": ".toList ++ w.errText ++ "\n".toList

theorem winLine_eq (w : WinSys) (name : Str) : winLine w name = "signal - ".toList ++ name ++ ": ".toList ++ w.errText ++ "\n".toList := rfl

theorem winInstall_fold (w : WinSys) (t : Nat) (ps : List (Nat × Str)) (g : Nat → Nat → Disp) (e : Str) :
    ps.foldl (winInstallOneD w t) (g, e) =
      ((ps.map Prod.fst).foldl (fun g n => if w.accepts n then setSig g t n .g3log else g) g,
       e ++ ((ps.filter fun p => !w.accepts p.1).map fun p => winLine w p.2).flatten) := by
  induction ps generalizing g e with
  | nil => simp
  | cons p ps ih =>
    rw [List.foldl_cons]
    cases h : w.accepts p.1 with
    | true =>
      rw [show winInstallOneD w t (g, e) p = (setSig g t p.1 .g3log, e) by unfold winInstallOneD; rw [h]; rfl]
      simp only [if_true, ih, List.map_cons, List.foldl_cons, h, List.filter_cons, Bool.not_true, Bool.false_eq_true, if_false]
    | false =>
      rw [show winInstallOneD w t (g, e) p = (g, e ++ winLine w p.2) by unfold winInstallOneD; rw [h]; rfl]
      simp only [Bool.false_eq_true, if_false, ih, List.map_cons, List.foldl_cons, h, List.filter_cons, Bool.not_false, if_true,
        List.flatten_cons, List.append_assoc]

theorem winRestore_fold (w : WinSys) (t : Nat) (ns : List Nat) (g : Nat → Nat → Disp) (e : Str) :
    ns.foldl (winRestoreOneD w t) (g, e) =
      (ns.foldl (fun g n => if w.accepts n then setSig g t n .dfl else g) g,
       e ++ ((ns.filter fun n => !w.accepts n).map fun _ => winLine w "SIGABRT".toList).flatten) := by
  have hl : "signal - SIGABRT".toList = "signal - ".toList ++ "SIGABRT".toList := by decide +kernel
  induction ns generalizing g e with
  | nil => simp
  | cons n ns ih =>
    rw [List.foldl_cons]
    cases h : w.accepts n with
    | true =>
      rw [show winRestoreOneD w t (g, e) n = (setSig g t n .dfl, e) by unfold winRestoreOneD; rw [h]; rfl]
      simp only [if_true, ih, List.foldl_cons, h, List.filter_cons, Bool.not_true, Bool.false_eq_true, if_false]
    | false =>
      rw [show winRestoreOneD w t (g, e) n = (g, e ++ winLine w "SIGABRT".toList) by
        unfold winRestoreOneD; rw [h, hl]; rfl]
      simp only [Bool.false_eq_true, if_false, ih, List.foldl_cons, h, List.filter_cons, Bool.not_false, if_true, List.map_cons,
        List.flatten_cons, List.append_assoc]

/-- C96, Windows: the first use of a thread tries all five signals; each refusal gives one line with the name of its signal, accepted signals are
g3log's afterwards, all others are as before. -/
theorem C96_windows_install (w : WinSys) (s : WinState) (t : Nat) (h : s.installed t = false) :
    (winInstallThreadD w s t).2 = ((winNamed.filter fun p => !w.accepts p.1).map fun p => winLine w p.2).flatten ∧
    (∀ t' n', (winInstallThreadD w s t).1.sig t' n' =
      if n' ∈ [15, 22, 8, 11, 4] ∧ w.accepts n' = true ∧ (t' = t ∨ n' = 15 ∨ n' = 22) then .g3log else s.sig t' n') ∧
    (∀ t', (winInstallThreadD w s t).1.installed t' = (decide (t' = t) || s.installed t')) ∧
    { (winInstallThreadD w s t).1 with sig := s.sig, installed := s.installed } = s := by
  unfold winInstallThreadD
  rw [h]
  simp only [Bool.false_eq_true, if_false]
  rw [winInstall_fold]
  refine ⟨by rw [List.nil_append]; rfl, ?_, fun _ => trivial, trivial⟩
  intro t' n'
  dsimp only
  rw [setSig_fold]
  simp only [processWide_iff, List.map_cons, List.map_nil, WIN_SIGABRT]

/-- C96, Windows: later uses of the thread try nothing, also if everything was refused the first time. -/
theorem C96_windows_once (w w' : WinSys) (s : WinState) (t : Nat) :
    winInstallThreadD w' (winInstallThreadD w s t).1 t = ((winInstallThreadD w s t).1, []) := by
  have : (winInstallThreadD w s t).1.installed t = true := by
    cases h : s.installed t with
    | true => unfold winInstallThreadD; rw [h]; exact h
    | false => rw [(C96_windows_install w s t h).2.2.1]; simp
  generalize (winInstallThreadD w s t).1 = u at this ⊢
  unfold winInstallThreadD
  rw [this]
  rfl

/-- C96, Windows: when the handlers are taken back, each refusal gives one line, but all lines name SIGABRT. -/
theorem C96_windows_restore (w : WinSys) (s : WinState) (t : Nat) :
    (winRestoreD w s t).2 = (([22, 8, 11, 4, 15].filter fun n => !w.accepts n).map fun _ => winLine w "SIGABRT".toList).flatten ∧
    (∀ t' n', (winRestoreD w s t).1.sig t' n' =
      if n' ∈ [22, 8, 11, 4, 15] ∧ w.accepts n' = true ∧ (t' = t ∨ n' = 15 ∨ n' = 22) then .dfl else s.sig t' n') ∧
    (winRestoreD w s t).1.filter = s.prevFilter ∧
    (winRestoreD w s t).1.vectored = s.vectored.filter (fun k => decide (s.vhandle ≠ some k)) ∧
    { (winRestoreD w s t).1 with sig := s.sig, filter := s.filter, vectored := s.vectored } = s := by
  unfold winRestoreD
  rw [winRestore_fold]
  refine ⟨by rw [List.nil_append]; rfl, ?_, rfl, ?_, rfl⟩
  · intro t' n'
    dsimp only
    rw [setSig_fold]
    simp only [processWide_iff, WIN_SIGABRT]
  · cases hv : s.vhandle with
    | none => simp
    | some h =>
      simp only
      congr 1
      funext k
      simp [eq_comm]

/-- C96, Windows: if all is accepted nothing is written, and these are the functions that C63 and C64 speak about. -/
theorem C96_windows_same (w : WinSys) (hw : ∀ n, w.accepts n = true) (s : WinState) (t : Nat) :
    winInstallThreadD w s t = (winInstallThread s t, []) ∧ winRestoreD w s t = (winRestore s t, []) := by
  constructor
  · unfold winInstallThreadD winInstallThread
    cases s.installed t with
    | true => rfl
    | false =>
      simp only [Bool.false_eq_true, if_false]
      rw [winInstall_fold]
      simp only [hw, if_true, Bool.not_true, List.filter_false, List.map_nil, List.flatten_nil, List.append_nil]
      rfl
  · unfold winRestoreD winRestore
    rw [winRestore_fold]
    simp only [hw, if_true, Bool.not_true, List.filter_false, List.map_nil, List.flatten_nil, List.append_nil]
    rfl

/-- C96: on Windows the statement is false: only SIGFPE is refused, and SIGABRT is named, which was accepted. -/
theorem C96_negation_windows (s : WinState) (t : Nat) :
    let w : WinSys := ⟨fun n => decide (n ≠ 8), "Invalid argument".toList⟩
    (winRestoreD w s t).2 = "signal - SIGABRT: Invalid argument\n".toList ∧ (winRestoreD w s t).1.sig t 22 = .dfl ∧
      (winRestoreD w s t).1.sig t 8 = s.sig t 8 := by
  intro w
  obtain ⟨h1, h2, _⟩ := C96_windows_restore w s t
  refine ⟨?_, ?_, ?_⟩
  · rw [h1]; simp only [w, winLine_eq]; decide +kernel
  · rw [h2]; simp [w]
  · rw [h2]; simp [w]

/-! ### Non-trivial cases -/

/-- A history in which a restoration is refused and an installation too. -/
example :
    let y := refusing (fun _ => none) [1, 3]
    let s := sigRun y (.start fun _ => .dfl) [.override [(SIGABRT, "SIGABRT".toList), (9, "SIGKILL".toList)], .override [(SIGFPE, "SIGFPE".toList), (19, "SIGSTOP".toList)]]
    s.tr.map (fun e => (SigEvent.about e, (eventText y.sigName e).length)) =
      [(some (true, 6), 0), (some (true, 9), 24), (some (false, 6), 0), (some (true, 8), 23), (some (true, 19), 0)] ∧ s.calls = 5 := by
  decide +kernel

example : Takes (refusing (fun _ => none) [1, 3]) ∧ (refusing (fun _ => none) [1, 3]).off = false := ⟨fun _ => rfl, rfl⟩

end G3.Props
