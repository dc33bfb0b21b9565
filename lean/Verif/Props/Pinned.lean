import Verif.Props.Front
import Verif.Props.Signals
import Verif.Props.Windows
import Verif.Props.LogMessage
import Verif.Props.Time
/-
Further theorems for C12, C32, C44, C47 and C59: what earlier theorems left open about the functions involved.
-/
namespace G3.Props
open G3 G3.Spec

/-! ### C12: the warning -/

/-- C12: the entry that the refused call leaves in the log: a warning of line 131 of the source file, with these four lines of text. -/
theorem C12_warning (E : Env) (src : Src) (full : Bool) (now : Int) (tid : Nat) (dir name : Str) (hn : ∀ x ∈ name, isSep x = false)
    (hs : src.file = dir ++ ['/'] ++ name) :
    (toStringDefault E (inactiveWarning src full now tid)).1 =
      E.stamp now ++ "\tWARNING [".toList ++ (if full then dir ++ ['/'] ++ name else name) ++ "->".toList ++ src.warnFunction ++ ":131]\t".toList ++
      "\n\t\tAttempted to shut down logging, but the ID of the Logger is not the one that is active.".toList ++
      "\n\t\tHaving multiple instances of the g3::LogWorker is likely a BUG".toList ++
      "\n\t\tEither way, this call to shutDownLogging was ignored".toList ++
      "\n\t\tTry g3::internal::shutDownLogging() instead".toList ++ "\n".toList := by
  have hf : name = splitFileName src.file := C28_unique src.file (dir ++ ['/']) name hs (Or.inr ⟨dir, '/', rfl, rfl⟩) hn
  have htext : (inactiveWarning src full now tid).message =
      "\n\t\tAttempted to shut down logging, but the ID of the Logger is not the one that is active.".toList ++
      "\n\t\tHaving multiple instances of the g3::LogWorker is likely a BUG".toList ++
      "\n\t\tEither way, this call to shutDownLogging was ignored".toList ++
      "\n\t\tTry g3::internal::shutDownLogging() instead".toList := by
    have : ("\n\t\tAttempted to shut down logging, but the ID of the Logger is not the one that is active.\n\t\tHaving multiple instances of the g3::LogWorker is likely a BUG\n\t\tEither way, this call to shutDownLogging was ignored\n\t\tTry g3::internal::shutDownLogging() instead".toList : Str) =
      "\n\t\tAttempted to shut down logging, but the ID of the Logger is not the one that is active.".toList ++
      "\n\t\tHaving multiple instances of the g3::LogWorker is likely a BUG".toList ++
      "\n\t\tEither way, this call to shutDownLogging was ignored".toList ++
      "\n\t\tTry g3::internal::shutDownLogging() instead".toList := by decide +kernel
    simp only [inactiveWarning]
    exact this
  have hl : (inactiveWarning src full now tid).level = WARNING.copy.copy.copy := by simp only [inactiveWarning, LogMessage.new]
  have ht : (inactiveWarning src full now tid).timestamp = now := by simp only [inactiveWarning, LogMessage.new]
  have hfn : (inactiveWarning src full now tid).function = src.warnFunction := by simp only [inactiveWarning, LogMessage.new]
  have hk : kindOf (inactiveWarning src full now tid).level.value = .ordinary := by rw [hl]; decide
  have hd : detailsText E (inactiveWarning src full now tid) .default =
      E.stamp now ++ "\tWARNING [".toList ++ (if full then dir ++ ['/'] ++ name else name) ++ "->".toList ++ src.warnFunction ++ ":131]\t".toList := by
    have e1 : (inactiveWarning src full now tid).file = if full then dir ++ ['/'] ++ name else name := by
      simp only [inactiveWarning, LogMessage.new]
      rw [← hf, hs]
    have e2 : (inactiveWarning src full now tid).level.text = "WARNING".toList := by
      rw [hl]
      decide +kernel
    have e3 : decInt (inactiveWarning src full now tid).line = "131".toList := by
      simp only [inactiveWarning, LogMessage.new]
      simp [decInt, decNat, digit]
    simp only [detailsText, e1, e2, e3, ht, hfn]
    simp
  unfold toStringDefault
  rw [C26_toString, hk, hd, htext]
  simp only [entryText, List.append_assoc]

example : (∀ x ∈ "g3log.cpp".toList, isSep x = false) ∧ "/repo/src/g3log.cpp".toList = "/repo/src".toList ++ ['/'] ++ "g3log.cpp".toList := by decide +kernel

/-! ### C32: the library function used to find the places -/

/-- C32: `find` as the C++ standard defines it, for every pattern and position: the result is the first index from `pos` on at which the pattern occurs. -/
theorem C32_find (pat s : Str) (pos : Nat) :
    (∀ i, find pat pos s = some i ↔ (pos ≤ i ∧ i ≤ s.length ∧ pat <+: s.drop i ∧ ∀ j, pos ≤ j → j < i → ¬ pat <+: s.drop j)) := by
  have aux : ∀ (s : Str) (o i : Nat), findAux pat o s = some i ↔ (o ≤ i ∧ i ≤ o + s.length ∧ pat <+: s.drop (i - o) ∧ ∀ j, o ≤ j → j < i → ¬ pat <+: s.drop (j - o)) := by
    intro s
    induction s with
    | nil =>
      intro o i
      unfold findAux
      simp only [List.drop_nil, List.prefix_nil, List.length_nil]
      constructor
      · intro h
        split at h
        · next hp => cases h; exact ⟨Nat.le_refl _, by omega, hp, fun j h1 h2 => by omega⟩
        · cases h
      · rintro ⟨h1, h2, h3, h4⟩
        rw [if_pos h3]
        congr 1; omega
    | cons c s ih =>
      intro o i
      unfold findAux
      by_cases hp : pat <+: c :: s
      · rw [if_pos (List.isPrefixOf_iff_prefix.2 hp)]
        constructor
        · intro h; cases h
          exact ⟨Nat.le_refl _, by omega, by simpa using hp, fun j h1 h2 => by omega⟩
        · rintro ⟨h1, h2, h3, h4⟩
          by_cases e : o = i
          · rw [e]
          · exact absurd (by simpa using hp) (h4 o (Nat.le_refl _) (by omega))
      · rw [if_neg (fun h => hp (List.isPrefixOf_iff_prefix.1 h)), ih]
        constructor
        · rintro ⟨h1, h2, h3, h4⟩
          refine ⟨by omega, by simp only [List.length_cons]; omega, ?_, ?_⟩
          · rw [show i - o = (i - (o + 1)) + 1 by omega]; exact h3
          · intro j a b
            by_cases e : j = o
            · subst e; simpa using hp
            · rw [show j - o = (j - (o + 1)) + 1 by omega]; exact h4 j (by omega) b
        · rintro ⟨h1, h2, h3, h4⟩
          have hne : i ≠ o := by
            intro e; subst e; exact hp (by simpa using h3)
          simp only [List.length_cons] at h2
          refine ⟨by omega, by omega, ?_, ?_⟩
          · rw [show i - o = (i - (o + 1)) + 1 by omega] at h3; exact h3
          · intro j a b
            have := h4 j (by omega) b
            rw [show j - o = (j - (o + 1)) + 1 by omega] at this; exact this
  intro i
  unfold find
  split
  · next h =>
    rw [aux]
    have dd : ∀ j, pos ≤ j → (s.drop pos).drop (j - pos) = s.drop j := by
      intro j hj; rw [List.drop_drop]; congr 1; omega
    constructor
    · rintro ⟨h1, h2, h3, h4⟩
      rw [List.length_drop] at h2
      rw [dd i h1] at h3
      refine ⟨h1, by omega, h3, fun j a b => ?_⟩
      have := h4 j a b; rw [dd j a] at this; exact this
    · rintro ⟨h1, h2, h3, h4⟩
      rw [List.length_drop]
      refine ⟨h1, by omega, by rw [dd i h1]; exact h3, fun j a b => ?_⟩
      rw [dd j a]; exact h4 j a b
  · next h =>
    constructor
    · intro e; cases e
    · rintro ⟨h1, h2, _⟩; omega

example : find "%f".toList 1 "%f3 %f6".toList = some 4 ∧ find [] 3 "abc".toList = some 3 := by decide

/-! ### C44: runs of the handler are counted -/

/-- C44: in the situation of `C44_negation_signal` and `C44_negation_abort` the run of the handler is counted, so that every later one waits as long as nobody releases it. -/
theorem C44_counted (e : SigEnv) (r : RaiseEnv) (d0 : Int → Disp) (S : List Int) (hS : S.Nodup) (ho : e.off = false)
    (n : Int) (hn : n ∈ S) (ha : e.accepts n = true) (k : Nat) (b : Bool) :
    (exitWithDefaultSignalHandler e r ⟨overrideThenInit e d0 S, k, b⟩ n).2.firstExit = k + 1 ∧
    (exitWithDefaultSignalHandler e r ⟨overrideThenInit e d0 S, k, b⟩ n).2.block = (decide (k ≠ 0) && b) := by
  unfold exitWithDefaultSignalHandler
  simp only [overrideThenInit_restore e d0 S hS ho n hn ha]
  unfold signalHandlerAtExit
  by_cases hk : k = 0
  · simp [hk, exitInsideHandler]
  · cases b <;> simp [hk, exitInsideHandler]

example : [(11 : Int)].Nodup ∧ (11 : Int) ∈ [(11 : Int)] := by decide

/-! ### C47: hooks of any shape -/

theorem fatalCall_stat (E : Env) (f : Front) (m : FatalMessage) : (fatalCall E f m).2.2 ≠ .fuel := by
  unfold fatalCall pushFatalMessageToLogger
  split
  · split <;> simp
  · split <;> simp

theorem runActs_more {ev ev' : Front → LogMessage → Str → Int → R} (h : ∀ f m t n, (ev f m t n).2.2 ≠ .fuel → ev' f m t n = ev f m t n) (as : List Act) :
    ∀ f, (runActs ev f as).2.2 ≠ .fuel → runActs ev' f as = runActs ev f as := by
  induction as with
  | nil => intro f _; rfl
  | cons a as ih =>
    intro f hf
    cases a with
    | log m => simp only [runActs] at hf ⊢; rw [ih _ hf]
    | setHook id acts => simp only [runActs] at hf ⊢; exact ih _ hf
    | throws => rfl
    | fatal m t n =>
      simp only [runActs] at hf ⊢
      by_cases hk : (ev f m t n).2.2 = .ok
      · rw [if_pos hk] at hf ⊢
        have he := h f m t n (by rw [hk]; simp)
        rw [he, if_pos hk, ih _ hf]
      · rw [if_neg hk] at hf ⊢
        rw [h f m t n hf, if_neg hk]

/-- C47: how deep fatal events may be nested in the model makes no difference: once a depth suffices, every greater depth gives the same result. -/
theorem C47_depth (E : Env) (d d' : Nat) (hd : d ≤ d') : ∀ (f : Front) (m : LogMessage) (t : Str) (n : Int), (saveFatalMessage E d f m t n).2.2 ≠ .fuel →
    saveFatalMessage E d' f m t n = saveFatalMessage E d f m t n := by
  have one : ∀ d f m t n, (saveFatalMessage E d f m t n).2.2 ≠ .fuel → saveFatalMessage E (d + 1) f m t n = saveFatalMessage E d f m t n := by
    intro d
    induction d with
    | zero => intro f m t n h; exact absurd rfl h
    | succ d ih =>
      intro f m t n h
      rw [saveFatal_eq E (d + 1), saveFatal_eq E d] at *
      cases hh : f.hook with
      | none => rfl
      | some k =>
        rw [hh] at h
        simp only at h ⊢
        have hr : (runActs (saveFatalMessage E d) (prep f t) k.acts).2.2 ≠ .fuel := by
          intro e
          rw [if_neg (by rw [e]; simp)] at h
          exact h e
        rw [runActs_more ih k.acts _ hr]
  intro f m t n h
  induction hd with
  | refl => rfl
  | step _ ih => rw [one _ _ _ _ _ (by rw [ih]; exact h), ih]

/-- The size of the hook that is set. -/
noncomputable def hookSize (f : Front) : Nat := (f.hook.map fun h => sizeOf h.acts).getD 1

theorem runActs_fuel {d : Nat} {ev : Front → LogMessage → Str → Int → R}
    (h : ∀ f m t n, hookSize f ≤ d → (ev f m t n).2.2 ≠ .fuel ∧ hookSize (ev f m t n).1 ≤ d) (as : List Act) (hs : sizeOf as ≤ d + 1) :
    ∀ f, hookSize f ≤ d → (runActs ev f as).2.2 ≠ .fuel ∧ hookSize (runActs ev f as).1 ≤ d := by
  induction as with
  | nil => intro f hf; exact ⟨by simp [runActs], hf⟩
  | cons a as ih =>
    have hs' : sizeOf a + sizeOf as ≤ d := by simp at hs; omega
    have ih := ih (by omega)
    intro f hf
    cases a with
    | log m =>
      simp only [runActs]
      refine ih _ ?_
      unfold pushMessageToLogger
      split
      · split <;> exact hf
      · exact hf
    | setHook id acts =>
      simp only [runActs]
      refine ih _ ?_
      show sizeOf acts ≤ d
      simp at hs'; omega
    | throws => exact ⟨by simp [runActs], hf⟩
    | fatal m t n =>
      simp only [runActs]
      obtain ⟨h1, h2⟩ := h f m t n hf
      split
      · exact ih _ h2
      · exact ⟨h1, h2⟩

/-- C47: whatever a hook does (log, fatal events of its own, further hooks that do the same, exceptions), its fatal event comes to an end. -/
theorem C47_any_hook (E : Env) (f : Front) : ∃ D, ∀ d, D ≤ d → ∀ (m : LogMessage) (t : Str) (n : Int),
    (saveFatalMessage E d f m t n).2.2 ≠ .fuel ∧ saveFatalMessage E d f m t n = saveFatalMessage E D f m t n := by
  have main : ∀ d f m t n, hookSize f ≤ d → 1 ≤ d → (saveFatalMessage E d f m t n).2.2 ≠ .fuel ∧ hookSize (saveFatalMessage E d f m t n).1 ≤ d := by
    intro d
    induction d with
    | zero => intro f m t n _ h; omega
    | succ d ih =>
      intro f m t n hf _
      rw [saveFatal_eq]
      have hp : hookSize (prep f t) = 1 := by simp [hookSize, prep, nothingHook]
      cases hh : f.hook with
      | none => exact ⟨by simp, by rw [hp]; omega⟩
      | some k =>
        simp only
        have hk : sizeOf k.acts ≤ d + 1 := by simpa [hookSize, hh] using hf
        have hr : (runActs (saveFatalMessage E d) (prep f t) k.acts).2.2 ≠ .fuel ∧ hookSize (runActs (saveFatalMessage E d) (prep f t) k.acts).1 ≤ d + 1 := by
          by_cases h0 : 1 ≤ d
          · obtain ⟨h1, h2⟩ := runActs_fuel (fun f m t n hf => ih f m t n hf h0) k.acts hk (prep f t) (by rw [hp]; exact h0)
            exact ⟨h1, by omega⟩
          · have : k.acts = [] := by
              cases hka : k.acts with
              | nil => rfl
              | cons a as =>
                exfalso
                rw [hka] at hk
                simp at hk
                have : 0 < sizeOf a := by cases a <;> simp
                have : 0 < sizeOf as := by cases as <;> simp
                omega
            rw [this]
            exact ⟨by simp [runActs], by simp only [runActs]; rw [hp]; omega⟩
        split
        · exact ⟨fatalCall_stat _ _ _, by rw [(fatalCall_props E _ _).1]; exact hr.2⟩
        · exact hr
  refine ⟨hookSize f + 1, fun d hd m t n => ?_⟩
  exact ⟨(main d f m t n (by omega) (by omega)).1, C47_depth E _ _ hd f m t n (main _ f m t n (by omega) (by omega)).1⟩

/-- A hook that sets another hook and then has a fatal event, whose hook does the same once more. -/
example (E : Env) (m : LogMessage) : (saveFatalMessage E 3 { Front.start with hook := some ⟨1, [.setHook 2 [.setHook 3 [], .fatal m [] 6], .fatal m [] 6]⟩, handler := .custom true } m [] 6).2.2 = .ok ∧
    (saveFatalMessage E 2 { Front.start with hook := some ⟨1, [.setHook 2 [.setHook 3 [], .fatal m [] 6], .fatal m [] 6]⟩, handler := .custom true } m [] 6).2.2 = .fuel :=
  ⟨rfl, rfl⟩

/-! ### C59: the flag that holds back the thread of a fatal event -/

/-- The end of the processing of a fatal exception. -/
def releases : WinOp → Bool
  | .exit _ level _ => decide (level.value = FATAL_EXCEPTION.value)
  | _ => false

/-- C59: threads with a fatal event wait until the processing of a fatal exception has come to its end, and from then on nobody waits any more. -/
theorem C59_waiting (f : WinFilter) (sig : Nat → Nat → Disp) (ops : List WinOp) : (winRun (winStart f sig) ops).block = !ops.any releases := by
  have main : ∀ (ops : List WinOp) (s : WinState), (winRun s ops).block = (s.block && !ops.any releases) := by
    intro ops
    induction ops with
    | nil => intro s; simp [winRun]
    | cons op ops ih =>
      intro s
      have := ih (winStep s op)
      simp only [winRun, List.foldl_cons] at this ⊢
      rw [this]
      have hb : (winStep s op).block = (s.block && !releases op) := by
        cases op with
        | log t => simp only [winStep, winInstallThread]; split <;> simp [releases]
        | installCrash t => simp only [winStep, winInstallCrash, winInstallThread]; split <;> simp [releases]
        | signal n p => simp [winStep, winSignal, releases]
        | vectored t c p => simp only [winStep, winVectored]; split <;> simp [releases, winException, winRestore]
        | unexpected t c p => simp [winStep, winUnexpected, winException, winRestore, releases]
        | exit t l id =>
          obtain ⟨h1, h2⟩ := C59_exit s t l id
          by_cases e : l.value = FATAL_EXCEPTION.value
          · simp [winStep, (h1 e).1, releases, e]
          · simp [winStep, (h2 e).1, releases, e]
      rw [hb, List.any_cons, Bool.not_or, Bool.and_assoc]
  rw [main]
  simp [winStart]

/-- C59: what the dispositions of the signals are after a LOG call that installs the handlers of its thread, and after the end of the processing of a fatal
event. SIGTERM (15) and SIGABRT (22) count for all threads; SIGFPE (8), SIGSEGV (11) and SIGILL (4) for the thread alone; no other signal is touched. -/
theorem C59_dispositions (s : WinState) (t u n : Nat) (level : Level) (id : Nat) :
    (winStep s (.log t)).sig u n =
      (if s.installed t = false ∧ ((n = 15 ∨ n = 22) ∨ (n = 8 ∨ n = 11 ∨ n = 4) ∧ u = t) then .g3log else s.sig u n) ∧
    (winStep s (.exit t level id)).sig u n =
      (if (n = 15 ∨ n = 22) ∨ (n = 8 ∨ n = 11 ∨ n = 4) ∧ u = t then .dfl else s.sig u n) := by
  have wide : processWide n = true ↔ n = 15 ∨ n = 22 := by
    unfold processWide
    rw [Bool.or_eq_true, decide_eq_true_eq, decide_eq_true_eq]
    exact Iff.rfl
  have key : (n ∈ [15, 22, 8, 11, 4] ∧ (u = t ∨ processWide n = true)) ↔ ((n = 15 ∨ n = 22) ∨ (n = 8 ∨ n = 11 ∨ n = 4) ∧ u = t) := by
    simp only [wide, List.mem_cons, List.not_mem_nil, or_false]
    constructor
    · rintro ⟨a, b⟩
      rcases b with b | b
      · rcases a with a | a | a | a | a <;> simp [a, b]
      · exact Or.inl b
    · rintro (a | ⟨a, b⟩)
      · exact ⟨by rcases a with a | a <;> simp [a], Or.inr a⟩
      · exact ⟨by rcases a with a | a | a <;> simp [a], Or.inl b⟩
  have key2 : (n ∈ [22, 8, 11, 4, 15] ∧ (u = t ∨ processWide n = true)) ↔ ((n = 15 ∨ n = 22) ∨ (n = 8 ∨ n = 11 ∨ n = 4) ∧ u = t) := by
    simp only [wide, List.mem_cons, List.not_mem_nil, or_false]
    constructor
    · rintro ⟨a, b⟩
      rcases b with b | b
      · rcases a with a | a | a | a | a <;> simp [a, b]
      · exact Or.inl b
    · rintro (a | ⟨a, b⟩)
      · exact ⟨by rcases a with a | a <;> simp [a], Or.inr a⟩
      · exact ⟨by rcases a with a | a | a <;> simp [a], Or.inl b⟩
  constructor
  · show (winInstallThread s t).sig u n = _
    rw [install_sig]
    exact if_congr (and_congr Iff.rfl key) rfl rfl
  · have h : (winExit s t level id).sig = (winRestore s t).sig := by
      unfold winExit
      simp only
      split <;> rfl
    show (winExit s t level id).sig u n = _
    rw [h]
    show ([22, 8, 11, 4, 15].foldl (fun g n => setSig g t n .dfl) s.sig) u n = _
    rw [foldl_sig]
    exact if_congr key2 rfl rfl

end G3.Props
