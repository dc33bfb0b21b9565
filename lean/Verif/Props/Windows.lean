import Verif.Model.Windows
import Verif.Spec.Windows
import Verif.Proofs.Str
/-
Windows: exceptions, handlers, stack dumps. C59, C63 - C67.
-/
namespace G3.Props
open G3 G3.Spec

/-! ### C59 -/

theorem lookup_iff {l : List (Nat × Str)} (hf : ∀ p ∈ l, ∀ q ∈ l, p.1 = q.1 → p.2 = q.2) (k : Nat) (t : Str) :
    l.lookup k = some t ↔ (k, t) ∈ l := by
  induction l with
  | nil => simp
  | cons x l ih =>
    obtain ⟨a, b⟩ := x
    rw [List.lookup_cons]
    by_cases h : k = a
    · subst h
      simp only [beq_self_eq_true, List.mem_cons, Prod.mk.injEq, true_and, Option.some.injEq]
      constructor
      · intro e; exact Or.inl e.symm
      · rintro (e | e)
        · exact e.symm
        · exact hf (k, b) List.mem_cons_self (k, t) (List.mem_cons_of_mem _ e) rfl
    · have hb : (k == a) = false := by simpa using h
      simp only [hb, List.mem_cons, Prod.mk.injEq, h, false_and, false_or]
      exact ih (fun p hp q hq => hf p (List.mem_cons_of_mem _ hp) q (List.mem_cons_of_mem _ hq))

theorem table_functional : ∀ p ∈ kExceptionsAsText, ∀ q ∈ kExceptionsAsText, p.1 = q.1 → p.2 = q.2 := by decide +kernel
theorem table_injective : ∀ p ∈ fatalExceptions, ∀ q ∈ fatalExceptions, p.2 = q.2 → p.1 = q.1 := by decide +kernel
theorem spec_functional : ∀ p ∈ fatalExceptions, ∀ q ∈ fatalExceptions, p.1 = q.1 → p.2 = q.2 := by decide +kernel
theorem table_spec : (∀ p ∈ kExceptionsAsText, p ∈ fatalExceptions) ∧ (∀ p ∈ fatalExceptions, p ∈ kExceptionsAsText) := by
  constructor <;> decide +kernel
theorem spec_names : ∀ p ∈ fatalExceptions, p.2.take 10 = "EXCEPTION_".toList := by decide +kernel

theorem table_mem (k : Nat) (t : Str) : kExceptionsAsText.lookup k = some t ↔ (k, t) ∈ fatalExceptions := by
  rw [lookup_iff table_functional]
  exact ⟨fun h => table_spec.1 _ h, fun h => table_spec.2 _ h⟩

/-- C59: an exception is reported by its name if it is one of the twenty listed ones; any other one as unknown, with its number. -/
theorem C59_text (id : Nat) :
    (∀ t, (id, t) ∈ fatalExceptions → isKnownException id = true ∧ exceptionIdToText id = t) ∧
    ((∀ t, (id, t) ∉ fatalExceptions) → isKnownException id = false ∧ exceptionIdToText id = "UNKNOWN EXCEPTION:".toList ++ decNat id) := by
  constructor
  · intro t h
    have := (table_mem id t).2 h
    simp [isKnownException, exceptionIdToText, this]
  · intro h
    have : kExceptionsAsText.lookup id = none := by
      cases hl : kExceptionsAsText.lookup id with
      | none => rfl
      | some t => exact absurd ((table_mem id t).1 hl) (h t)
    constructor
    · simp [isKnownException, this]
    · simp only [exceptionIdToText, this]
      rfl

theorem text_cases (id : Nat) : (∃ t, (id, t) ∈ fatalExceptions ∧ exceptionIdToText id = t) ∨
    exceptionIdToText id = "UNKNOWN EXCEPTION:".toList ++ decNat id := by
  by_cases h : ∃ t, (id, t) ∈ fatalExceptions
  · obtain ⟨t, ht⟩ := h
    exact Or.inl ⟨t, ht, ((C59_text id).1 t ht).2⟩
  · exact Or.inr ((C59_text id).2 (fun t ht => h ⟨t, ht⟩)).2

theorem unknown_head (s : Str) : ("UNKNOWN EXCEPTION:".toList ++ s).take 10 = "UNKNOWN EX".toList := rfl

/-- C59: the text tells which exception it was. -/
theorem C59_text_injective (a b : Nat) (h : exceptionIdToText a = exceptionIdToText b) : a = b := by
  have hne : ("EXCEPTION_".toList : Str) ≠ "UNKNOWN EX".toList := by decide
  rcases text_cases a with ⟨t, ht, ea⟩ | ea <;> rcases text_cases b with ⟨u, hu, eb⟩ | eb
  · rw [ea, eb] at h; exact table_injective _ ht _ hu h
  · rw [ea, eb] at h
    have := spec_names _ ht
    rw [show (a, t).2 = t from rfl, h, unknown_head] at this
    exact absurd this.symm hne
  · rw [ea, eb] at h
    have := spec_names _ hu
    rw [show (b, u).2 = u from rfl, ← h, unknown_head] at this
    exact absurd this.symm hne
  · rw [ea, eb] at h
    exact decNat_inj (List.append_cancel_left h)

/-- C59: the vectored handler does nothing at all on an exception that is not listed. -/
theorem C59_ignored (s : WinState) (t code pid : Nat) (h : ∀ x, (code, x) ∉ fatalExceptions) : winVectored s t code pid = s := by
  unfold winVectored
  rw [if_pos ((C59_text code).2 h).1]

/-- C59: on a listed one exactly one fatal message is sent, which names it, and the handlers in force before g3log are back. -/
theorem C59_reported (s : WinState) (t code pid : Nat) (x : Str) (h : (code, x) ∈ fatalExceptions) :
    (winVectored s t code pid).pushed = s.pushed ++ [(FATAL_EXCEPTION, code, "\n***** Vectored Exception Handler: Received fatal exception ".toList ++ x ++
      "\tPID: ".toList ++ decNat pid ++ "\n".toList)] ∧
    (winVectored s t code pid).filter = s.prevFilter ∧ (winVectored s t code pid).block = s.block ∧ (winVectored s t code pid).raised = s.raised ∧
    (winVectored s t code pid).installed = s.installed := by
  have hk := (C59_text code).1 x h
  unfold winVectored
  rw [hk.1]
  simp only [Bool.true_eq_false, if_false]
  refine ⟨?_, rfl, rfl, rfl, rfl⟩
  have : winExitReasonName FATAL_EXCEPTION code = x := by rw [winExitReasonName, if_pos rfl, hk.2]
  simp only [winException, winRestore, this]
  rfl

/-- C59: the same for the last-chance filter, whatever the code. -/
theorem C59_unexpected (s : WinState) (t code pid : Nat) :
    (winUnexpected s t code pid).pushed = s.pushed ++ [(FATAL_EXCEPTION, code, "\n***** Unexpected Exception Handler: Received fatal exception ".toList ++
      exceptionIdToText code ++ "\tPID: ".toList ++ decNat pid ++ "\n".toList)] ∧
    (winUnexpected s t code pid).filter = s.prevFilter ∧ (winUnexpected s t code pid).block = s.block ∧ (winUnexpected s t code pid).raised = s.raised := by
  refine ⟨?_, rfl, rfl, rfl⟩
  have : winExitReasonName FATAL_EXCEPTION code = exceptionIdToText code := by rw [winExitReasonName, if_pos rfl]
  simp only [winUnexpected, winException, winRestore, this]
  rfl

/-- C59: at the end of fatal processing an exception releases the thread that reported it and raises no signal; anything else raises its
signal and releases nobody. -/
theorem C59_exit (s : WinState) (t : Nat) (level : Level) (id : Nat) :
    (level.value = FATAL_EXCEPTION.value → (winExit s t level id).block = false ∧ (winExit s t level id).raised = s.raised) ∧
    (level.value ≠ FATAL_EXCEPTION.value → (winExit s t level id).block = s.block ∧ (winExit s t level id).raised = some id) := by
  constructor
  · intro h; simp [winExit, h, winRestore]
  · intro h
    have : ¬ FATAL_EXCEPTION.value = level.value := fun e => h e.symm
    simp [winExit, this, winRestore]

/-- C59: reasons of signals: the five names, any other number as unknown; different signals never share a text. -/
theorem C59_signal_names (level : Level) (h : level.value ≠ FATAL_EXCEPTION.value) :
    winExitReasonName level 22 = "SIGABRT".toList ∧ winExitReasonName level 8 = "SIGFPE".toList ∧ winExitReasonName level 11 = "SIGSEGV".toList ∧
    winExitReasonName level 4 = "SIGILL".toList ∧ winExitReasonName level 15 = "SIGTERM".toList ∧
    (∀ n, n ∉ [22, 8, 11, 4, 15] → winExitReasonName level n = "UNKNOWN SIGNAL(".toList ++ decNat n ++ ")".toList) := by
  refine ⟨?_, ?_, ?_, ?_, ?_, ?_⟩
  · simp [winExitReasonName, h, WIN_SIGABRT]
  · simp [winExitReasonName, h, WIN_SIGABRT]
  · simp [winExitReasonName, h, WIN_SIGABRT]
  · simp [winExitReasonName, h, WIN_SIGABRT]
  · simp [winExitReasonName, h, WIN_SIGABRT]
  · intro n hn
    simp only [List.mem_cons, List.not_mem_nil, or_false, not_or] at hn
    simp only [winExitReasonName, WIN_SIGABRT, h, hn, if_false]

/-- C59: one of the five signals sends one fatal message, with its name, its number and the process; no handler changes. -/
theorem C59_signal (s : WinState) (n pid : Nat) (x : Str)
    (h : (n, x) ∈ [(22, "SIGABRT".toList), (8, "SIGFPE".toList), (11, "SIGSEGV".toList), (4, "SIGILL".toList), (15, "SIGTERM".toList)]) :
    (winSignal s n pid).pushed = s.pushed ++ [(FATAL_SIGNAL, n, "\n***** Received fatal signal ".toList ++ x ++ "(".toList ++ decNat n ++
      ")\tPID: ".toList ++ decNat pid ++ "\n".toList)] ∧
    (winSignal s n pid).filter = s.filter ∧ (winSignal s n pid).vectored = s.vectored ∧ (winSignal s n pid).sig = s.sig ∧
    (winSignal s n pid).raised = s.raised := by
  obtain ⟨h1, h2, h3, h4, h5, _⟩ := C59_signal_names FATAL_SIGNAL (by decide)
  have hx : winExitReasonName FATAL_SIGNAL n = x := by
    simp only [List.mem_cons, Prod.mk.injEq, List.not_mem_nil, or_false] at h
    rcases h with ⟨rfl, rfl⟩ | ⟨rfl, rfl⟩ | ⟨rfl, rfl⟩ | ⟨rfl, rfl⟩ | ⟨rfl, rfl⟩
    · exact h1
    · exact h2
    · exact h3
    · exact h4
    · exact h5
  refine ⟨?_, rfl, rfl, rfl, rfl⟩
  simp only [winSignal, hx]

/-- The hypotheses are met: an access violation, and a C++ exception (0xE06D7363), which is not listed. -/
example : (0xC0000005, "EXCEPTION_ACCESS_VIOLATION".toList) ∈ fatalExceptions := by decide
example : ∀ x, (0xE06D7363, x) ∉ fatalExceptions := by
  intro x h
  have : (0xE06D7363 : Nat) ∈ fatalExceptions.map Prod.fst := List.mem_map.2 ⟨_, h, rfl⟩
  exact absurd this (by decide)

/-! ### C63 -/

theorem setSig_self (sig : Nat → Nat → Disp) (t n : Nat) (d : Disp) : setSig sig t n d t n = d := by simp [setSig]

theorem foldl_sig (d : Disp) (t : Nat) (l : List Nat) : ∀ (sig : Nat → Nat → Disp) (t' n' : Nat),
    (l.foldl (fun g n => setSig g t n d) sig) t' n' = if n' ∈ l ∧ (t' = t ∨ processWide n' = true) then d else sig t' n' := by
  induction l with
  | nil => intro sig t' n'; simp
  | cons a l ih =>
    intro sig t' n'
    rw [List.foldl_cons, ih]
    by_cases h1 : n' ∈ l
    · by_cases h2 : t' = t ∨ processWide n' = true
      · simp [h1, h2]
      · simp only [h1, true_and, h2, if_false, List.mem_cons, or_true, setSig]
        rw [if_neg]
        rintro ⟨rfl, h⟩
        exact h2 h
    · by_cases h2 : n' = a
      · subst h2
        simp [h1, setSig]
      · simp [h1, h2, setSig]

/-- Operations that put the handlers back: all except LOG calls, the installation, signals (it is the worker that restores then), and exceptions that are not listed. -/
def restores : WinOp → Bool
  | .log _ => false
  | .installCrash _ => false
  | .signal _ _ => false
  | .vectored _ c _ => isKnownException c
  | .unexpected _ _ _ => true
  | .exit _ _ _ => true

/-- The thread logs or installs the handlers. -/
def guards (t : Nat) : WinOp → Bool
  | .log u => decide (u = t)
  | .installCrash u => decide (u = t)
  | _ => false

theorem install_sig (s : WinState) (t t' n : Nat) : (winInstallThread s t).sig t' n =
    if s.installed t = false ∧ n ∈ winSignals ∧ (t' = t ∨ processWide n = true) then .g3log else s.sig t' n := by
  unfold winInstallThread
  by_cases h : s.installed t = true
  · simp [h]
  · simp only [Bool.not_eq_true] at h
    simp only [h, Bool.false_eq_true, if_false, true_and]
    exact foldl_sig .g3log t winSignals s.sig t' n

theorem install_flag (s : WinState) (t t' : Nat) : (winInstallThread s t).installed t' = (decide (t' = t) || s.installed t') := by
  unfold winInstallThread
  by_cases h : s.installed t = true
  · simp only [h, if_true]
    by_cases e : t' = t
    · subst e; simp [h]
    · simp [e]
  · simp [h]

/-- A thread with its flag set has the handlers. -/
def Guarded (s : WinState) : Prop := ∀ t, s.installed t = true → ∀ n ∈ winSignals, s.sig t n = .g3log

theorem guarded_install {s : WinState} (h : Guarded s) (t : Nat) : Guarded (winInstallThread s t) := by
  intro t' ht n hn
  rw [install_sig]
  split
  · rfl
  · next hc =>
    rw [install_flag] at ht
    by_cases e : t' = t
    · subst e
      cases hi : s.installed t' with
      | true => exact h t' hi n hn
      | false => exact absurd ⟨hi, hn, Or.inl rfl⟩ hc
    · simp only [e, decide_false, Bool.false_or] at ht
      exact h t' ht n hn

theorem guarded_step {s : WinState} (h : Guarded s) (op : WinOp) (hr : restores op = false) : Guarded (winStep s op) ∧
    ∀ t, (winStep s op).installed t = (guards t op || s.installed t) := by
  cases op with
  | log u =>
    refine ⟨guarded_install h u, fun t => ?_⟩
    have := install_flag s u t
    simp only [winStep, this, guards]
    congr 1
    simp [eq_comm]
  | installCrash u =>
    refine ⟨fun t ht n hn => guarded_install h u t ht n hn, fun t => ?_⟩
    have := install_flag s u t
    simp only [winStep, winInstallCrash, this, guards]
    congr 1
    simp [eq_comm]
  | signal u p => exact ⟨h, fun t => by simp [guards, winStep, winSignal]⟩
  | vectored u c p =>
    have : winStep s (.vectored u c p) = s := by
      simp only [winStep, winVectored]
      rw [if_pos]
      exact hr
    rw [this]
    exact ⟨h, fun t => by simp [guards]⟩
  | unexpected u c p => cases hr
  | exit u l id => cases hr

/-- C63 as far as it holds: as long as nothing has put the handlers back, every thread that has logged (or installed the crash handler)
has all five signals handled by g3log. -/
theorem C63_thread_partial (f : WinFilter) (sig : Nat → Nat → Disp) (ops : List WinOp) (hr : ∀ op ∈ ops, restores op = false) (t : Nat)
    (ht : ∃ op ∈ ops, guards t op = true) : ∀ n ∈ [15, 22, 8, 11, 4], (winRun (winStart f sig) ops).sig t n = .g3log := by
  have main : ∀ (ops : List WinOp) (s : WinState), Guarded s → (∀ op ∈ ops, restores op = false) →
      Guarded (winRun s ops) ∧ ((s.installed t = true ∨ ∃ op ∈ ops, guards t op = true) → (winRun s ops).installed t = true) := by
    intro ops
    induction ops with
    | nil => intro s h _; exact ⟨h, fun h => by simpa [winRun] using h⟩
    | cons op ops ih =>
      intro s h hr
      obtain ⟨h1, h2⟩ := guarded_step h op (hr op List.mem_cons_self)
      obtain ⟨h3, h4⟩ := ih (winStep s op) h1 (fun o ho => hr o (List.mem_cons_of_mem _ ho))
      refine ⟨h3, fun h => h4 ?_⟩
      rcases h with h | ⟨o, ho, hg⟩
      · left; rw [h2, h, Bool.or_true]
      · rcases List.mem_cons.1 ho with rfl | ho
        · left; rw [h2, hg, Bool.true_or]
        · right; exact ⟨o, ho, hg⟩
  have hs : Guarded (winStart f sig) := fun t h => by cases h
  obtain ⟨h1, h2⟩ := main ops _ hs hr
  exact h1 t (h2 (Or.inr ht))

/-- C63 fails: once the handlers have been put back, a LOG call of a thread that had them does not install them again. -/
theorem C63_negation : ∃ (ops : List WinOp), (∃ l1 l2, ops = l1 ++ l2 ++ [.log 0] ∧ .log 0 ∈ l1) ∧
    ∀ (f : WinFilter) (sig : Nat → Nat → Disp), ∀ n ∈ [15, 22, 8, 11, 4], (winRun (winStart f sig) ops).sig 0 n = .dfl := by
  refine ⟨[.log 0, .exit 0 FATAL_EXCEPTION 0xC0000005, .log 0], ⟨[.log 0], [.exit 0 FATAL_EXCEPTION 0xC0000005], rfl, by simp⟩, ?_⟩
  intro f sig n hn
  simp only [List.mem_cons, List.not_mem_nil, or_false] at hn
  rcases hn with rfl | rfl | rfl | rfl | rfl <;> rfl

example : (∀ op ∈ [WinOp.log 1, .vectored 0 5 7, .log 0], restores op = false) ∧ ∃ op ∈ [WinOp.log 1, .vectored 0 5 7, .log 0], guards 0 op = true := by
  decide

/-! ### C64 -/

/-- C64 as far as it holds: installed once, restoring brings back the filter that was there before, removes the vectored handler, and the
signals of the thread have the default action. -/
theorem C64_restore_partial (s : WinState) (t : Nat) (hv : s.vectored = []) :
    (winRestore (winInstallCrash s t) t).filter = s.filter ∧ (winRestore (winInstallCrash s t) t).vectored = [] ∧
    ∀ n ∈ [15, 22, 8, 11, 4], (winRestore (winInstallCrash s t) t).sig t n = .dfl := by
  have hf : (winInstallThread s t).filter = s.filter ∧ (winInstallThread s t).vectored = s.vectored := by
    unfold winInstallThread; split <;> exact ⟨rfl, rfl⟩
  refine ⟨hf.1, ?_, ?_⟩
  · simp [winRestore, winInstallCrash, hf.2, hv]
  · intro n hn
    have hn' : n ∈ [WIN_SIGABRT, 8, 11, 4, 15] := by
      simp only [List.mem_cons, List.not_mem_nil, or_false, WIN_SIGABRT] at hn ⊢
      omega
    simp only [winRestore]
    rw [foldl_sig, if_pos ⟨hn', Or.inl rfl⟩]

/-- C64 fails: installed twice (by the program and by initializeLogging), restoring leaves the filter and a vectored handler of g3log in
place, whatever was there before. -/
theorem C64_negation (s : WinState) (t : Nat) (hv : s.vectored = []) :
    (winRestore (winInstallCrash (winInstallCrash s t) t) t).filter = .g3log ∧
    (winRestore (winInstallCrash (winInstallCrash s t) t) t).vectored = [s.nextHandle] := by
  have hf : (winInstallThread s t).nextHandle = s.nextHandle ∧ (winInstallThread s t).vectored = s.vectored := by
    unfold winInstallThread; split <;> exact ⟨rfl, rfl⟩
  have hi : (winInstallCrash s t).installed t = true := by
    have := install_flag s t t
    simp only [winInstallCrash, this]; simp
  have h2 : winInstallThread (winInstallCrash s t) t = winInstallCrash s t := by rw [winInstallThread, if_pos hi]
  have key : ∀ u : WinState, winInstallThread u t = u → u.filter = .g3log → u.vectored = [s.nextHandle] → u.nextHandle = s.nextHandle + 1 →
      (winRestore (winInstallCrash u t) t).filter = .g3log ∧ (winRestore (winInstallCrash u t) t).vectored = [s.nextHandle] := by
    intro u h1 h3 h4 h5
    constructor
    · simp only [winRestore, winInstallCrash, h1, h3]
    · simp [winRestore, winInstallCrash, h1, h4, h5]
  refine key _ h2 rfl ?_ ?_
  · show (winInstallThread s t).vectored ++ [(winInstallThread s t).nextHandle] = _
    rw [hf.1, hf.2, hv]; rfl
  · show (winInstallThread s t).nextHandle + 1 = _
    rw [hf.1]

example : (winStart (.user 3) (fun _ _ => .dfl)).vectored = [] := rfl

/-! ### C65 -/

/-- C65 as far as it holds: on 64-bit and ARM processors the walk starts from the registers of the given context. -/
theorem C65_start_partial (a : WinArch) (r : WinRegs) (h : a ≠ .x86) :
    (startFrame a r).addrPC = r.pc ∧ (startFrame a r).addrFrame = r.fp ∧ (startFrame a r).addrStack = r.sp := by
  cases a <;> first | exact ⟨rfl, rfl, rfl⟩ | exact absurd rfl h

/-- C65 fails on 32-bit x86: the program counter is taken from the stack pointer, frame and stack address are 0, whatever the context. -/
theorem C65_negation (r : WinRegs) : startFrame .x86 r = { addrPC := r.sp, addrFrame := 0, addrStack := 0 } ∧
    ((startFrame .x86 r).addrPC = r.pc ∧ (startFrame .x86 r).addrFrame = r.fp ∧ (startFrame .x86 r).addrStack = r.sp ↔ r.pc = 0 ∧ r.fp = 0 ∧ r.sp = 0) := by
  refine ⟨rfl, ?_⟩
  show r.sp = r.pc ∧ 0 = r.fp ∧ 0 = r.sp ↔ _
  omega

example : WinArch.x64 ≠ .x86 := by decide

/-! ### C66 -/

/-- The dumps made one after the other on a thread: whether the symbols could be loaded, and the addresses found. -/
def dumpSeq (sym : Nat → SymInfo) : List (Bool × List Nat) → Nat → List Str
  | [], _ => []
  | (i, w) :: r, c => (winStackdump sym i w c).1 :: dumpSeq sym r (winStackdump sym i w c).2

def recursiveNotice : Str := "\n\n\n***** Recursive crash detected, cannot continue stackdump traversal. *****\n\n\n".toList
def symbolError : Str := "Error: Cannot call SymInitialize(...) for retrieving symbols in stack".toList

theorem notice_eq : "\n\n\n***** Recursive crash detected".toList ++ ", cannot continue stackdump traversal. *****\n\n\n".toList = recursiveNotice := by
  decide +kernel

theorem dump_hi (sym : Nat → SymInfo) (i : Bool) (w : List Nat) (c : Nat) (h : 2 ≤ c) : winStackdump sym i w c = (recursiveNotice, c) := by
  rw [winStackdump, if_pos h, notice_eq]

theorem dump_lo (sym : Nat → SymInfo) (i : Bool) (w : List Nat) (c : Nat) (h : c < 2) :
    winStackdump sym i w c = (if i then convertFramesFrom sym 0 (walkFrames w 64) else symbolError, c + 1) := by
  rw [winStackdump, if_neg (by omega)]
  cases i
  · exact rfl
  · exact rfl

theorem dumpSeq_get (sym : Nat → SymInfo) (l : List (Bool × List Nat)) : ∀ (c k : Nat) (i : Bool) (w : List Nat), l[k]? = some (i, w) →
    (dumpSeq sym l c)[k]? = some (if 2 ≤ c + k then recursiveNotice else if i then convertFramesFrom sym 0 (walkFrames w 64) else symbolError) := by
  induction l with
  | nil => intro c k i w h; simp at h
  | cons x l ih =>
    intro c k i w h
    obtain ⟨a, b⟩ := x
    cases k with
    | zero =>
      simp only [List.getElem?_cons_zero, Option.some.injEq, Prod.mk.injEq] at h
      obtain ⟨rfl, rfl⟩ := h
      simp only [dumpSeq, List.getElem?_cons_zero, Nat.add_zero]
      by_cases hc : 2 ≤ c
      · rw [dump_hi _ _ _ _ hc, if_pos hc]
      · rw [dump_lo _ _ _ _ (by omega), if_neg hc]
    | succ k =>
      simp only [List.getElem?_cons_succ] at h
      simp only [dumpSeq, List.getElem?_cons_succ]
      rw [ih _ _ _ _ h]
      by_cases hc : 2 ≤ c
      · rw [dump_hi _ _ _ _ hc, if_pos (by omega), if_pos (by omega)]
      · rw [dump_lo _ _ _ _ (by omega)]
        dsimp only
        rw [show c + 1 + k = c + (k + 1) by omega]

/-- What is said about an address. -/
def describe (sym : Nat → SymInfo) (a : Nat) : Str :=
  match (sym a).name, (sym a).line with
  | none, _ => []
  | some n, none => ' ' :: n
  | some n, some (f, k) => '\t' :: f ++ " L: ".toList ++ decNat k ++ ' ' :: n

theorem symbol_line (sym : Nat → SymInfo) (k a : Nat) : getSymbolInformation sym k a = "stack dump [".toList ++ decNat k ++ "]\t".toList ++ describe sym a := by
  unfold getSymbolInformation describe
  cases (sym a).name with
  | none => simp
  | some n =>
    cases (sym a).line with
    | none => simp
    | some l => simp

theorem frames_text (sym : Nat → SymInfo) (l : List Nat) : ∀ k, convertFramesFrom sym k l =
    (dumpLines (describe sym) k (l.takeWhile (fun a => decide (a ≠ 0)))).flatten := by
  induction l with
  | nil => intro k; rfl
  | cons a l ih =>
    intro k
    by_cases h : a = 0
    · subst h; simp [convertFramesFrom, dumpLines]
    · rw [convertFramesFrom, if_neg h, ih, symbol_line]
      have : (a :: l).takeWhile (fun a => decide (a ≠ 0)) = a :: l.takeWhile (fun a => decide (a ≠ 0)) := by
        rw [List.takeWhile_cons, if_pos (by simpa using h)]
      rw [this]
      simp only [dumpLines, List.flatten_cons, List.append_assoc]

theorem takeWhile_zeros (n : Nat) : (List.replicate n 0).takeWhile (fun a => decide (a ≠ 0)) = [] := by
  cases n <;> simp [List.replicate_succ]

theorem takeWhile_walk (w : List Nat) (cap : Nat) : (walkFrames w cap).takeWhile (fun a => decide (a ≠ 0)) = (w.takeWhile (fun a => decide (a ≠ 0))).take cap := by
  unfold walkFrames
  induction w generalizing cap with
  | nil => simp
  | cons a w ih =>
    cases cap with
    | zero => simp
    | succ cap =>
      have h1 : cap + 1 - (a :: w).length = cap - w.length := by simp
      rw [List.take_succ_cons, h1, List.cons_append, List.takeWhile_cons, List.takeWhile_cons]
      split
      · rw [List.take_succ_cons, ih]
      · simp

/-- C67: the first two dumps of a thread list the addresses found, up to the first zero and at most 64, one line each, numbered from 0. -/
theorem C67_dump (sym : Nat → SymInfo) (w : List Nat) (count : Nat) (h : count < 2) :
    (winStackdump sym true w count).1 = (dumpLines (describe sym) 0 ((w.takeWhile (fun a => decide (a ≠ 0))).take 64)).flatten := by
  rw [dump_lo _ _ _ _ h]
  simp only [if_true]
  rw [frames_text, takeWhile_walk]

/-- C67: so there are as many lines as addresses. -/
theorem C67_lines (d : Nat → Str) (k : Nat) (l : List Nat) : (dumpLines d k l).length = l.length ∧
    ∀ i a, l[i]? = some a → (dumpLines d k l)[i]? = some ("stack dump [".toList ++ decNat (k + i) ++ "]\t".toList ++ d a ++ "\n".toList) := by
  induction l generalizing k with
  | nil => simp [dumpLines]
  | cons x l ih =>
    refine ⟨by simp only [dumpLines, List.length_cons, (ih (k + 1)).1], ?_⟩
    intro i a h
    cases i with
    | zero =>
      simp only [List.getElem?_cons_zero, Option.some.injEq] at h
      subst h
      rfl
    | succ i =>
      simp only [List.getElem?_cons_succ] at h
      simp only [dumpLines, List.getElem?_cons_succ]
      rw [(ih (k + 1)).2 i a h]
      rw [show k + 1 + i = k + (i + 1) by omega]

example : (dumpLines (describe (fun a => { name := some "f".toList, line := if a = 7 then some ("a.cpp".toList, 3) else none })) 0
    (([7, 9, 0, 4] : List Nat).takeWhile (fun a => decide (a ≠ 0)))).length = 2 := (C67_lines _ _ _).1

/-- What a thread's dump number k (from 0) is: the third and all later ones are the notice of a recursive crash. -/
theorem C66_exact (sym : Nat → SymInfo) (l : List (Bool × List Nat)) (k : Nat) (i : Bool) (w : List Nat) (h : l[k]? = some (i, w)) :
    (dumpSeq sym l 0)[k]? = some (if 2 ≤ k then recursiveNotice else if i then (dumpLines (describe sym) 0 ((w.takeWhile (fun a => decide (a ≠ 0))).take 64)).flatten
      else symbolError) := by
  rw [dumpSeq_get sym l 0 k i w h]
  simp only [Nat.zero_add, frames_text, takeWhile_walk]

/-- C66 as far as it holds: the notice does not appear in the first two dumps of a thread. -/
theorem C66_notice_partial (sym : Nat → SymInfo) (l : List (Bool × List Nat)) (k : Nat) (hk : k < 2) :
    (dumpSeq sym l 0)[k]? ≠ some recursiveNotice := by
  intro h
  cases hl : l[k]? with
  | none =>
    have hlen : ∀ (l : List (Bool × List Nat)) c, (dumpSeq sym l c).length = l.length := by
      intro l
      induction l with
      | nil => intro c; rfl
      | cons x l ih => intro c; obtain ⟨a, b⟩ := x; simp only [dumpSeq, List.length_cons, ih]
    rw [List.getElem?_eq_none] at h
    · cases h
    · rw [hlen]; exact List.getElem?_eq_none_iff.1 hl
  | some x =>
    obtain ⟨i, w⟩ := x
    rw [C66_exact sym l k i w hl, if_neg (by omega)] at h
    have hr : recursiveNotice.head? = some '\n' := by decide +kernel
    have he : symbolError.head? = some 'E' := by decide +kernel
    have h := Option.some.inj h
    cases i
    · simp only [Bool.false_eq_true, if_false] at h
      rw [h, hr] at he
      cases he
    · simp only [if_true] at h
      cases hw : (w.takeWhile (fun a => decide (a ≠ 0))).take 64 with
      | nil => rw [hw] at h; rw [← h] at hr; cases hr
      | cons a r =>
        rw [hw] at h
        rw [← h] at hr
        cases hr

/-- C66 fails: three dumps made one after the other, none of them inside another, and the last is labelled a recursive crash. -/
theorem C66_negation (sym : Nat → SymInfo) (a b c : Bool × List Nat) : (dumpSeq sym [a, b, c] 0)[2]? = some recursiveNotice := by
  obtain ⟨i, w⟩ := c
  rw [C66_exact sym [a, b, (i, w)] 2 i w rfl, if_pos (Nat.le_refl 2)]

end G3.Props
