import Verif.Model.Signals
import Mathlib.Data.List.Basic
/-
Properties of the signal handling: C09, C43, C44, C45.
-/
namespace G3.Props
open G3

/-- The set-up is clean with respect to the original table `d0`: exactly the signals with a saved
disposition are g3log's, all are in the current set, and what is saved is the original. -/
structure Clean (e : SigEnv) (d0 : Int → Disp) (s : SigState) : Prop where
  taken : ∀ n d, s.saved n = some d → s.disp n = .g3log ∧ d = d0 n ∧ n ∈ s.gSignals ∧ e.accepts n = true
  rest : ∀ n, s.saved n = none → s.disp n = d0 n
  off : e.off = true → ∀ n, s.saved n = none

theorem setAt_same {β : Type} (f : Int → β) (n : Int) (v : β) : setAt f n v n = v := by simp [setAt]
theorem setAt_other {β : Type} (f : Int → β) {n k : Int} (v : β) (h : k ≠ n) : setAt f n v k = f k := by simp [setAt, h]

theorem restore_clean {e : SigEnv} {d0 : Int → Disp} {s : SigState} (h : Clean e d0 s) (n : Int) :
    Clean e d0 (restoreSignalHandler e s n) ∧ (restoreSignalHandler e s n).saved n = none ∧
      (∀ k, s.saved k = none → (restoreSignalHandler e s n).saved k = none) ∧
      (restoreSignalHandler e s n).gSignals = s.gSignals := by
  unfold restoreSignalHandler
  by_cases ho : e.off = true
  · rw [if_pos ho]
    exact ⟨h, h.off ho n, fun k hk => hk, rfl⟩
  · rw [if_neg ho]
    cases hs : s.saved n with
    | none => exact ⟨h, hs, fun k hk => hk, rfl⟩
    | some d =>
      obtain ⟨h1, h2, h3, h4⟩ := h.taken n d hs
      simp only [h4, if_true]
      refine ⟨⟨?_, ?_, fun hh => absurd hh ho⟩, setAt_same _ _ _, ?_, by trivial⟩
      · intro k dk hk
        change setAt s.saved n none k = some dk at hk
        have hne : k ≠ n := by intro he; subst he; rw [setAt_same] at hk; cases hk
        rw [setAt_other _ _ hne] at hk
        obtain ⟨a, b, c, d⟩ := h.taken k dk hk
        exact ⟨by show setAt _ _ _ _ = _; rw [setAt_other _ _ hne]; exact a, b, c, d⟩
      · intro k hk
        change setAt s.saved n none k = none at hk
        show setAt s.disp n d k = _
        by_cases hne : k = n
        · subst hne; rw [setAt_same]; exact h2
        · rw [setAt_other _ _ hne]
          rw [setAt_other _ _ hne] at hk
          exact h.rest k hk
      · intro k hk
        show setAt _ _ _ _ = _
        by_cases hne : k = n
        · subst hne; rw [setAt_same]
        · rw [setAt_other _ _ hne]; exact hk

theorem restore_fold {e : SigEnv} {d0 : Int → Disp} (l : List Int) {s : SigState} (h : Clean e d0 s) :
    Clean e d0 (l.foldl (restoreSignalHandler e) s) ∧
      (∀ n ∈ l, (l.foldl (restoreSignalHandler e) s).saved n = none) ∧
      (∀ n, s.saved n = none → (l.foldl (restoreSignalHandler e) s).saved n = none) ∧
      (l.foldl (restoreSignalHandler e) s).gSignals = s.gSignals := by
  induction l generalizing s with
  | nil => exact ⟨h, by simp, fun n hn => hn, rfl⟩
  | cons x l ih =>
    obtain ⟨h1, h2, h3, h4⟩ := restore_clean h x
    obtain ⟨i1, i2, i3, i4⟩ := ih h1
    refine ⟨i1, ?_, fun n hn => i3 n (h3 n hn), by rw [List.foldl_cons, i4, h4]⟩
    intro n hn
    rcases List.mem_cons.mp hn with rfl | hn
    · exact i3 _ h2
    · exact i2 n hn

/-- After restoring the current set everything is as it was originally. -/
theorem restoreAll_clean {e : SigEnv} {d0 : Int → Disp} {s : SigState} (h : Clean e d0 s) :
    (restoreAll e s).disp = d0 ∧ (∀ n, (restoreAll e s).saved n = none) ∧ (restoreAll e s).gSignals = s.gSignals := by
  obtain ⟨h1, h2, h3, h4⟩ := restore_fold s.gSignals h
  have hall : ∀ n, (restoreAll e s).saved n = none := by
    intro n
    cases hs : s.saved n with
    | none => exact h3 n hs
    | some d => exact h2 n (h.taken n d hs).2.2.1
  exact ⟨funext fun n => h1.rest n (hall n), hall, h4⟩

theorem install_fold {e : SigEnv} {d0 : Int → Disp} (l : List Int) (hn : l.Nodup) {s : SigState}
    (hs : ∀ n ∈ l, s.saved n = none) (hd : ∀ n ∈ l, s.disp n = d0 n) :
    (∀ n, (l.foldl (installOne e) s).disp n = if n ∈ l ∧ e.accepts n = true then .g3log else s.disp n) ∧
    (∀ n, (l.foldl (installOne e) s).saved n = if n ∈ l ∧ e.accepts n = true then some (d0 n) else s.saved n) ∧
    (l.foldl (installOne e) s).gSignals = s.gSignals := by
  induction l generalizing s with
  | nil => simp
  | cons x l ih =>
    obtain ⟨hx, hl⟩ := List.nodup_cons.mp hn
    have hone : ∀ n, n ≠ x → (installOne e s x).disp n = s.disp n ∧ (installOne e s x).saved n = s.saved n := by
      intro n hne
      unfold installOne
      split
      · exact ⟨setAt_other _ _ hne, setAt_other _ _ hne⟩
      · exact ⟨rfl, rfl⟩
    have hg : (installOne e s x).gSignals = s.gSignals := by unfold installOne; split <;> rfl
    have hmem : ∀ n ∈ l, n ≠ x := fun n hnl he => hx (he ▸ hnl)
    obtain ⟨i1, i2, i3⟩ := ih hl (s := installOne e s x)
      (fun n hnl => by rw [(hone n (hmem n hnl)).2]; exact hs n (List.mem_cons_of_mem _ hnl))
      (fun n hnl => by rw [(hone n (hmem n hnl)).1]; exact hd n (List.mem_cons_of_mem _ hnl))
    rw [List.foldl_cons]
    refine ⟨?_, ?_, by rw [i3, hg]⟩
    · intro n
      rw [i1]
      by_cases hne : n = x
      · subst hne
        have : ¬ (n ∈ l ∧ e.accepts n = true) := fun hh => hx hh.1
        rw [if_neg this]
        unfold installOne
        by_cases ha : e.accepts n = true
        · simp [ha, setAt]
        · simp [ha]
      · rw [(hone n hne).1]; simp [hne]
    · intro n
      rw [i2]
      by_cases hne : n = x
      · subst hne
        have : ¬ (n ∈ l ∧ e.accepts n = true) := fun hh => hx hh.1
        rw [if_neg this]
        unfold installOne
        by_cases ha : e.accepts n = true
        · simp [ha, setAt, hd n (by simp)]
        · simp [ha]
      · rw [(hone n hne).2]; simp [hne]

theorem install_clean {e : SigEnv} {d0 : Int → Disp} {s : SigState} (hd : s.disp = d0) (hs : ∀ n, s.saved n = none)
    (hn : s.gSignals.Nodup) : Clean e d0 (installSignalHandler e s) := by
  unfold installSignalHandler
  split
  · exact ⟨fun n d h => absurd (hs n) (by rw [h]; simp), fun n _ => by rw [hd], fun _ => hs⟩
  · obtain ⟨h1, h2, h3⟩ := install_fold (e := e) (d0 := d0) s.gSignals hn (fun n _ => hs n) (fun n _ => by rw [hd])
    refine ⟨?_, ?_, fun hh => absurd hh (by assumption)⟩
    · intro n d h
      rw [h2] at h
      split at h
      · rename_i hc
        cases h
        exact ⟨by rw [h1, if_pos hc], rfl, by rw [h3]; exact hc.1, hc.2⟩
      · rw [hs] at h; cases h
    · intro n h
      rw [h2] at h
      split at h
      · cases h
      · rename_i hc; rw [h1, if_neg hc, hd]

/-- What a program may do to the signal set-up after (or instead of) `initializeLogging`. -/
inductive SigOp
  | override (signals : List Int)
  | restore (n : Int)
  | toDefault

/-- The effect of such a call. -/
def sigDo (e : SigEnv) (s : SigState) : SigOp → SigState
  | .override l => overrideSetupSignals e s l
  | .restore n => restoreSignalHandler e s n
  | .toDefault => restoreFatalHandlingToDefault e s

/-- The keys of a map are distinct. -/
def SigOp.ok : SigOp → Prop
  | .override l => l.Nodup
  | _ => True

theorem override_clean {e : SigEnv} {d0 : Int → Disp} {s : SigState} (h : Clean e d0 s) (l : List Int) (hl : l.Nodup) :
    Clean e d0 (overrideSetupSignals e s l) := by
  unfold overrideSetupSignals
  obtain ⟨h1, h2, h3⟩ := restoreAll_clean h
  exact install_clean h1 h2 hl

theorem sigDo_clean {e : SigEnv} {d0 : Int → Disp} {s : SigState} (h : Clean e d0 s) (op : SigOp) (hop : op.ok) :
    Clean e d0 (sigDo e s op) := by
  cases op with
  | override l => exact override_clean h l hop
  | restore n => exact (restore_clean h n).1
  | toDefault =>
    show Clean e d0 (restoreFatalHandlingToDefault e s)
    unfold restoreFatalHandlingToDefault
    split
    · exact h
    · exact override_clean h _ (by decide)

theorem run_clean {e : SigEnv} {d0 : Int → Disp} (ops : List SigOp) {s : SigState} (h : Clean e d0 s)
    (hops : ∀ op ∈ ops, op.ok) : Clean e d0 (ops.foldl (sigDo e) s) := by
  induction ops generalizing s with
  | nil => exact h
  | cons op ops ih =>
    exact ih (sigDo_clean h op (hops op (by simp))) (fun o ho => hops o (List.mem_cons_of_mem _ ho))

theorem start_clean (e : SigEnv) (d0 : Int → Disp) : Clean e d0 (SigState.start d0) :=
  ⟨fun _ _ h => (nomatch h), fun _ _ => rfl, fun _ _ => rfl⟩

/-- A set-up in which `initializeLogging` has run (it installs the handlers, once) before anything else, or has
not run at all; then any sequence of calls. -/
def Orderly (e : SigEnv) (d0 : Int → Disp) (s : SigState) : Prop :=
  ∃ (first : Bool) (ops : List SigOp), (∀ op ∈ ops, op.ok) ∧
    s = ops.foldl (sigDo e) (if first then installSignalHandler e (SigState.start d0) else SigState.start d0)

theorem Orderly.clean {e : SigEnv} {d0 : Int → Disp} {s : SigState} (h : Orderly e d0 s) : Clean e d0 s := by
  obtain ⟨first, ops, hops, rfl⟩ := h
  apply run_clean ops _ hops
  cases first
  · exact start_clean e d0
  · exact install_clean rfl (fun _ => rfl) (by show kSignals.Nodup; decide)

/-! ### C43 -/

/-- C43: after any orderly history, `overrideSetupSignals(S)` leaves exactly the signals of `S` (that the system
lets anyone catch) with g3log, and every other signal with its original disposition. -/
theorem C43_override (e : SigEnv) (d0 : Int → Disp) (s : SigState) (h : Orderly e d0 s) (ho : e.off = false)
    (S : List Int) (hS : S.Nodup) (n : Int) :
    (overrideSetupSignals e s S).disp n = if n ∈ S ∧ e.accepts n = true then .g3log else d0 n := by
  obtain ⟨h1, h2, h3⟩ := restoreAll_clean h.clean
  unfold overrideSetupSignals installSignalHandler
  rw [ho]
  simp only [Bool.false_eq_true, if_false]
  rw [(install_fold (e := e) (d0 := d0) S hS (s := { restoreAll e s with gSignals := S }) (fun n _ => h2 n)
    (fun n _ => by show (restoreAll e s).disp n = _; rw [h1])).1]
  show (if _ then _ else (restoreAll e s).disp n) = _
  rw [h1]

/-- C43: `initializeLogging` at program start takes exactly the five default signals. -/
theorem C43_init (e : SigEnv) (d0 : Int → Disp) (ho : e.off = false) (n : Int) :
    (installSignalHandler e (SigState.start d0)).disp n =
      if (n = 4 ∨ n = 6 ∨ n = 8 ∨ n = 11 ∨ n = 15) ∧ e.accepts n = true then .g3log else d0 n := by
  unfold installSignalHandler
  rw [ho]
  simp only [Bool.false_eq_true, if_false]
  show (kSignals.foldl (installOne e) (SigState.start d0)).disp n = _
  rw [(install_fold (e := e) (d0 := d0) _ (by decide : kSignals.Nodup) (s := SigState.start d0) (fun _ _ => rfl) (fun _ _ => rfl)).1]
  have : n ∈ kSignals ↔ (n = 4 ∨ n = 6 ∨ n = 8 ∨ n = 11 ∨ n = 15) := by
    simp [kSignals, SIGILL, SIGABRT, SIGFPE, SIGSEGV, SIGTERM]
  simp only [this]
  rfl

/-- C43: after any orderly history, `restoreFatalHandlingToDefault` leaves exactly the five default signals with g3log, all others with their
original disposition. -/
theorem C43_to_default (e : SigEnv) (d0 : Int → Disp) (s : SigState) (h : Orderly e d0 s) (ho : e.off = false) (n : Int) :
    (restoreFatalHandlingToDefault e s).disp n =
      if (n = 4 ∨ n = 6 ∨ n = 8 ∨ n = 11 ∨ n = 15) ∧ e.accepts n = true then .g3log else d0 n := by
  unfold restoreFatalHandlingToDefault
  rw [ho]
  simp only [Bool.false_eq_true, if_false]
  rw [C43_override e d0 s h ho kSignals (by decide) n]
  have : n ∈ kSignals ↔ (n = 4 ∨ n = 6 ∨ n = 8 ∨ n = 11 ∨ n = 15) := by
    simp [kSignals, SIGILL, SIGABRT, SIGFPE, SIGSEGV, SIGTERM]
  simp only [this]

/-- C43: restoring one signal gives it its original disposition and touches no other. -/
theorem C43_restore_one (e : SigEnv) (d0 : Int → Disp) (s : SigState) (h : Orderly e d0 s) (n : Int) :
    (restoreSignalHandler e s n).disp n = d0 n ∧ ∀ k, k ≠ n → (restoreSignalHandler e s n).disp k = s.disp k := by
  obtain ⟨h1, h2, _⟩ := restore_clean h.clean n
  refine ⟨h1.rest n h2, ?_⟩
  intro k hk
  unfold restoreSignalHandler
  split
  · rfl
  · split
    · rfl
    · show (if _ then setAt _ _ _ else _) k = _
      split
      · exact setAt_other _ _ hk
      · rfl

/-- C43: choosing the empty set, or restoring the whole current set, brings everything back. -/
theorem C43_restore_all (e : SigEnv) (d0 : Int → Disp) (s : SigState) (h : Orderly e d0 s) :
    (restoreAll e s).disp = d0 ∧ (overrideSetupSignals e s []).disp = d0 := by
  obtain ⟨h1, h2, h3⟩ := restoreAll_clean h.clean
  refine ⟨h1, ?_⟩
  unfold overrideSetupSignals installSignalHandler
  split <;> exact h1

/-- C43: builds without signal handling never touch any signal. -/
theorem C43_off (e : SigEnv) (d0 : Int → Disp) (s : SigState) (h : Orderly e d0 s) (ho : e.off = true) : s.disp = d0 :=
  funext fun n => h.clean.rest n (h.clean.off ho n)

/-- C43: at any time a signal is either g3log's or has its original disposition. -/
theorem C43_nothing_else (e : SigEnv) (d0 : Int → Disp) (s : SigState) (h : Orderly e d0 s) (n : Int) :
    s.disp n = .g3log ∨ s.disp n = d0 n := by
  cases hs : s.saved n with
  | none => exact Or.inr (h.clean.rest n hs)
  | some d => exact Or.inl (h.clean.taken n d hs).1

/-- An orderly history with overlapping sets. -/
example (e : SigEnv) (d0 : Int → Disp) : Orderly e d0 (overrideSetupSignals e
    (overrideSetupSignals e (installSignalHandler e (SigState.start d0)) [11, 2]) [2, 6]) :=
  ⟨true, [.override [11, 2], .override [2, 6]], by
    intro op hop
    simp only [List.mem_cons, List.not_mem_nil, or_false] at hop
    rcases hop with rfl | rfl <;> (show List.Nodup _; decide), rfl⟩

/-! ### C09 -/

/-- How the process should end: by the original disposition of the signal. -/
def ending (r : RaiseEnv) (d : Disp) (n : Int) : End :=
  match d with
  | .dfl => if r.dflEnds n then .killed n else .exited n
  | .user h => if r.returns h then .exited n else .inHandler h n
  | _ => .exited n

/-- C09: after an orderly set-up (any sequence of override/restore calls), the fatal exit restores all
original dispositions and raises exactly the recorded signal; if the raise returns, the process exits
with that number. `d0` must be free of g3log's own handler, as at program start. -/
theorem C09_exit (e : SigEnv) (r : RaiseEnv) (d0 : Int → Disp) (hd : ∀ n, d0 n ≠ .g3log) (p : Proc)
    (h : Orderly e d0 p.sig) (n : Int) :
    (exitWithDefaultSignalHandler e r p n).1 = ending r (d0 n) n ∧
    (exitWithDefaultSignalHandler e r p n).2.sig.disp = d0 := by
  obtain ⟨h1, h2, h3⟩ := restoreAll_clean h.clean
  unfold exitWithDefaultSignalHandler ending
  simp only [h1]
  cases hn : d0 n with
  | dfl => simp only; split <;> exact ⟨rfl, h1⟩
  | ign => exact ⟨rfl, h1⟩
  | g3log => exact absurd hn (hd n)
  | user u => simp only; split <;> exact ⟨rfl, h1⟩

/-- C09: threads waiting for the process to end are released only when the process goes on to `exit`. -/
theorem C09_release (e : SigEnv) (r : RaiseEnv) (d0 : Int → Disp) (hd : ∀ n, d0 n ≠ .g3log) (p : Proc)
    (hb : p.block = true) (h : Orderly e d0 p.sig) (n : Int) :
    (exitWithDefaultSignalHandler e r p n).2.block = false ↔ (exitWithDefaultSignalHandler e r p n).1 = .exited n := by
  obtain ⟨h1, h2, h3⟩ := restoreAll_clean h.clean
  unfold exitWithDefaultSignalHandler
  simp only [h1]
  cases hn : d0 n with
  | dfl => simp only; split <;> simp [hb]
  | ign => simp
  | g3log => exact absurd hn (hd n)
  | user u => simp only; split <;> simp [hb]

/-- C09: with the usual default disposition the process dies by the very signal that caused the event. -/
theorem C09_default (e : SigEnv) (r : RaiseEnv) (d0 : Int → Disp) (hd : ∀ n, d0 n ≠ .g3log) (p : Proc)
    (h : Orderly e d0 p.sig) (n : Int) (hn : d0 n = .dfl) (hr : r.dflEnds n = true) :
    (exitWithDefaultSignalHandler e r p n).1 = .killed n := by
  rw [(C09_exit e r d0 hd p h n).1, hn]
  simp [ending, hr]

example : ∃ p : Proc, Orderly ⟨false, fun _ => true⟩ (fun _ => .dfl) p.sig ∧ p.sig.disp 6 = .g3log :=
  ⟨⟨installSignalHandler ⟨false, fun _ => true⟩ (SigState.start fun _ => .dfl), 0, true⟩, ⟨true, [], by simp, rfl⟩, by decide⟩

/-! ### C44 -/

/-- C44 (partial: the handlers are installed once, by `initializeLogging`, before anything else; then any
calls): the end of a fatal event does not depend on the set-up calls made. -/
theorem C44_order_partial (e : SigEnv) (r : RaiseEnv) (d0 : Int → Disp) (hd : ∀ n, d0 n ≠ .g3log)
    (ops ops' : List SigOp) (hops : ∀ op ∈ ops, op.ok) (hops' : ∀ op ∈ ops', op.ok) (k k' : Nat) (b b' : Bool) (n : Int) :
    (exitWithDefaultSignalHandler e r ⟨ops.foldl (sigDo e) (installSignalHandler e (SigState.start d0)), k, b⟩ n).1 =
    (exitWithDefaultSignalHandler e r ⟨ops'.foldl (sigDo e) (installSignalHandler e (SigState.start d0)), k', b'⟩ n).1 := by
  rw [(C09_exit e r d0 hd _ ⟨true, ops, hops, rfl⟩ n).1, (C09_exit e r d0 hd _ ⟨true, ops', hops', rfl⟩ n).1]

/-- The set-up "choose the signals, then initializeLogging": the handlers are installed twice. -/
def overrideThenInit (e : SigEnv) (d0 : Int → Disp) (S : List Int) : SigState :=
  installSignalHandler e (overrideSetupSignals e (SigState.start d0) S)

theorem overrideThenInit_saved (e : SigEnv) (d0 : Int → Disp) (S : List Int) (hS : S.Nodup) (ho : e.off = false) (n : Int) :
    (overrideThenInit e d0 S).saved n = (if n ∈ S ∧ e.accepts n = true then some .g3log else none) ∧
    (overrideThenInit e d0 S).disp n = (if n ∈ S ∧ e.accepts n = true then .g3log else d0 n) ∧
    (overrideThenInit e d0 S).gSignals = S := by
  obtain ⟨r1, r2, r3⟩ := restoreAll_clean (start_clean e d0)
  obtain ⟨a1, a2, a3⟩ := install_fold (e := e) (d0 := d0) S hS (s := { restoreAll e (SigState.start d0) with gSignals := S })
    (fun n _ => r2 n) (fun n _ => by show (restoreAll e _).disp n = _; rw [r1])
  have hov : overrideSetupSignals e (SigState.start d0) S =
      S.foldl (installOne e) { restoreAll e (SigState.start d0) with gSignals := S } := by
    unfold overrideSetupSignals installSignalHandler
    rw [ho]; rfl
  -- second installation, over handlers already installed
  have second : ∀ (l : List Int), l.Nodup → ∀ s : SigState,
      (∀ n, (l.foldl (installOne e) s).disp n = if n ∈ l ∧ e.accepts n = true then .g3log else s.disp n) ∧
      (∀ n, (l.foldl (installOne e) s).saved n = if n ∈ l ∧ e.accepts n = true then some (s.disp n) else s.saved n) ∧
      (l.foldl (installOne e) s).gSignals = s.gSignals := by
    intro l hl
    induction l with
    | nil => intro s; simp
    | cons x l ih =>
      intro s
      obtain ⟨hx, hl'⟩ := List.nodup_cons.mp hl
      obtain ⟨i1, i2, i3⟩ := ih hl' (installOne e s x)
      rw [List.foldl_cons]
      have hone : ∀ n, n ≠ x → (installOne e s x).disp n = s.disp n ∧ (installOne e s x).saved n = s.saved n := by
        intro n hne
        unfold installOne
        split
        · exact ⟨setAt_other _ _ hne, setAt_other _ _ hne⟩
        · exact ⟨rfl, rfl⟩
      refine ⟨?_, ?_, by rw [i3]; unfold installOne; split <;> rfl⟩
      · intro n
        rw [i1]
        by_cases hne : n = x
        · subst hne
          rw [if_neg (fun hh => hx hh.1)]
          unfold installOne
          by_cases ha : e.accepts n = true <;> simp [ha, setAt]
        · rw [(hone n hne).1]; simp [hne]
      · intro n
        rw [i2]
        by_cases hne : n = x
        · subst hne
          rw [if_neg (fun hh => hx hh.1)]
          unfold installOne
          by_cases ha : e.accepts n = true <;> simp [ha, setAt]
        · rw [(hone n hne).1, (hone n hne).2]; simp [hne]
  unfold overrideThenInit
  rw [hov]
  unfold installSignalHandler
  rw [ho]
  simp only [Bool.false_eq_true, if_false]
  rw [a3]
  obtain ⟨b1, b2, b3⟩ := second S hS (S.foldl (installOne e) { restoreAll e (SigState.start d0) with gSignals := S })
  refine ⟨?_, ?_, by rw [b3, a3]⟩
  · rw [b2, a1, a2]
    split
    · rfl
    · exact r2 n
  · rw [b1, a1]
    split
    · rfl
    · show (restoreAll e (SigState.start d0)).disp n = _; rw [r1]

/-- After such a set-up the fatal exit does not give the signal back: g3log's handler stays. -/
theorem overrideThenInit_restore (e : SigEnv) (d0 : Int → Disp) (S : List Int) (hS : S.Nodup) (ho : e.off = false) (n : Int)
    (hn : n ∈ S) (ha : e.accepts n = true) : (restoreAll e (overrideThenInit e d0 S)).disp n = .g3log := by
  have inv : ∀ (l : List Int) (s : SigState), s.disp n = .g3log → (∀ d, s.saved n = some d → d = .g3log) →
      (l.foldl (restoreSignalHandler e) s).disp n = .g3log := by
    intro l
    induction l with
    | nil => intro s h _; exact h
    | cons x l ih =>
      intro s h1 h2
      rw [List.foldl_cons]
      apply ih
      · unfold restoreSignalHandler
        rw [ho]
        simp only [Bool.false_eq_true, if_false]
        cases hs : s.saved x with
        | none => exact h1
        | some d =>
          simp only
          split
          · by_cases hx : n = x
            · subst hx; rw [setAt_same]; exact h2 d hs
            · rw [setAt_other _ _ hx]; exact h1
          · exact h1
      · unfold restoreSignalHandler
        rw [ho]
        simp only [Bool.false_eq_true, if_false]
        cases hs : s.saved x with
        | none => exact h2
        | some d =>
          simp only
          intro d' hd'
          by_cases hx : n = x
          · subst hx; rw [setAt_same] at hd'; cases hd'
          · rw [setAt_other _ _ hx] at hd'; exact h2 d' hd'
  obtain ⟨s1, s2, _⟩ := overrideThenInit_saved e d0 S hS ho n
  rw [if_pos ⟨hn, ha⟩] at s1 s2
  exact inv _ _ s2 (fun d hd => by rw [s1] at hd; cases hd; rfl)

/-- C44 does not hold: whoever calls `overrideSetupSignals(S)` before `initializeLogging` and then receives a
signal of `S` never terminates: the worker, having flushed everything, raises the signal, runs g3log's
handler once more, and waits there for ever. (`firstExit ≥ 1` because the first handler run counted.) -/
theorem C44_negation_signal (e : SigEnv) (r : RaiseEnv) (d0 : Int → Disp) (S : List Int) (hS : S.Nodup) (ho : e.off = false)
    (n : Int) (hn : n ∈ S) (ha : e.accepts n = true) (k : Nat) (hk : 1 ≤ k) :
    (exitWithDefaultSignalHandler e r ⟨overrideThenInit e d0 S, k, true⟩ n).1 = .hang := by
  unfold exitWithDefaultSignalHandler
  simp only [overrideThenInit_restore e d0 S hS ho n hn ha]
  unfold signalHandlerAtExit
  rw [if_pos ⟨(by show k ≠ 0; omega), rfl⟩]

/-- C44 does not hold for LOG(FATAL) and CHECK either: after the same set-up they end the process with exit
code 6 instead of by SIGABRT (nobody came through the signal handler before, `firstExit = 0`). -/
theorem C44_negation_abort (e : SigEnv) (r : RaiseEnv) (d0 : Int → Disp) (S : List Int) (hS : S.Nodup) (ho : e.off = false)
    (hn : SIGABRT ∈ S) (ha : e.accepts SIGABRT = true) (b : Bool) :
    (exitWithDefaultSignalHandler e r ⟨overrideThenInit e d0 S, 0, b⟩ SIGABRT).1 = .exited 6 := by
  unfold exitWithDefaultSignalHandler
  simp only [overrideThenInit_restore e d0 S hS ho _ hn ha]
  unfold signalHandlerAtExit
  rw [if_neg (by simp)]
  rfl

/-- C44, in one statement: two orders of the same calls, the same event, different ends. -/
theorem C44_negation : ∃ (e : SigEnv) (r : RaiseEnv) (d0 : Int → Disp) (n : Int), (∀ k, d0 k ≠ .g3log) ∧
    (exitWithDefaultSignalHandler e r ⟨overrideSetupSignals e (installSignalHandler e (SigState.start d0)) kSignals, 1, true⟩ n).1
      = .killed n ∧
    (exitWithDefaultSignalHandler e r ⟨installSignalHandler e (overrideSetupSignals e (SigState.start d0) kSignals), 1, true⟩ n).1
      = .hang := by
  refine ⟨⟨false, fun _ => true⟩, ⟨fun _ => true, fun _ => true⟩, fun _ => .dfl, 11, by simp, ?_, ?_⟩
  · exact C09_default _ _ _ (by simp) _ ⟨true, [.override kSignals], by
      intro op hop; simp only [List.mem_cons, List.not_mem_nil, or_false] at hop; subst hop
      show List.Nodup _; decide, rfl⟩ 11 rfl rfl
  · exact C44_negation_signal _ _ _ kSignals (by decide) rfl 11 (by decide) rfl 1 (Nat.le_refl 1)

/-- C44: signals outside the chosen set are not affected by that mistake. -/
theorem C44_other_signals (e : SigEnv) (d0 : Int → Disp) (S : List Int) (hS : S.Nodup) (ho : e.off = false) (n : Int)
    (hn : n ∉ S) : (restoreAll e (overrideThenInit e d0 S)).disp n = d0 n := by
  have inv : ∀ (l : List Int) (s : SigState), s.disp n = d0 n → s.saved n = none →
      (l.foldl (restoreSignalHandler e) s).disp n = d0 n := by
    intro l
    induction l with
    | nil => intro s h _; exact h
    | cons x l ih =>
      intro s h1 h2
      rw [List.foldl_cons]
      have : (restoreSignalHandler e s x).disp n = d0 n ∧ (restoreSignalHandler e s x).saved n = none := by
        unfold restoreSignalHandler
        rw [ho]
        simp only [Bool.false_eq_true, if_false]
        cases hs : s.saved x with
        | none => exact ⟨h1, h2⟩
        | some d =>
          have hx : n ≠ x := by intro he; subst he; rw [h2] at hs; cases hs
          simp only
          refine ⟨?_, by rw [setAt_other _ _ hx]; exact h2⟩
          split
          · rw [setAt_other _ _ hx]; exact h1
          · exact h1
      exact ih _ this.1 this.2
  obtain ⟨s1, s2, _⟩ := overrideThenInit_saved e d0 S hS ho n
  rw [if_neg (fun hh => hn hh.1)] at s1 s2
  exact inv _ _ s2 s1

/-! ### C45 -/

/-- Has this invocation got past the gate? -/
def past (p : HPc) : Prop := p = .reporting ∨ p = .reported

/-- C45: for every interleaving of any number of handler invocations: as long as the process has not been
released for exit, once any invocation has passed the counter, exactly one produces (or has produced)
a fatal message and every other one is waiting. -/
theorem C45_one_report (ls : List HLabel) (s : HState) (h : hRun hStart ls = some s) (hb : s.block = true) :
    (s.firstExit = 0 ∧ ∀ t, s.pc t = .notYet) ∨
    (1 ≤ s.firstExit ∧ ∃ w, past (s.pc w) ∧ ∀ t, t ≠ w → s.pc t = .notYet ∨ s.pc t = .waiting) := by
  have inv : ∀ (ls : List HLabel) (s0 s : HState), hRun s0 ls = some s → s.block = true →
      ((s0.firstExit = 0 ∧ ∀ t, s0.pc t = .notYet) ∨
        (1 ≤ s0.firstExit ∧ ∃ w, past (s0.pc w) ∧ ∀ t, t ≠ w → s0.pc t = .notYet ∨ s0.pc t = .waiting)) →
      ((s.firstExit = 0 ∧ ∀ t, s.pc t = .notYet) ∨
        (1 ≤ s.firstExit ∧ ∃ w, past (s.pc w) ∧ ∀ t, t ≠ w → s.pc t = .notYet ∨ s.pc t = .waiting)) := by
    intro ls
    induction ls with
    | nil => intro s0 s h _ hi; cases h; exact hi
    | cons l ls ih =>
      intro s0 s h hb hi
      rw [hRun] at h
      cases hl : hStep s0 l with
      | none => rw [hl] at h; cases h
      | some s1 =>
        rw [hl] at h
        change hRun s1 ls = some s at h
        -- the flag is never set again
        have hb1 : s1.block = true := by
          by_contra hc
          have hf : ∀ (ls : List HLabel) (a b : HState), hRun a ls = some b → a.block = false → b.block = false := by
            intro ls
            induction ls with
            | nil => intro a b h; cases h; exact id
            | cons l ls ih =>
              intro a b h ha
              rw [hRun] at h
              cases hl : hStep a l with
              | none => rw [hl] at h; cases h
              | some a1 =>
                rw [hl] at h
                refine ih a1 b h ?_
                cases l <;> simp only [hStep] at hl <;> (try split at hl) <;> cases hl <;> first | exact ha | rfl
          have := hf ls s1 s h (by simpa using hc)
          rw [hb] at this; cases this
        refine ih s1 s h hb ?_
        cases l with
        | enter t =>
          simp only [hStep] at hl
          split at hl
          · rename_i hpc
            cases hl
            right
            rcases hi with ⟨h0, hn⟩ | ⟨h1, w, hw, ho⟩
            · refine ⟨by simp [HState.setPc], t, ?_, ?_⟩
              · simp [HState.setPc, past, h0]
              · intro u hu; left; simp [HState.setPc, hu, hn u]
            · have hne : w ≠ t := by
                intro he; subst he; rcases hw with hw | hw <;> rw [hpc] at hw <;> cases hw
              refine ⟨by simp [HState.setPc], w, ?_, ?_⟩
              · simpa [HState.setPc, hne] using hw
              · intro u hu
                by_cases hut : u = t
                · right
                  have : ¬ s0.firstExit = 0 := by omega
                  simp [HState.setPc, hut, this]
                · simpa [HState.setPc, hut] using ho u hu
          · cases hl
        | leaveLoop t =>
          simp only [hStep] at hl
          split at hl
          · rename_i hc
            cases hl
            have : s0.block = true := hb1
            rw [hc.2] at this; cases this
          · cases hl
        | report t =>
          simp only [hStep] at hl
          split at hl
          · rename_i hpc
            cases hl
            rcases hi with ⟨h0, hn⟩ | ⟨h1, w, hw, ho⟩
            · rw [hn t] at hpc; cases hpc
            · have hwt : t = w := by
                by_contra hne
                rcases ho t hne with hh | hh <;> rw [hpc] at hh <;> cases hh
              subst hwt
              right
              refine ⟨h1, t, ?_, ?_⟩
              · simp [HState.setPc, past]
              · intro u hu; simpa [HState.setPc, hu] using ho u hu
          · cases hl
        | release =>
          cases hl
          cases hb1
  exact inv ls hStart s h hb (Or.inl ⟨rfl, fun _ => rfl⟩)

/-- C45: the invocation that gets through is never kept waiting, so the report is always made. -/
theorem C45_winner_proceeds (ls : List HLabel) (s : HState) (h : hRun hStart ls = some s) (hb : s.block = true)
    (hc : 1 ≤ s.firstExit) : (∃ w, s.pc w = .reported) ∨ ∃ w s', hStep s (.report w) = some s' ∧ s'.pc w = .reported := by
  rcases C45_one_report ls s h hb with ⟨h0, _⟩ | ⟨_, w, hw, _⟩
  · omega
  · rcases hw with hw | hw
    · exact Or.inr ⟨w, s.setPc w .reported, by simp [hStep, hw], by simp [HState.setPc]⟩
    · exact Or.inl ⟨w, hw⟩

/-- C45: after the release the waiting invocations do report, too; the restriction is needed. -/
theorem C45_after_release : ∃ s, hRun hStart [.enter 0, .enter 1, .report 0, .release, .leaveLoop 1, .report 1] = some s ∧
    s.pc 0 = .reported ∧ s.pc 1 = .reported := ⟨_, rfl, rfl, rfl⟩

example : ∃ s, hRun hStart [.enter 3, .enter 1, .enter 2, .report 3] = some s ∧ s.block = true ∧ s.pc 3 = .reported ∧
    s.pc 1 = .waiting := ⟨_, rfl, rfl, rfl, rfl⟩

end G3.Props
