import Verif.Spec.SignalMask
import Mathlib.Tactic.ByContra
import Mathlib.Tactic.Tauto
/-
C124: fatal events in programs that block signals.
-/
namespace G3.Props
open G3 G3.Spec

theorem mRun_append (sigs : List Int) (s : MaskState) (l r : List MLabel) : mRun sigs s (l ++ r) = (mRun sigs s l).bind fun s' => mRun sigs s' r := by
  induction l generalizing s with
  | nil => rfl
  | cons a l ih =>
    simp only [List.cons_append, mRun]
    cases mStep sigs s a with
    | none => rfl
    | some s1 => exact ih s1

theorem start_live (s : MaskState) (t u v : MThr) : (s.start t u).live v = if v = u then true else s.live v := by
  by_cases h : v = u
  · subst h; simp [MaskState.start]
  · simp [MaskState.start, h]

theorem start_rest (s : MaskState) (t u : MThr) : (s.start t u).sinks = s.sinks ∧ (s.start t u).logger = s.logger ∧ (s.start t u).handled = s.handled :=
  ⟨rfl, rfl, rfl⟩

theorem start_mask (s : MaskState) (t u : MThr) : (s.start t u).mask = fun v => if v = u then s.mask t else s.mask v := by
  funext v
  by_cases h : v = u
  · subst h; simp [MaskState.start]
  · simp [MaskState.start, h]

/-! ### Set up -/

/-- What holds before the worker exists, or after. -/
structure QuietInv (sigs : List Int) (s : MaskState) : Prop where
  sinks : ∀ k, s.live (.sink k) = true ↔ k ∈ s.sinks
  awake : ∀ t, s.asleep t = false
  none1 : s.pending = []
  none2 : ∀ t, s.own t = []
  first : s.count = 0
  empty : s.queue = []
  serving : s.wpc = .serving
  clean : s.report = []
  runs : s.ended = none
  up : s.logger = s.live .worker
  handles : s.handled = if s.live .worker then sigs else []

theorem quiet_start (sigs m : List Int) : QuietInv sigs (mStart m) where
  sinks := by intro k; simp [mStart]
  awake := fun _ => rfl
  none1 := rfl
  none2 := fun _ => rfl
  first := rfl
  empty := rfl
  serving := rfl
  clean := rfl
  runs := rfl
  up := rfl
  handles := rfl

theorem update_nil (f : MThr → List Int) (u : MThr) (h : ∀ t, f t = []) (t : MThr) : Function.update f u [] t = [] := by
  by_cases ht : t = u
  · subst ht; simp
  · rw [Function.update_of_ne ht, h]

theorem quiet_step {sigs : List Int} {s s' : MaskState} (h : QuietInv sigs s) {l : MLabel} (hq : quiet l) (hs : mStep sigs s l = some s') :
    QuietInv sigs s' := by
  unfold mStep at hs
  rw [if_neg (by rw [h.runs]; simp)] at hs
  cases l with
  | spawn t i =>
    dsimp only at hs
    split at hs
    · cases hs
      refine { sinks := ?_, awake := h.awake, none1 := h.none1, none2 := update_nil _ _ h.none2, first := h.first, empty := h.empty, serving := h.serving,
               clean := h.clean, runs := h.runs, up := ?_, handles := ?_ }
      · intro k; simpa [start_live, start_rest] using h.sinks k
      · simpa [start_live, start_rest] using h.up
      · simpa [start_live, start_rest] using h.handles
    · cases hs
  | init t =>
    dsimp only at hs
    split at hs
    · cases hs
      refine { sinks := ?_, awake := h.awake, none1 := h.none1, none2 := update_nil _ _ h.none2, first := h.first, empty := h.empty, serving := h.serving,
               clean := h.clean, runs := h.runs, up := ?_, handles := ?_ }
      · intro k; simpa [start_live, start_rest] using h.sinks k
      · simp [start_live]
      · simp [start_live]
    · cases hs
  | addSink t k =>
    dsimp only at hs
    split at hs
    · cases hs
      refine { sinks := ?_, awake := h.awake, none1 := h.none1, none2 := update_nil _ _ h.none2, first := h.first, empty := h.empty, serving := h.serving,
               clean := h.clean, runs := h.runs, up := ?_, handles := ?_ }
      · intro j
        show (s.start t (.sink k)).live (.sink j) = true ↔ j ∈ s.sinks ++ [k]
        rw [start_live]
        by_cases hj : j = k
        · subst hj; simp
        · simp [hj, h.sinks j]
      · simpa [start_live, start_rest] using h.up
      · simpa [start_live, start_rest] using h.handles
    · cases hs
  | setMask t m =>
    dsimp only at hs
    split at hs
    · cases hs
      exact { sinks := h.sinks, awake := h.awake, none1 := h.none1, none2 := h.none2, first := h.first, empty := h.empty, serving := h.serving,
               clean := h.clean, runs := h.runs, up := h.up, handles := h.handles }
    · cases hs
  | raise t n => exact hq.elim
  | fault t n => exact hq.elim
  | kill n => exact hq.elim
  | deliver t n => exact hq.elim
  | fatal t => exact hq.elim
  | take => exact hq.elim
  | flush => exact hq.elim
  | restore => exact hq.elim
  | wRaise => exact hq.elim
  | exit => exact hq.elim

/-- **C124** (setting up). After any history in which threads are started, masks chosen, the library set up and sinks added, everything is calm, and the mask of the worker is that of the thread that created it, of that time: nothing that the program
does later to its own threads changes it. -/
theorem C124_setup (sigs m : List Int) (ls : List MLabel) (s : MaskState) (hq : ∀ l ∈ ls, quiet l) (h : mRun sigs (mStart m) ls = some s) (hw : s.live .worker = true) :
    Calm sigs s ∧ s.mask .worker = workerMask [] (fun t => if t = .prog 0 then m else []) ls := by
  have aux : ∀ (ls : List MLabel) (s0 s : MaskState), (∀ l ∈ ls, quiet l) → QuietInv sigs s0 → mRun sigs s0 ls = some s →
      QuietInv sigs s ∧ s.mask .worker = workerMask (s0.mask .worker) s0.mask ls := by
    intro ls
    induction ls with
    | nil => intro s0 s _ h0 h; cases h; exact ⟨h0, rfl⟩
    | cons l r ih =>
      intro s0 s hq h0 h
      rw [mRun] at h
      cases hs : mStep sigs s0 l with
      | none => rw [hs] at h; cases h
      | some s1 =>
        rw [hs] at h
        have hl := hq l (List.mem_cons_self ..)
        obtain ⟨i1, i2⟩ := ih s1 s (fun l hl => hq l (List.mem_cons_of_mem _ hl)) (quiet_step h0 hl hs) h
        refine ⟨i1, i2.trans ?_⟩
        unfold mStep at hs
        rw [if_neg (by rw [h0.runs]; simp)] at hs
        have hup : ∀ (u : MThr) (c : List Int), Function.update s0.mask u c = fun v => if v = u then c else s0.mask v := by
          intro u c; funext v
          by_cases hv : v = u
          · subst hv; simp
          · rw [Function.update_of_ne hv, if_neg hv]
        cases l with
        | spawn t i =>
          dsimp only at hs
          split at hs
          · cases hs
            rw [start_mask]
            rfl
          · cases hs
        | init t =>
          dsimp only at hs
          split at hs
          · cases hs
            dsimp only
            rw [start_mask]
            rfl
          · cases hs
        | addSink t k =>
          dsimp only at hs
          split at hs
          · cases hs
            dsimp only
            rw [start_mask]
            rfl
          · cases hs
        | setMask t k =>
          dsimp only at hs
          split at hs
          · cases hs
            dsimp only
            rw [hup]
            cases t with
            | prog i => rfl
            | worker => exact hl.elim
            | sink k => exact hl.elim
          · cases hs
        | raise t n => exact hl.elim
        | fault t n => exact hl.elim
        | kill n => exact hl.elim
        | deliver t n => exact hl.elim
        | fatal t => exact hl.elim
        | take => exact hl.elim
        | flush => exact hl.elim
        | restore => exact hl.elim
        | wRaise => exact hl.elim
        | exit => exact hl.elim
  obtain ⟨i, j⟩ := aux ls (mStart m) s hq (quiet_start sigs m) h
  refine ⟨⟨?_, hw, i.sinks, i.awake, i.none1, i.none2, ?_, i.first, i.empty, i.serving, i.clean, i.runs⟩, ?_⟩
  · rw [i.up, hw]
  · rw [i.handles, if_pos hw]
  · rw [j]; simp only [mStart, if_neg (show (MThr.worker) ≠ .prog 0 by simp)]

/-! ### One event, and the worker -/

/-- What the end of a process after a fatal event of signal `n` depends on, while the worker deals with it: `k` steps of it are done. -/
def maskStage (n : Int) : Nat → MWork
  | 0 => .serving
  | 1 => .fatal n
  | 2 => .flushed n
  | 3 => .restored n
  | _ => .raised n

/-- The worker is dealing with the event `n`. -/
structure Dealing (n : Int) (b : Bool) (k : Nat) (s : MaskState) : Prop where
  awake : s.asleep .worker = false
  sinks : ∀ j ∈ s.sinks, s.asleep (.sink j) = false
  stage : s.wpc = maskStage n k
  queue : s.queue = if k = 0 then [n] else []
  report : s.report = if k = 0 then [] else [n]
  runs : s.ended = none
  mask : (n ∈ s.mask .worker) ↔ b = true
  few : k ≤ 4
  four : k = 4 → b = true

theorem dealing_step {sigs : List Int} {n : Int} {b : Bool} {k : Nat} {s s' : MaskState} (h : Dealing n b k s) {l : MLabel} (hl : workerStep l)
    (hs : mStep sigs s l = some s') :
    Dealing n b (k + 1) s' ∨ (s'.ended = some (endFor b n) ∧ s'.report = [n] ∧ 3 ≤ k) := by
  obtain ⟨h1, h2, h3, h4, h5, h6, h7, h8, h9⟩ := h
  unfold mStep at hs
  rw [if_neg (by rw [h6]; simp)] at hs
  have hk : k = 0 ∨ k = 1 ∨ k = 2 ∨ k = 3 ∨ k = 4 := by omega
  cases l with
  | take =>
    rcases hk with rfl | rfl | rfl | rfl | rfl <;> simp only [h1, h3, h4, maskStage, if_true, Bool.false_eq_true, if_false] at hs
    · cases hs
      exact Or.inl ⟨h1, h2, rfl, by simp, by simp [h5], h6, h7, by omega, by omega⟩
    all_goals cases hs
  | flush =>
    rcases hk with rfl | rfl | rfl | rfl | rfl <;> simp only [h1, h3, maskStage, Bool.false_eq_true, if_false] at hs
    · cases hs
    · split at hs
      · cases hs
        exact Or.inl ⟨h1, h2, rfl, by simp [h4], by simp [h5], h6, h7, by omega, by omega⟩
      · cases hs
    all_goals cases hs
  | restore =>
    rcases hk with rfl | rfl | rfl | rfl | rfl <;> simp only [h1, h3, maskStage, Bool.false_eq_true, if_false] at hs
    · cases hs
    · cases hs
    · cases hs
      exact Or.inl ⟨h1, h2, rfl, by simp [h4], by simp [h5], h6, h7, by omega, by omega⟩
    all_goals cases hs
  | wRaise =>
    rcases hk with rfl | rfl | rfl | rfl | rfl <;> simp only [h1, h3, maskStage, Bool.false_eq_true, if_false] at hs
    · cases hs
    · cases hs
    · cases hs
    · cases hs
      by_cases hm : n ∈ s.mask .worker
      · rw [if_pos hm]
        exact Or.inl ⟨h1, h2, rfl, by simp [h4], by simp [h5], h6, h7, by omega, fun _ => h7.mp hm⟩
      · rw [if_neg hm]
        have hb : b = false := by
          cases b
          · rfl
          · exact absurd (h7.mpr rfl) hm
        exact Or.inr ⟨by rw [hb]; rfl, by simp [h5], by omega⟩
    · cases hs
  | exit =>
    rcases hk with rfl | rfl | rfl | rfl | rfl <;> simp only [h1, h3, maskStage, Bool.false_eq_true, if_false] at hs
    · cases hs
    · cases hs
    · cases hs
    · cases hs
    · cases hs
      exact Or.inr ⟨by rw [h9 rfl]; rfl, by simp [h5], by omega⟩
  | spawn t i => exact hl.elim
  | init t => exact hl.elim
  | addSink t k => exact hl.elim
  | setMask t m => exact hl.elim
  | raise t n => exact hl.elim
  | fault t n => exact hl.elim
  | kill n => exact hl.elim
  | deliver t n => exact hl.elim
  | fatal t => exact hl.elim

theorem dealing_can (sigs : List Int) {n : Int} {b : Bool} {k : Nat} {s : MaskState} (h : Dealing n b k s) : ∃ l s', workerStep l ∧ mStep sigs s l = some s' := by
  obtain ⟨h1, h2, h3, h4, h5, h6, h7, h8, h9⟩ := h
  have hk : k = 0 ∨ k = 1 ∨ k = 2 ∨ k = 3 ∨ k = 4 := by omega
  have hall : (s.sinks.all fun j => !s.asleep (.sink j)) = true := by
    rw [List.all_eq_true]; intro j hj; rw [h2 j hj]; rfl
  rcases hk with rfl | rfl | rfl | rfl | rfl
  · exact ⟨.take, _, trivial, by simp only [mStep, h6, h1, h3, h4, maskStage]; rfl⟩
  · exact ⟨.flush, _, trivial, by simp only [mStep, h6, h1, h3, maskStage, hall]; rfl⟩
  · exact ⟨.restore, _, trivial, by simp only [mStep, h6, h1, h3, maskStage]; rfl⟩
  · exact ⟨.wRaise, _, trivial, by simp only [mStep, h6, h1, h3, maskStage]; rfl⟩
  · exact ⟨.exit, _, trivial, by simp only [mStep, h6, h1, h3, maskStage]; rfl⟩

/-- After the process has ended there are no steps. -/
theorem maskEnded_run {sigs : List Int} {s s' : MaskState} (h : s.ended.isSome = true) {ls : List MLabel} (hr : mRun sigs s ls = some s') : ls = [] ∧ s' = s := by
  cases ls with
  | nil => cases hr; exact ⟨rfl, rfl⟩
  | cons l r =>
    rw [mRun] at hr
    unfold mStep at hr
    rw [if_pos h] at hr
    cases hr

theorem dealing_run {sigs : List Int} {n : Int} {b : Bool} (ls : List MLabel) {k : Nat} {s s' : MaskState} (h : Dealing n b k s) (hl : ∀ l ∈ ls, workerStep l)
    (hr : mRun sigs s ls = some s') :
    ls.length ≤ 5 - k ∧ ((∃ j, Dealing n b j s') ∨ (s'.ended = some (endFor b n) ∧ s'.report = [n])) := by
  induction ls generalizing k s with
  | nil => cases hr; exact ⟨Nat.zero_le _, Or.inl ⟨k, h⟩⟩
  | cons l r ih =>
    rw [mRun] at hr
    cases hs : mStep sigs s l with
    | none => rw [hs] at hr; cases hr
    | some s1 =>
      rw [hs] at hr
      have h8 := h.few
      rcases dealing_step h (hl l (List.mem_cons_self ..)) hs with h' | ⟨e1, e2, e3⟩
      · have := ih h' (fun l hl' => hl l (List.mem_cons_of_mem _ hl')) hr
        have h8' := h'.few
        refine ⟨?_, this.2⟩
        have := this.1
        simp only [List.length_cons]; omega
      · obtain ⟨r1, r2⟩ := maskEnded_run (by rw [e1]; rfl) hr
        subst r1 r2
        exact ⟨by simp only [List.length_cons, List.length_nil]; omega, Or.inr ⟨e1, e2⟩⟩

/-- What a fatal event is: one of these happens to thread `t`. -/
inductive Event (s : MaskState) : MThr → Int → List MLabel → Prop
  | raise (t n) : n ∉ s.mask t → Event s t n [.raise t n]
  | fault (t n) : n ∉ s.mask t → Event s t n [.fault t n]
  | kill (t n) : n ∉ s.mask t → Event s t n [.kill n, .deliver t n]
  | fatal (t) : Event s t 6 [.fatal t]

theorem hit_calm {sigs : List Int} {s : MaskState} (h : Calm sigs s) (t : MThr) (n : Int) (hn : n ∈ sigs) :
    s.hit t n = { s with mask := Function.update s.mask t (n :: s.mask t), count := s.count + 1, asleep := Function.update s.asleep t true, queue := s.queue ++ [n] } := by
  unfold MaskState.hit
  rw [if_neg (by rw [h.handles]; exact not_not.mpr hn)]
  dsimp only
  rw [if_neg (by rw [h.first]; simp), if_pos h.up]

/-- What is the case after a fatal event in a calm program. -/
structure After (s : MaskState) (t : MThr) (n : Int) (s1 : MaskState) : Prop where
  live : s1.live = s.live
  sinks : s1.sinks = s.sinks
  asleep : s1.asleep = Function.update s.asleep t true
  wpc : s1.wpc = .serving
  queue : s1.queue = [n]
  report : s1.report = []
  runs : s1.ended = none
  mask : ∀ u, u ≠ t → s1.mask u = s.mask u
  handled : s1.handled = s.handled
  up : s1.logger = true

theorem event_after {sigs : List Int} {s : MaskState} (h : Calm sigs s) {t : MThr} {n : Int} {ev : List MLabel} (ht : s.live t = true) (hn : n ∈ sigs)
    (he : Event s t n ev) : ∃ s1, mRun sigs s ev = some s1 ∧ After s t n s1 := by
  have hw := h.awake t
  have base : ∀ s1 : MaskState, s1 = { s with mask := Function.update s.mask t (n :: s.mask t), count := s.count + 1, asleep := Function.update s.asleep t true, queue := s.queue ++ [n] } →
      After s t n s1 := by
    intro s1 e
    subst e
    exact ⟨rfl, rfl, rfl, h.serving, by simp [h.empty], h.clean, h.runs, fun u hu => Function.update_of_ne hu _ _, rfl, h.up⟩
  cases he with
  | raise =>
    rename_i hm
    refine ⟨s.hit t n, ?_, base _ (hit_calm h t n hn)⟩
    simp [mRun, mStep, h.runs, ht, hw, hm]
  | fault =>
    rename_i hm
    refine ⟨s.hit t n, ?_, base _ (hit_calm h t n hn)⟩
    simp [mRun, mStep, h.runs, ht, hw, hm]
  | kill =>
    rename_i hm
    have ho : s.own t = [] := h.none2 t
    refine ⟨s.hit t n, ?_, base _ (hit_calm h t n hn)⟩
    have e1 : mStep sigs s (.kill n) = some { s with pending := n :: s.pending } := by simp [mStep, h.runs]
    have e2 : mStep sigs { s with pending := n :: s.pending } (.deliver t n) = some (s.hit t n) := by
      unfold mStep
      rw [if_neg (show ¬ ({ s with pending := n :: s.pending } : MaskState).ended.isSome = true by rw [show ({ s with pending := n :: s.pending } : MaskState).ended = s.ended from rfl, h.runs]; simp)]
      dsimp only
      rw [if_pos ⟨ht, hm⟩, if_neg (by rw [ho]; simp), if_pos (List.mem_cons_self ..)]
      have : (n :: s.pending).erase n = s.pending := by simp
      rw [this]
    rw [mRun, e1, Option.bind_some, mRun, e2]
    rfl
  | fatal =>
    refine ⟨{ s with asleep := Function.update s.asleep t true, queue := s.queue ++ [6] }, ?_, ?_⟩
    · simp [mRun, mStep, h.runs, ht, hw, h.up]
    · exact ⟨rfl, rfl, rfl, h.serving, by simp [h.empty], h.clean, h.runs, fun u hu => rfl, rfl, h.up⟩

/-- **C124** (exact). After a fatal event on a thread of the program, of a signal that this thread does not block, the worker ends the process whatever the masks are, within five steps, after it has reported the event; the process is killed by the signal
if and only if the worker does not block it. -/
theorem C124_exact {sigs : List Int} {s : MaskState} (h : Calm sigs s) {i : Nat} {n : Int} {ev : List MLabel} (ht : s.live (.prog i) = true) (hn : n ∈ sigs)
    (he : Event s (.prog i) n ev) (b : Bool) (hb : n ∈ s.mask .worker ↔ b = true) :
    ∃ s1, mRun sigs s ev = some s1 ∧ ∀ ls s2, (∀ l ∈ ls, workerStep l) → mRun sigs s1 ls = some s2 →
      ls.length ≤ 5 ∧ (s2.ended = none → ∃ l s3, workerStep l ∧ mStep sigs s2 l = some s3) ∧
      (∀ e, s2.ended = some e → e = endFor b n ∧ s2.report = [n]) := by
  obtain ⟨s1, e1, a⟩ := event_after h ht hn he
  refine ⟨s1, e1, fun ls s2 hl hr => ?_⟩
  have hd : Dealing n b 0 s1 := by
    refine ⟨?_, ?_, a.wpc, a.queue, a.report, a.runs, ?_, by omega, by omega⟩
    · rw [a.asleep, Function.update_of_ne (by simp)]; exact h.awake _
    · intro j _; rw [a.asleep, Function.update_of_ne (by simp)]; exact h.awake _
    · rw [a.mask _ (by simp)]; exact hb
  obtain ⟨r1, r2⟩ := dealing_run ls hd hl hr
  refine ⟨r1, ?_, ?_⟩
  · intro hnone
    rcases r2 with ⟨j, hj⟩ | ⟨r2, -⟩
    · exact dealing_can sigs hj
    · rw [hnone] at r2; cases r2
  · intro e hsome
    rcases r2 with ⟨j, hj⟩ | ⟨r2, r3⟩
    · rw [hj.runs] at hsome; cases hsome
    · rw [r2] at hsome; exact ⟨(Option.some.inj hsome).symm, r3⟩

/-- **C124** (partial). A fatal event on a thread of the program that does not block the signal is reported, and the process is killed by the signal, if the worker does not block it either: every run of the worker can be continued to there, and to nothing else. -/
theorem C124_statement_partial {sigs : List Int} {s : MaskState} (h : Calm sigs s) {i : Nat} {n : Int} {ev : List MLabel} (ht : s.live (.prog i) = true) (hn : n ∈ sigs)
    (he : Event s (.prog i) n ev) (hw : n ∉ s.mask .worker) :
    ∃ s1, mRun sigs s ev = some s1 ∧ ∀ ls s2, (∀ l ∈ ls, workerStep l) → mRun sigs s1 ls = some s2 →
      ∃ ls' s3, (∀ l ∈ ls', workerStep l) ∧ mRun sigs s2 ls' = some s3 ∧ s3.ended = some (.killed n) ∧ s3.report = [n] := by
  obtain ⟨s1, e1, hx⟩ := C124_exact h ht hn he false (by simp [hw])
  refine ⟨s1, e1, ?_⟩
  have aux : ∀ k ls s2, 5 - ls.length ≤ k → (∀ l ∈ ls, workerStep l) → mRun sigs s1 ls = some s2 →
      ∃ ls' s3, (∀ l ∈ ls', workerStep l) ∧ mRun sigs s2 ls' = some s3 ∧ s3.ended = some (.killed n) ∧ s3.report = [n] := by
    intro k
    induction k with
    | zero =>
      intro ls s2 hk hl hr
      obtain ⟨x1, x2, x3⟩ := hx ls s2 hl hr
      cases he2 : s2.ended with
      | some e => exact ⟨[], s2, by simp, rfl, by rw [he2, (x3 e he2).1]; rfl, (x3 e he2).2⟩
      | none =>
        obtain ⟨l, s3, y1, y2⟩ := x2 he2
        have := (hx (ls ++ [l]) s3 (by intro l' hl'; rcases List.mem_append.mp hl' with h | h; exact hl l' h; rw [List.mem_singleton.mp h]; exact y1)
          (by rw [mRun_append, hr, Option.bind_some, mRun, y2]; rfl)).1
        simp only [List.length_append, List.length_singleton] at this
        omega
    | succ k ih =>
      intro ls s2 hk hl hr
      obtain ⟨x1, x2, x3⟩ := hx ls s2 hl hr
      cases he2 : s2.ended with
      | some e => exact ⟨[], s2, by simp, rfl, by rw [he2, (x3 e he2).1]; rfl, (x3 e he2).2⟩
      | none =>
        obtain ⟨l, s3, y1, y2⟩ := x2 he2
        obtain ⟨ls', s4, z1, z2, z3⟩ := ih (ls ++ [l]) s3 (by simp only [List.length_append, List.length_singleton]; omega)
          (by intro l' hl'; rcases List.mem_append.mp hl' with h | h; exact hl l' h; rw [List.mem_singleton.mp h]; exact y1)
          (by rw [mRun_append, hr, Option.bind_some, mRun, y2]; rfl)
        refine ⟨l :: ls', s4, ?_, by rw [mRun, y2]; exact z2, z3⟩
        intro l' hl'
        rcases List.mem_cons.mp hl' with rfl | h
        · exact y1
        · exact z1 l' h
  intro ls s2 hl hr
  exact aux 5 ls s2 (by omega) hl hr

/-! ### Events on the threads of the library -/

/-- The process hangs. -/
structure MaskHangs (sigs : List Int) (s : MaskState) : Prop where
  stuck : s.asleep .worker = true ∨ ∃ k ∈ s.sinks, s.asleep (.sink k) = true
  stage : s.wpc = .serving ∨ ∃ m, s.wpc = .fatal m
  handled : s.handled = sigs
  count : s.count ≠ 0
  live : s.live .worker = true
  runs : s.ended = none

theorem hangs_hit {sigs : List Int} {s : MaskState} (h : MaskHangs sigs s) (t : MThr) (n : Int) (hn : n ∈ sigs) : MaskHangs sigs (s.hit t n) := by
  unfold MaskState.hit
  rw [if_neg (by rw [h.handled]; exact not_not.mpr hn)]
  dsimp only
  rw [if_pos h.count]
  refine ⟨?_, h.stage, h.handled, Nat.succ_ne_zero _, h.live, h.runs⟩
  have keep : ∀ u, s.asleep u = true → Function.update s.asleep t true u = true := by
    intro u hu
    by_cases e : u = t
    · subst e; simp
    · rw [Function.update_of_ne e]; exact hu
  rcases h.stuck with hs | ⟨k, hk, hs⟩
  · exact Or.inl (keep _ hs)
  · exact Or.inr ⟨k, hk, keep _ hs⟩

theorem hangs_step {sigs : List Int} {s s' : MaskState} (h : MaskHangs sigs s) {l : MLabel} (hl : noCrash sigs l) (hs : mStep sigs s l = some s') : MaskHangs sigs s' := by
  unfold mStep at hs
  rw [if_neg (by rw [h.runs]; simp)] at hs
  have hstart : ∀ t u, (s.start t u).live .worker = true := by
    intro t u; rw [start_live]; split
    · rfl
    · exact h.live
  cases l with
  | spawn t i =>
    dsimp only at hs
    split at hs
    · cases hs; exact ⟨h.stuck, h.stage, h.handled, h.count, hstart _ _, h.runs⟩
    · cases hs
  | init t =>
    dsimp only at hs
    rw [if_neg (by rw [h.live]; simp)] at hs
    cases hs
  | addSink t k =>
    dsimp only at hs
    split at hs
    · cases hs
      refine ⟨?_, h.stage, h.handled, h.count, hstart t (.sink k), h.runs⟩
      rcases h.stuck with h1 | ⟨j, hj, h1⟩
      · exact Or.inl h1
      · exact Or.inr ⟨j, List.mem_append_left _ hj, h1⟩
    · cases hs
  | setMask t m =>
    dsimp only at hs
    split at hs
    · cases hs; exact ⟨h.stuck, h.stage, h.handled, h.count, h.live, h.runs⟩
    · cases hs
  | raise t n =>
    dsimp only at hs
    split at hs
    · cases hs
      split
      · exact ⟨h.stuck, h.stage, h.handled, h.count, h.live, h.runs⟩
      · exact hangs_hit h t n hl
    · cases hs
  | fault t n => exact hl.elim
  | kill n => cases hs; exact ⟨h.stuck, h.stage, h.handled, h.count, h.live, h.runs⟩
  | deliver t n =>
    dsimp only at hs
    split at hs
    · split at hs
      · cases hs
        refine hangs_hit ?_ t n hl; exact ⟨h.stuck, h.stage, h.handled, h.count, h.live, h.runs⟩
      · split at hs
        · cases hs
          refine hangs_hit ?_ t n hl; exact ⟨h.stuck, h.stage, h.handled, h.count, h.live, h.runs⟩
        · cases hs
    · cases hs
  | fatal t => exact hl.elim
  | take =>
    dsimp only at hs
    cases hw : s.asleep .worker with
    | true => rw [if_pos hw] at hs; cases hs
    | false =>
      rw [if_neg (by rw [hw]; simp)] at hs
      split at hs
      · cases hs; exact ⟨h.stuck, Or.inr ⟨_, rfl⟩, h.handled, h.count, h.live, h.runs⟩
      · cases hs
  | flush =>
    dsimp only at hs
    cases hw : s.asleep .worker with
    | true => rw [if_pos hw] at hs; cases hs
    | false =>
      rw [if_neg (by rw [hw]; simp)] at hs
      rcases h.stuck with h1 | ⟨j, hj, h1⟩
      · rw [hw] at h1; cases h1
      · have hall : (s.sinks.all fun k => !s.asleep (.sink k)) = false := by
          rw [List.all_eq_false]
          exact ⟨j, hj, by rw [h1]; simp⟩
        split at hs
        · rw [hall] at hs; cases hs
        · cases hs
  | restore =>
    dsimp only at hs
    split at hs
    · cases hs
    · rcases h.stage with e | ⟨m, e⟩ <;> rw [e] at hs <;> cases hs
  | wRaise =>
    dsimp only at hs
    split at hs
    · cases hs
    · rcases h.stage with e | ⟨m, e⟩ <;> rw [e] at hs <;> cases hs
  | exit =>
    dsimp only at hs
    split at hs
    · cases hs
    · rcases h.stage with e | ⟨m, e⟩ <;> rw [e] at hs <;> cases hs

theorem maskHangs_run {sigs : List Int} (ls : List MLabel) {s s' : MaskState} (h : MaskHangs sigs s) (hl : ∀ l ∈ ls, noCrash sigs l) (hr : mRun sigs s ls = some s') :
    s'.ended = none := by
  induction ls generalizing s with
  | nil => cases hr; exact h.runs
  | cons l r ih =>
    rw [mRun] at hr
    cases hs : mStep sigs s l with
    | none => rw [hs] at hr; cases hr
    | some s1 =>
      rw [hs] at hr
      exact ih (hangs_step h (hl l (List.mem_cons_self ..)) hs) (fun l hl' => hl l (List.mem_cons_of_mem _ hl')) hr

theorem kill_deliver (sigs : List Int) {s : MaskState} {t : MThr} {n : Int} (hr : s.ended = none) (ho : s.own t = []) (ht : s.live t = true) (hm : n ∉ s.mask t) :
    mRun sigs s [.kill n, .deliver t n] = some (s.hit t n) := by
  have e1 : mStep sigs s (.kill n) = some { s with pending := n :: s.pending } := by simp [mStep, hr]
  have e2 : mStep sigs { s with pending := n :: s.pending } (.deliver t n) = some (s.hit t n) := by
    unfold mStep
    rw [if_neg (show ¬ ({ s with pending := n :: s.pending } : MaskState).ended.isSome = true by rw [show ({ s with pending := n :: s.pending } : MaskState).ended = s.ended from rfl, hr]; simp)]
    dsimp only
    rw [if_pos ⟨ht, hm⟩, if_neg (by rw [ho]; simp), if_pos (List.mem_cons_self ..)]
    have : (n :: s.pending).erase n = s.pending := by simp
    rw [this]
  rw [mRun, e1, Option.bind_some, mRun, e2]
  rfl

/-- **C124** (library threads). A fatal signal that is taken by the thread of the worker or of a sink never ends the process, whatever happens then except for a further crash or a signal that the library does not handle. -/
theorem C124_hangs {sigs : List Int} {s : MaskState} (h : Calm sigs s) {t : MThr} {n : Int} (hlib : ofLibrary t) (ht : s.live t = true) (hn : n ∈ sigs) (hm : n ∉ s.mask t) :
    ∃ s1, mRun sigs s [.kill n, .deliver t n] = some s1 ∧ ∀ ls s2, (∀ l ∈ ls, noCrash sigs l) → mRun sigs s1 ls = some s2 → s2.ended = none := by
  obtain ⟨s1, e1, a⟩ := event_after h ht hn (Event.kill t n hm)
  refine ⟨s1, e1, fun ls s2 hl hr => maskHangs_run ls ⟨?_, Or.inl a.wpc, a.handled.trans h.handles, ?_, by rw [a.live]; exact h.worker, a.runs⟩ hl hr⟩
  · rw [a.asleep]
    cases t with
    | prog i => exact hlib.elim
    | worker => exact Or.inl (by simp)
    | sink k => exact Or.inr ⟨k, by rw [a.sinks]; exact (h.sinks k).mp ht, by simp⟩
  · have e2 := kill_deliver sigs h.runs (h.none2 t) ht hm
    have : s1 = s.hit t n := Option.some.inj (e1.symm.trans e2)
    rw [this, hit_calm h t n hn]
    exact Nat.succ_ne_zero _

theorem worker_noCrash (sigs : List Int) {l : MLabel} (h : workerStep l) : noCrash sigs l := by cases l <;> first | exact h.elim | trivial

/-- **C124** (from outside). A signal that comes from outside, as SIGTERM does, is reported and ends the process whichever thread the kernel chooses, if all threads of the library block it; but then it ends by `exit`. -/
theorem C124_outside {sigs : List Int} {s : MaskState} (h : Calm sigs s) {n : Int} (hn : n ∈ sigs) (hb : ∀ u, ofLibrary u → s.live u = true → n ∈ s.mask u)
    {t : MThr} (ht : s.live t = true) (hm : n ∉ s.mask t) :
    ∃ s1, mRun sigs s [.kill n, .deliver t n] = some s1 ∧ ∀ ls s2, (∀ l ∈ ls, workerStep l) → mRun sigs s1 ls = some s2 →
      ls.length ≤ 5 ∧ (s2.ended = none → ∃ l s3, workerStep l ∧ mStep sigs s2 l = some s3) ∧
      (∀ e, s2.ended = some e → e = .exited n ∧ s2.report = [n]) := by
  cases t with
  | prog i => exact C124_exact h ht hn (Event.kill _ n hm) true (by simp [hb .worker trivial h.worker])
  | worker => exact absurd (hb .worker trivial ht) hm
  | sink k => exact absurd (hb (.sink k) trivial ht) hm

/-- **C124** (dilemma). There are no masks with which a signal from outside is sure to kill the process through the worker: either the kernel may choose the worker, and the process hangs, or the worker blocks the signal, and does not die of it. -/
theorem C124_dilemma {sigs : List Int} {s : MaskState} (h : Calm sigs s) {n : Int} (hn : n ∈ sigs) :
    ¬ ((∃ t, s.live t = true ∧ n ∉ s.mask t) ∧ ∀ t, s.live t = true → n ∉ s.mask t →
      ∃ ls s2, (∀ l ∈ ls, workerStep l) ∧ mRun sigs s ([.kill n, .deliver t n] ++ ls) = some s2 ∧ s2.ended = some (.killed n)) := by
  rintro ⟨⟨t, ht, hm⟩, H⟩
  have nohang : ∀ u, ofLibrary u → s.live u = true → n ∉ s.mask u → False := by
    intro u hu h1 h2
    obtain ⟨ls, s2, l1, l2, l3⟩ := H u h1 h2
    obtain ⟨s1, e1, e2⟩ := C124_hangs h hu h1 hn h2
    rw [mRun_append, e1] at l2
    rw [e2 ls s2 (fun l hl => worker_noCrash sigs (l1 l hl)) l2] at l3
    cases l3
  obtain ⟨ls, s2, l1, l2, l3⟩ := H t ht hm
  obtain ⟨s1, e1, e2⟩ := C124_outside h hn (fun u hu h1 => by by_contra h2; exact nohang u hu h1 h2) ht hm
  rw [mRun_append, e1] at l2
  have := ((e2 ls s2 l1 l2).2.2 _ l3).1
  cases this

/-- **C124** (faults). A fault in a thread that blocks its signal kills the process without a report. -/
theorem C124_fault {sigs : List Int} {s : MaskState} (h : Calm sigs s) {t : MThr} {n : Int} (ht : s.live t = true) (hm : n ∈ s.mask t) :
    ∃ s1, mRun sigs s [.fault t n] = some s1 ∧ s1.ended = some (.killed n) ∧ s1.report = [] := by
  refine ⟨{ s with ended := some (.killed n) }, ?_, rfl, h.clean⟩
  simp [mRun, mStep, h.runs, ht, h.awake t, hm]

/-! ### Signals that wait, come too early, or come in between -/

/-- **C124** (waiting). A signal from outside that every thread blocks waits. It is taken as soon as a thread of the program unblocks it, as if it had come then, and only once. -/
theorem C124_waits {sigs : List Int} {s : MaskState} (h : Calm sigs s) {n : Int} (hb : ∀ t, s.live t = true → n ∈ s.mask t) :
    ∃ s1, mRun sigs s [.kill n] = some s1 ∧ (∀ t, mStep sigs s1 (.deliver t n) = none) ∧
      ∀ i m, s.live (.prog i) = true → n ∉ m → ∃ s2 s3, mRun sigs s [.setMask (.prog i) m] = some s2 ∧ s2.mask (.prog i) = m ∧ (∀ u, u ≠ .prog i → s2.mask u = s.mask u) ∧
        mRun sigs s1 [.setMask (.prog i) m, .deliver (.prog i) n] = some s3 ∧ s3 = s2.hit (.prog i) n ∧ s3.pending = [] ∧ (n ∈ sigs → ∀ u, mStep sigs s3 (.deliver u n) = none) := by
  refine ⟨{ s with pending := n :: s.pending }, by simp [mRun, mStep, h.runs], ?_, ?_⟩
  · intro t
    have : ¬ (s.live t = true ∧ n ∉ s.mask t) := fun e => e.2 (hb t e.1)
    simp only [mStep, h.runs]
    rw [if_neg (by simp), if_neg this]
  · intro i m hi hm
    have e2 : mRun sigs s [.setMask (.prog i) m] = some { s with mask := Function.update s.mask (.prog i) m } := by simp [mRun, mStep, h.runs, hi, h.awake]
    have c2 : Calm sigs { s with mask := Function.update s.mask (.prog i) m } := ⟨h.up, h.worker, h.sinks, h.awake, h.none1, h.none2, h.handles, h.first, h.empty, h.serving, h.clean, h.runs⟩
    have pend : ∀ x : MaskState, x.pending = [] → (x.hit (.prog i) n).pending = [] := by
      intro x hx; unfold MaskState.hit
      split
      · exact hx
      · dsimp only
        split
        · exact hx
        · split <;> exact hx
    have own : ∀ x : MaskState, (x.hit (.prog i) n).own = x.own := by
      intro x; unfold MaskState.hit
      split
      · rfl
      · dsimp only
        split
        · rfl
        · split <;> rfl
    refine ⟨_, _, e2, by simp, ?_, ?_, rfl, pend _ h.none1, ?_⟩
    · intro u hu; exact Function.update_of_ne hu ..
    · have a1 : mStep sigs { s with pending := n :: s.pending } (.setMask (.prog i) m) = some { s with pending := n :: s.pending, mask := Function.update s.mask (.prog i) m } := by
        simp [mStep, h.runs, hi, h.awake]
      have a2 : mStep sigs { s with pending := n :: s.pending, mask := Function.update s.mask (.prog i) m } (.deliver (.prog i) n) =
          some (MaskState.hit { s with mask := Function.update s.mask (.prog i) m } (.prog i) n) := by
        simp [mStep, h.runs, hi, hm, h.none2]
      rw [mRun, a1, Option.bind_some, mRun, a2]
      rfl
    · intro _ u
      unfold mStep
      split
      · rfl
      · dsimp only
        rw [own, pend { s with mask := Function.update s.mask (.prog i) m } h.none1]
        split
        · rw [if_neg (by show n ∉ s.own u; rw [h.none2]; simp), if_neg (by simp)]
        · rfl

/-- **C124** (once). A signal from outside is taken by one thread only. -/
theorem C124_once {sigs : List Int} {s : MaskState} (h : Calm sigs s) {t : MThr} {n : Int} (ht : s.live t = true) (hn : n ∈ sigs) (hm : n ∉ s.mask t) :
    ∃ s1, mRun sigs s [.kill n, .deliver t n] = some s1 ∧ ∀ u, mStep sigs s1 (.deliver u n) = none := by
  refine ⟨s.hit t n, ?_, ?_⟩
  · exact kill_deliver sigs h.runs (h.none2 t) ht hm
  · intro u
    rw [hit_calm h t n hn]
    simp [mStep, h.runs, h.none1, h.none2]

/-- **C124** (raise). A signal that a thread which blocks it sends to itself waits for this thread, even if others do not block it. -/
theorem C124_own {sigs : List Int} {s : MaskState} (h : Calm sigs s) {i : Nat} {n : Int} (hi : s.live (.prog i) = true) (hb : n ∈ s.mask (.prog i)) :
    ∃ s1, mRun sigs s [.raise (.prog i) n] = some s1 ∧ s1.ended = none ∧ s1.report = [] ∧ (∀ u, mStep sigs s1 (.deliver u n) = none) ∧
      ∀ m, n ∉ m → ∃ s2 s3, mRun sigs s1 [.setMask (.prog i) m, .deliver (.prog i) n] = some s3 ∧ mRun sigs s [.setMask (.prog i) m] = some s2 ∧ s3 = s2.hit (.prog i) n := by
  refine ⟨{ s with own := Function.update s.own (.prog i) (n :: s.own (.prog i)) }, by simp [mRun, mStep, h.runs, hi, hb, h.awake], h.runs, h.clean, ?_, ?_⟩
  · intro u
    by_cases hu : u = .prog i
    · subst hu; simp [mStep, h.runs, hb]
    · simp [mStep, h.runs, hu, h.none1, h.none2]
  · intro m hm
    refine ⟨{ s with mask := Function.update s.mask (.prog i) m }, _, ?_, by simp [mRun, mStep, h.runs, hi, h.awake], rfl⟩
    have a1 : mStep sigs { s with own := Function.update s.own (.prog i) (n :: s.own (.prog i)) } (.setMask (.prog i) m) =
        some { s with own := Function.update s.own (.prog i) (n :: s.own (.prog i)), mask := Function.update s.mask (.prog i) m } := by
      simp [mStep, h.runs, hi, h.awake]
    have ho : Function.update (Function.update s.own (.prog i) (n :: s.own (.prog i))) (.prog i) [] = s.own := by
      funext u
      by_cases hu : u = .prog i
      · subst hu; simp [h.none2]
      · simp [hu]
    have a2 : mStep sigs { s with own := Function.update s.own (.prog i) (n :: s.own (.prog i)), mask := Function.update s.mask (.prog i) m } (.deliver (.prog i) n) =
        some (MaskState.hit { s with mask := Function.update s.mask (.prog i) m } (.prog i) n) := by
      simp only [mStep, h.runs]
      rw [if_neg (by simp), if_pos ⟨hi, by simpa using hm⟩, if_pos (by simp)]
      have : ((Function.update s.own (.prog i) (n :: s.own (.prog i)) (.prog i)).erase n) = [] := by simp [h.none2]
      rw [this, ho]
    rw [mRun, a1, Option.bind_some, mRun, a2]
    rfl

/-- **C124** (early). Before logging has been set up nothing is reported. A signal that is not blocked kills the process; a fatal statement does so too, but ends by `exit(6)` if its thread blocks SIGABRT. -/
theorem C124_early (sigs m : List Int) (ls : List MLabel) (s : MaskState) (hq : ∀ l ∈ ls, quiet l) (h : mRun sigs (mStart m) ls = some s) (hw : s.live .worker = false)
    {t : MThr} (ht : s.live t = true) :
    (∀ n ev, Event s t n ev → ev ≠ [.fatal t] → ∃ s1, mRun sigs s ev = some s1 ∧ s1.ended = some (.killed n) ∧ s1.report = []) ∧
    ∃ s1, mRun sigs s [.fatal t] = some s1 ∧ s1.report = [] ∧ (s1.ended = some (.exited 6) ↔ 6 ∈ s.mask t) ∧ (s1.ended = some (.killed 6) ↔ 6 ∉ s.mask t) := by
  have inv : ∀ (ls : List MLabel) (a : MaskState), QuietInv sigs a → (∀ l ∈ ls, quiet l) → mRun sigs a ls = some s → QuietInv sigs s := by
    intro ls
    induction ls with
    | nil => intro a ha _ hr; cases hr; exact ha
    | cons l r ih =>
      intro a ha hq hr
      rw [mRun] at hr
      cases hs : mStep sigs a l with
      | none => rw [hs] at hr; cases hr
      | some a1 =>
        rw [hs] at hr
        exact ih a1 (quiet_step ha (hq l (List.mem_cons_self ..)) hs) (fun l hl => hq l (List.mem_cons_of_mem _ hl)) hr
  have q := inv ls _ (quiet_start sigs m) hq h
  have hh : s.handled = [] := by rw [q.handles, hw]; rfl
  have hu : s.logger = false := by rw [q.up, hw]
  have ho : s.own t = [] := q.none2 t
  have hit : ∀ n, s.hit t n = { s with ended := some (.killed n) } := by intro n; simp [MaskState.hit, hh]
  constructor
  · intro n ev he hne
    refine ⟨{ s with ended := some (.killed n) }, ?_, rfl, q.clean⟩
    cases he with
    | raise => rename_i hm; simp [mRun, mStep, q.runs, ht, q.awake, hm, hit]
    | fault => rename_i hm; simp [mRun, mStep, q.runs, ht, q.awake, hm, hit]
    | kill => rename_i hm; rw [kill_deliver sigs q.runs ho ht hm, hit]
    | fatal => exact absurd rfl hne
  · refine ⟨{ s with handled := [], ended := some (if (6 : Int) ∈ s.mask t then .exited 6 else .killed 6) }, by simp [mRun, mStep, q.runs, ht, q.awake, hu], q.clean, ?_, ?_⟩
    · by_cases h6 : (6 : Int) ∈ s.mask t <;> simp [h6]
    · by_cases h6 : (6 : Int) ∈ s.mask t <;> simp [h6]

/-- **C124** (in between, before the handlers are restored). While the worker deals with a fatal statement, the first signal in another thread, whichever it is, ends the process by `exit`, and the sinks have not been waited for. -/
theorem C124_between {sigs : List Int} {s : MaskState} (h : Calm sigs s) {t u : MThr} {n : Int} (ht : s.live t = true) (htw : t ≠ .worker) (hu : s.live u = true) (hut : u ≠ t)
    (hn : n ∈ sigs) (hm : n ∉ s.mask u) :
    ∃ s1, mRun sigs s [.fatal t, .take, .kill n, .deliver u n] = some s1 ∧ s1.ended = some (.exited n) ∧ s1.report = [6] ∧ s1.wpc = .fatal 6 := by
  have ho : s.own u = [] := h.none2 u
  have hw : Function.update s.asleep t true .worker = false := by rw [Function.update_of_ne (Ne.symm htw)]; exact h.awake _
  have e1 : mStep sigs s (.fatal t) = some { s with asleep := Function.update s.asleep t true, queue := [6] } := by simp [mStep, h.runs, ht, h.awake, h.up, h.empty]
  have e2 : mStep sigs { s with asleep := Function.update s.asleep t true, queue := [6] } .take =
      some { s with asleep := Function.update s.asleep t true, queue := [], wpc := .fatal 6, logger := false, report := [6] } := by simp [mStep, h.runs, hw, h.serving, h.clean]
  have e3 : mStep sigs { s with asleep := Function.update s.asleep t true, queue := [], wpc := .fatal 6, logger := false, report := [6] } (.kill n) =
      some { s with asleep := Function.update s.asleep t true, queue := [], wpc := .fatal 6, logger := false, report := [6], pending := [n] } := by simp [mStep, h.runs, h.none1]
  have e4 : ∃ s1, mStep sigs { s with asleep := Function.update s.asleep t true, queue := [], wpc := .fatal 6, logger := false, report := [6], pending := [n] } (.deliver u n) = some s1 ∧
      s1.ended = some (.exited n) ∧ s1.report = [6] ∧ s1.wpc = .fatal 6 := by
    simp [mStep, h.runs, hu, hm, ho, MaskState.hit, h.handles, hn, h.first]
  obtain ⟨s1, e4, e5⟩ := e4
  refine ⟨s1, ?_, e5⟩
  rw [mRun, e1, Option.bind_some, mRun, e2, Option.bind_some, mRun, e3, Option.bind_some, mRun, e4]
  rfl

/-- **C124** (in between, after the handlers have been restored). Then a signal in another thread kills the process, by itself and not by the signal that was reported. -/
theorem C124_between_restored {sigs : List Int} {s : MaskState} (h : Calm sigs s) {i : Nat} {n k : Int} {ev : List MLabel} (ht : s.live (.prog i) = true) (hn : n ∈ sigs)
    (he : Event s (.prog i) n ev) {u : MThr} (hu : s.live u = true) (hui : u ≠ .prog i) (hm : k ∉ s.mask u) :
    ∃ s1, mRun sigs s (ev ++ [.take, .flush, .restore, .fault u k]) = some s1 ∧ s1.ended = some (.killed k) ∧ s1.report = [n] := by
  obtain ⟨s1, e1, a⟩ := event_after h ht hn he
  have hw : s1.asleep .worker = false := by rw [a.asleep, Function.update_of_ne (by simp)]; exact h.awake _
  have hu' : s1.asleep u = false := by rw [a.asleep, Function.update_of_ne hui]; exact h.awake _
  have hs : (s1.sinks.all fun k => !s1.asleep (.sink k)) = true := by
    rw [List.all_eq_true]; intro k _
    rw [a.asleep, Function.update_of_ne (by simp), h.awake]; rfl
  have hl : s1.live u = true := by rw [a.live]; exact hu
  have hm' : k ∉ s1.mask u := by rw [a.mask u hui]; exact hm
  rw [mRun_append, e1, Option.bind_some]
  have f1 : mStep sigs s1 .take = some { s1 with queue := [], wpc := .fatal n, logger := false, report := [n] } := by simp [mStep, a.runs, hw, a.wpc, a.queue, a.report]
  have f2 : mStep sigs { s1 with queue := [], wpc := .fatal n, logger := false, report := [n] } .flush = some { s1 with queue := [], wpc := .flushed n, logger := false, report := [n] } := by
    simp only [mStep, a.runs, hw]
    rw [if_neg (by simp), if_neg (by simp), if_pos hs]
  have f3 : mStep sigs { s1 with queue := [], wpc := .flushed n, logger := false, report := [n] } .restore =
      some { s1 with queue := [], wpc := .restored n, logger := false, report := [n], handled := [] } := by simp [mStep, a.runs, hw]
  have f4 : mStep sigs { s1 with queue := [], wpc := .restored n, logger := false, report := [n], handled := [] } (.fault u k) =
      some { s1 with queue := [], wpc := .restored n, logger := false, report := [n], handled := [], ended := some (.killed k) } := by
    simp [mStep, a.runs, hl, hu', hm', MaskState.hit]
  refine ⟨{ s1 with queue := [], wpc := .restored n, logger := false, report := [n], handled := [], ended := some (.killed k) }, ?_, rfl, rfl⟩
  rw [mRun, f1, Option.bind_some, mRun, f2, Option.bind_some, mRun, f3, Option.bind_some, mRun, f4]
  rfl

/-! ### The full statement does not hold -/

/-- The signals that the library handles: SIGILL, SIGABRT, SIGFPE, SIGSEGV, SIGTERM (/repo/src/crashhandler_unix.cpp:42-48, values of Linux). -/
def usualSignals : List Int := [4, 6, 8, 11, 15]

/-- **C124** (negation). It is not the case that a fatal statement always ends the process by SIGABRT: if the program blocks SIGABRT before it sets up logging, the process ends by `exit(6)`, and a core is not dumped. -/
theorem C124_negation :
    ¬ ∀ (m : List Int) (ls : List MLabel) (s : MaskState), (∀ l ∈ ls, quiet l) → mRun usualSignals (mStart m) ls = some s → s.live .worker = true →
      ∃ s1 rs s2, mRun usualSignals s [.fatal (.prog 0)] = some s1 ∧ (∀ l ∈ rs, workerStep l) ∧ mRun usualSignals s1 rs = some s2 ∧ s2.ended = some (.killed 6) := by
  intro H
  have hl : mRun usualSignals (mStart [6]) [.init (.prog 0)] = some { (mStart [6]).start (.prog 0) .worker with logger := true, handled := usualSignals } := rfl
  have hq : ∀ l ∈ [MLabel.init (.prog 0)], quiet l := by intro l h; rw [List.mem_singleton.mp h]; trivial
  obtain ⟨s1, rs, s2, h1, h2, h3, h4⟩ := H [6] _ _ hq hl (by rw [start_live]; rfl)
  obtain ⟨hc, hm⟩ := C124_setup usualSignals [6] _ _ hq hl (by rw [start_live]; rfl)
  obtain ⟨s1', e1, e2⟩ := C124_exact (i := 0) (n := 6) hc (by rw [start_live]; rfl) (by decide) (Event.fatal _) true (by rw [hm]; simp [workerMask])
  have : s1' = s1 := Option.some.inj (e1.symm.trans h1)
  subst this
  have := ((e2 rs s2 h2 h3).2.2 _ h4).1
  cases this

/-- **C124** (dedicated thread). The usual advice, to block SIGTERM in the threads of the program so that one of them can wait for it, makes the process immune to SIGTERM if it is followed after logging has been set up: the kernel has no choice
but the worker, and the process hangs. -/
theorem C124_late_mask : ∃ ls s, (∀ l ∈ ls, quiet l) ∧ mRun usualSignals (mStart []) ls = some s ∧ s.live .worker = true ∧
    (∀ t, s.live t = true → (15 ∉ s.mask t ↔ t = .worker)) ∧
    ∃ s1, mRun usualSignals s [.kill 15, .deliver .worker 15] = some s1 ∧ ∀ r s2, (∀ l ∈ r, noCrash usualSignals l) → mRun usualSignals s1 r = some s2 → s2.ended = none := by
  have hq : ∀ l ∈ [MLabel.init (.prog 0), .setMask (.prog 0) [15]], quiet l := by
    intro l h
    rcases List.mem_cons.mp h with rfl | h
    · trivial
    · rw [List.mem_singleton.mp h]; trivial
  have hr : mRun usualSignals (mStart []) [.init (.prog 0), .setMask (.prog 0) [15]] =
      some { (mStart []).start (.prog 0) .worker with logger := true, handled := usualSignals, mask := Function.update ((mStart []).start (.prog 0) .worker).mask (.prog 0) [15] } := rfl
  have hw : ((mStart []).start (.prog 0) .worker).live .worker = true := by rw [start_live]; rfl
  obtain ⟨hc, hm⟩ := C124_setup usualSignals [] _ _ hq hr hw
  refine ⟨_, _, hq, hr, hw, ?_, C124_hangs hc trivial hw (by decide) (by rw [hm]; simp [workerMask])⟩
  intro t ht
  have ht' : ((mStart []).start (.prog 0) .worker).live t = true := ht
  rw [start_live] at ht'
  dsimp only
  rw [start_mask]
  cases t with
  | prog i =>
    have : i = 0 := by simpa [mStart] using ht'
    subst this
    simp
  | worker => simp [mStart]
  | sink k => simp [mStart] at ht'

/-! ### Which steps are possible, and what they do to the masks -/

/-- **C124** (possible steps). A step is possible exactly if the process runs, the thread that does it exists and does not sleep, and the step has what it requires. -/
theorem C124_can (sigs : List Int) (s : MaskState) (l : MLabel) :
    (mStep sigs s l).isSome = true ↔ s.ended = none ∧ (∀ t, actor l = some t → s.asleep t = false ∧ (workerStep l ∨ s.live t = true)) ∧ requires s l := by
  unfold mStep
  by_cases he : s.ended.isSome = true
  · rw [if_pos he]
    refine iff_of_false (by simp) fun h => ?_
    rw [h.1] at he
    cases he
  · rw [if_neg he]
    have he : s.ended = none := by simpa using he
    cases l with
    | spawn t i => dsimp only; split <;> simp_all [actor, workerStep, requires]
    | init t => dsimp only; split <;> simp_all [actor, workerStep, requires]
    | addSink t k => dsimp only; split <;> simp_all [actor, workerStep, requires]
    | setMask t m => dsimp only; cases h1 : s.live t <;> cases h2 : s.asleep t <;> simp_all [actor, workerStep, requires]
    | raise t n => dsimp only; cases h1 : s.live t <;> cases h2 : s.asleep t <;> simp_all [actor, workerStep, requires]
    | fault t n => dsimp only; cases h1 : s.live t <;> cases h2 : s.asleep t <;> simp_all [actor, workerStep, requires]
    | fatal t => dsimp only; cases h1 : s.live t <;> cases h2 : s.asleep t <;> simp_all [actor, workerStep, requires]
    | kill n => simp_all [actor, requires]
    | deliver t n => dsimp only; split <;> (try split) <;> (try split) <;> simp_all [actor, requires] <;> tauto
    | take =>
      dsimp only
      split
      · simp_all [actor]
      · split
        · simp_all [actor, workerStep, requires]
        · rename_i h1 h2
          simp only [Option.isSome_none, Bool.false_eq_true, false_iff]
          rintro ⟨_, _, h3, h4⟩
          obtain ⟨n, q, h5⟩ := List.exists_cons_of_ne_nil h4
          exact h2 n q h3 h5
    | flush =>
      dsimp only
      split
      · simp_all [actor]
      · split
        · split <;> simp_all [actor, workerStep, requires]
        · rename_i h1 h2
          simp only [Option.isSome_none, Bool.false_eq_true, false_iff]
          rintro ⟨_, _, ⟨n, h3⟩, _⟩
          exact h2 n h3
    | restore =>
      dsimp only
      split
      · simp_all [actor]
      · split
        · simp_all [actor, workerStep, requires]
        · rename_i h1 h2
          simp only [Option.isSome_none, Bool.false_eq_true, false_iff]
          rintro ⟨_, _, n, h3⟩
          exact h2 n h3
    | wRaise =>
      dsimp only
      split
      · simp_all [actor]
      · split
        · simp_all [actor, workerStep, requires]
        · rename_i h1 h2
          simp only [Option.isSome_none, Bool.false_eq_true, false_iff]
          rintro ⟨_, _, n, h3⟩
          exact h2 n h3
    | exit =>
      dsimp only
      split
      · simp_all [actor]
      · split
        · simp_all [actor, workerStep, requires]
        · rename_i h1 h2
          simp only [Option.isSome_none, Bool.false_eq_true, false_iff]
          rintro ⟨_, _, n, h3⟩
          exact h2 n h3

theorem hit_masks (s : MaskState) (t u : MThr) (n : Int) : (s.hit t n).mask u = if u = t ∧ n ∈ s.handled then n :: s.mask u else s.mask u := by
  unfold MaskState.hit
  by_cases hn : n ∈ s.handled
  · rw [if_neg (by simpa using hn)]
    dsimp only
    by_cases hu : u = t
    · subst hu
      split
      · simp [hn]
      · split <;> simp [hn]
    · split
      · simp [Function.update_of_ne hu, hu]
      · split <;> simp [Function.update_of_ne hu, hu]
  · rw [if_pos hn]; simp [hn]

/-- **C124** (masks). The library changes no mask: threads, also those of the library, take over the mask of their parents, the program chooses masks, and the kernel blocks a signal in its handler. -/
theorem C124_masks {sigs : List Int} {s s' : MaskState} {l : MLabel} (h : mStep sigs s l = some s') (u : MThr) : s'.mask u = maskAfter s u l := by
  have he : ¬ s.ended.isSome = true := by
    intro he
    unfold mStep at h
    rw [if_pos he] at h
    cases h
  unfold mStep at h
  rw [if_neg he] at h
  cases l with
  | spawn t i =>
    dsimp only at h
    split at h
    · cases h; rw [start_mask]; rfl
    · cases h
  | init t =>
    dsimp only at h
    split at h
    · cases h; dsimp only; rw [start_mask]; rfl
    · cases h
  | addSink t k =>
    dsimp only at h
    split at h
    · cases h; dsimp only; rw [start_mask]; rfl
    · cases h
  | setMask t m =>
    dsimp only at h
    split at h
    · cases h
      by_cases hu : u = t
      · subst hu; simp [maskAfter]
      · simp [maskAfter, hu]
    · cases h
  | raise t n =>
    dsimp only at h
    split at h
    · cases h
      split
      · rename_i hm; simp [maskAfter, hm]
      · rename_i hm; rw [hit_masks]; simp [maskAfter, hm]
    · cases h
  | fault t n =>
    dsimp only at h
    split at h
    · cases h
      split
      · rename_i hm; simp [maskAfter, hm]
      · rename_i hm; rw [hit_masks]; simp [maskAfter, hm]
    · cases h
  | kill n => cases h; rfl
  | deliver t n =>
    dsimp only at h
    split at h
    · split at h
      · cases h; rw [hit_masks]; rfl
      · split at h
        · cases h; rw [hit_masks]; rfl
        · cases h
    · cases h
  | fatal t =>
    dsimp only at h
    split at h
    · cases h
      split <;> rfl
    · cases h
  | take =>
    dsimp only at h
    split at h
    · cases h
    · split at h
      · cases h; rfl
      · cases h
  | flush =>
    dsimp only at h
    split at h
    · cases h
    · split at h
      · split at h
        · cases h; rfl
        · cases h
      · cases h
  | restore =>
    dsimp only at h
    split at h
    · cases h
    · split at h
      · cases h; rfl
      · cases h
  | wRaise =>
    dsimp only at h
    split at h
    · cases h
    · split at h
      · cases h
        split <;> rfl
      · cases h
  | exit =>
    dsimp only at h
    split at h
    · cases h
    · split at h
      · cases h; rfl
      · cases h

/-! ### Examples -/

-- a thread that sleeps does nothing, and nothing happens twice
example : (mStep usualSignals { mStart [] with asleep := fun _ => true } (.setMask (.prog 0) [15])).isSome = false := rfl
example : (mStep usualSignals (mStart []) (.spawn (.prog 0) 0)).isSome = false ∧ (mStep usualSignals (mStart []) (.spawn (.prog 0) 1)).isSome = true := ⟨rfl, rfl⟩

/-- A program with two threads and a sink, for `C124_exact` and the others. -/
example : ∃ s, mRun usualSignals (mStart [15]) [.init (.prog 0), .addSink (.prog 0) 7, .setMask (.prog 0) [], .spawn (.prog 0) 1] = some s ∧ Calm usualSignals s ∧
    s.live (.prog 1) = true ∧ 15 ∉ s.mask (.prog 1) ∧ (∀ u, ofLibrary u → s.live u = true → 15 ∈ s.mask u) := by
  have hq : ∀ l ∈ [MLabel.init (.prog 0), .addSink (.prog 0) 7, .setMask (.prog 0) [], .spawn (.prog 0) 1], quiet l := by
    intro l h
    simp only [List.mem_cons, List.not_mem_nil, or_false] at h
    rcases h with rfl | rfl | rfl | rfl <;> trivial
  refine ⟨_, rfl, (C124_setup usualSignals [15] _ _ hq rfl rfl).1, rfl, by decide, ?_⟩
  intro u hu hl
  cases u with
  | prog i => exact hu.elim
  | worker => decide
  | sink k =>
    by_cases hk : k = 7
    · subst hk; decide
    · simp [MaskState.start, Function.update, mStart, hk] at hl

end G3.Props
