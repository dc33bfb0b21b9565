import Verif.Spec.FatalExit
import Mathlib.Tactic.ByContra
import Mathlib.Data.List.Induction
/-
Properties C79 and C80: fatal events on several threads and the end of the process.
-/
namespace G3.Props
open G3 G3.Spec

theorem xRun_snoc (ends : Int → Bool) (s : XState) (ls : List XLabel) (l : XLabel) :
    xRun ends s (ls ++ [l]) = (xRun ends s ls).bind (fun s' => xStep ends s' l) := by
  induction ls generalizing s with
  | nil => simp only [List.nil_append, xRun, Option.bind_some]; cases xStep ends s l <;> rfl
  | cons x ls ih =>
    simp only [List.cons_append, xRun]
    cases xStep ends s x with
    | none => rfl
    | some s' => exact ih s'

/-- What holds after every schedule. -/
structure XExitInv (s : XState) : Prop where
  hist : s.hist = s.done ++ s.sinkq ++ s.queue
  logger : s.logger = true ↔ s.wpc = .serving
  none : s.wpc = .serving → ∀ x ∈ s.done ++ s.sinkq, isFatal x = false
  one : s.wpc ≠ .serving → ∃ pre f, s.done ++ s.sinkq = pre ++ [f] ∧ (∀ x ∈ pre, isFatal x = false) ∧ isFatal f = true
  empty : (∀ n, s.wpc ≠ .fatal n) → s.wpc ≠ .serving → s.sinkq = []

theorem XExitInv.congr {s s' : XState} (h : XExitInv s) (h1 : s'.hist = s.hist) (h2 : s'.done = s.done) (h3 : s'.sinkq = s.sinkq)
    (h4 : s'.queue = s.queue) (h5 : s'.logger = s.logger) (h6 : s'.wpc = s.wpc) : XExitInv s' := by
  obtain ⟨a, b, c, d, e⟩ := h
  exact ⟨by rw [h1, h2, h3, h4]; exact a, by rw [h5, h6]; exact b, by rw [h6, h2, h3]; exact c, by rw [h6, h2, h3]; exact d,
    by rw [h6, h3]; exact e⟩

theorem XExitInv.hand {s : XState} (h : XExitInv s) (x : XItem) : XExitInv (s.hand x) := by
  obtain ⟨a, b, c, d, e⟩ := h
  refine ⟨?_, b, c, d, e⟩
  show s.hist ++ [x] = s.done ++ s.sinkq ++ (s.queue ++ [x])
  rw [a]; simp

theorem xExitInv_step {ends : Int → Bool} {s s' : XState} {l : XLabel} (h : XExitInv s) (hs : xStep ends s l = some s') : XExitInv s' := by
  unfold xStep at hs
  split at hs
  · cases hs
  cases l with
  | log t m =>
    simp only at hs
    split at hs
    · simp only [Option.some.injEq] at hs; subst hs
      split
      · exact h.hand _
      · exact h
    · cases hs
  | fatal t =>
    simp only at hs
    split at hs
    · simp only [Option.some.injEq] at hs; subst hs; exact h.congr rfl rfl rfl rfl rfl rfl
    · cases hs
  | signal t n =>
    simp only at hs
    split at hs
    · split at hs
      · simp only [Option.some.injEq] at hs; subst hs
        split <;> exact h.congr rfl rfl rfl rfl rfl rfl
      · simp only [Option.some.injEq] at hs; subst hs; exact h.congr rfl rfl rfl rfl rfl rfl
    · cases hs
  | leave t =>
    simp only at hs
    split at hs
    · simp only [Option.some.injEq] at hs; subst hs; exact h.congr rfl rfl rfl rfl rfl rfl
    · cases hs
  | check t =>
    simp only at hs
    split at hs
    · simp only [Option.some.injEq] at hs; subst hs; exact h.congr rfl rfl rfl rfl rfl rfl
    · cases hs
  | push t =>
    simp only at hs
    split at hs
    · split at hs
      · simp only [Option.some.injEq] at hs; subst hs; exact (h.hand _).congr rfl rfl rfl rfl rfl rfl
      · simp only [Option.some.injEq] at hs; subst hs; exact h.congr rfl rfl rfl rfl rfl rfl
    · cases hs
  | unblock t =>
    simp only at hs
    split at hs
    · simp only [Option.some.injEq] at hs; subst hs; exact h.congr rfl rfl rfl rfl rfl rfl
    · cases hs
  | restore t =>
    simp only at hs
    split at hs
    · simp only [Option.some.injEq] at hs; subst hs; exact h.congr rfl rfl rfl rfl rfl rfl
    · cases hs
  | raise t =>
    simp only at hs
    split at hs
    · split at hs
      · simp only [Option.some.injEq] at hs; subst hs; exact h.congr rfl rfl rfl rfl rfl rfl
      · simp only [Option.some.injEq] at hs; subst hs; exact h.congr rfl rfl rfl rfl rfl rfl
    · cases hs
  | release t =>
    simp only at hs
    split at hs
    · simp only [Option.some.injEq] at hs; subst hs; exact h.congr rfl rfl rfl rfl rfl rfl
    · cases hs
  | exit t =>
    simp only at hs
    split at hs
    · simp only [Option.some.injEq] at hs; subst hs; exact h.congr rfl rfl rfl rfl rfl rfl
    · cases hs
  | take =>
    simp only at hs
    obtain ⟨a, b, c, d, e⟩ := h
    split at hs
    · rename_i hw
      split at hs
      · cases hs
      · rename_i m q hq
        simp only [Option.some.injEq] at hs; subst hs
        refine ⟨by simp [a, hq], b, ?_, fun hn => absurd hw hn, fun _ hn => absurd hw hn⟩
        intro _ x hx
        simp only [List.mem_append, List.mem_singleton] at hx
        rcases hx with hx | hx | rfl
        · exact c hw x (List.mem_append_left _ hx)
        · exact c hw x (List.mem_append_right _ hx)
        · rfl
      · rename_i t n q hq
        simp only [Option.some.injEq] at hs; subst hs
        refine ⟨by simp [a, hq], by simp, by simp, ?_, ?_⟩
        · intro _
          exact ⟨s.done ++ s.sinkq, .fatal t n, by simp, c hw, rfl⟩
        · intro hn; exact absurd rfl (hn n)
    · cases hs
  | sink =>
    simp only at hs
    obtain ⟨a, b, c, d, e⟩ := h
    split at hs
    · cases hs
    · rename_i x q hq
      simp only [Option.some.injEq] at hs; subst hs
      have hdq : (s.done ++ [x]) ++ q = s.done ++ s.sinkq := by simp [hq]
      refine ⟨by show s.hist = (s.done ++ [x]) ++ q ++ s.queue; rw [hdq]; exact a, b, ?_, ?_, ?_⟩
      · show s.wpc = _ → ∀ y ∈ (s.done ++ [x]) ++ q, _; rw [hdq]; exact c
      · show s.wpc ≠ _ → ∃ pre f, (s.done ++ [x]) ++ q = _ ∧ _; rw [hdq]; exact d
      · intro h1 h2
        have := e h1 h2
        rw [hq] at this; cases this
  | flush =>
    simp only at hs
    obtain ⟨a, b, c, d, e⟩ := h
    split at hs
    · rename_i n hw
      split at hs
      · rename_i hq
        simp only [Option.some.injEq] at hs; subst hs
        refine ⟨a, ?_, by simp, fun _ => d (by rw [hw]; simp), fun _ _ => hq⟩
        rw [b, hw]; simp
      · cases hs
    · cases hs
  | wRestore =>
    simp only at hs
    obtain ⟨a, b, c, d, e⟩ := h
    split at hs
    · rename_i n hw
      simp only [Option.some.injEq] at hs; subst hs
      refine ⟨a, ?_, by simp, fun _ => d (by rw [hw]; simp), fun _ _ => e (by simp [hw]) (by simp [hw])⟩
      rw [b, hw]; simp
    · cases hs
  | wRaise =>
    simp only at hs
    split at hs
    · rename_i n hw
      simp only [Option.some.injEq] at hs; subst hs
      split
      · exact h.congr rfl rfl rfl rfl rfl rfl
      · obtain ⟨a, b, c, d, e⟩ := h
        refine ⟨a, ?_, by simp, fun _ => d (by rw [hw]; simp), fun _ _ => e (by simp [hw]) (by simp [hw])⟩
        rw [b, hw]; simp
    · cases hs
  | wRelease =>
    simp only at hs
    obtain ⟨a, b, c, d, e⟩ := h
    split at hs
    · rename_i n hw
      simp only [Option.some.injEq] at hs; subst hs
      refine ⟨a, ?_, by simp, fun _ => d (by rw [hw]; simp), fun _ _ => e (by simp [hw]) (by simp [hw])⟩
      rw [b, hw]; simp
    · cases hs
  | wExit =>
    simp only at hs
    split at hs
    · simp only [Option.some.injEq] at hs; subst hs; exact h.congr rfl rfl rfl rfl rfl rfl
    · cases hs

theorem xExitInv_start : XExitInv xStart := ⟨rfl, by simp [xStart], by simp [xStart], by simp [xStart], by simp [xStart]⟩

theorem xExitInv_run {ends : Int → Bool} {ls : List XLabel} {s : XState} (h : xRun ends xStart ls = some s) : XExitInv s := by
  induction ls using List.reverseRecOn generalizing s with
  | nil => simp only [xRun, Option.some.injEq] at h; subst h; exact xExitInv_start
  | append_singleton l x ih =>
    rw [xRun_snoc] at h
    cases h1 : xRun ends xStart l with
    | none => rw [h1] at h; cases h
    | some s1 => rw [h1, Option.bind_some] at h; exact xExitInv_step (ih h1) h

/-- The worker is past the flush. -/
def XWork.past : XWork → Prop
  | .serving => False
  | .fatal _ => False
  | _ => True

theorem XExitInv.flushed {s : XState} (h : XExitInv s) (hp : XWork.past s.wpc) : Flushed s.hist s.done := by
  have h1 : s.wpc ≠ .serving := by intro e; rw [e] at hp; exact hp
  have h2 : ∀ n, s.wpc ≠ .fatal n := by intro n e; rw [e] at hp; exact hp
  obtain ⟨pre, f, e, hm, hf⟩ := h.one h1
  have h3 := h.empty h2 h1
  rw [h3, List.append_nil] at e
  refine ⟨pre, f, s.queue, ?_, hm, hf, e⟩
  rw [h.hist, h3, e]; simp

/-- While the threads are held, at most one of them is dealing with a fatal event. -/
def OneBusy (s : XState) : Prop := s.block = true → ∀ t u, busy (s.pc t) → busy (s.pc u) → t = u

/-- At no moment of the history do two threads deal with fatal events at once (those stopped at the handler's counter do not count). -/
def OneAtATime (ends : Int → Bool) (ls : List XLabel) : Prop :=
  ∀ l1 l2 s, ls = l1 ++ l2 → xRun ends xStart l1 = some s → OneBusy s

/-- What holds as long as fatal events come one at a time. -/
structure XOne (s : XState) : Prop where
  low : s.block = true → ∀ t, s.pc t = .run ∨ s.pc t = .wait ∨ s.pc t = .prep ∨ s.pc t = .push ∨ s.pc t = .blocked
  sender : s.block = true → (s.wpc ≠ .serving ∨ ∃ x ∈ s.queue, isFatal x = true) → ∃ t, s.pc t = .blocked
  freed : s.block = false → XWork.past s.wpc
  restored : s.restored = true → XWork.past s.wpc
  dead : s.dead.isSome = true → XWork.past s.wpc

theorem xOne_step {ends : Int → Bool} {s s' : XState} {l : XLabel} (hi : XExitInv s) (h : XOne s) (hb : OneBusy s)
    (hs : xStep ends s l = some s') : XOne s' := by
  unfold xStep at hs
  split at hs
  · cases hs
  rename_i hd
  obtain ⟨a, b, c, d, e⟩ := h
  have hl := hi.logger
  have nb : ∀ t, s.pc t = .prep ∨ s.pc t = .push → s.block = true → s.logger = true := by
    intro t ht hbl
    by_contra hx
    obtain ⟨u, hu⟩ := b hbl (.inl (fun e => hx (hl.mpr e)))
    have h1 : busy (s.pc t) := by rcases ht with ht | ht <;> rw [ht] <;> trivial
    have h2 : busy (s.pc u) := by rw [hu]; trivial
    have := hb hbl t u h1 h2
    subst this
    rw [hu] at ht; simp at ht
  have b2 : s.block = true → ∀ x ∈ s.queue, isFatal x = true → ∃ t, s.pc t = .blocked := fun h1 x h2 h3 => b h1 (.inr ⟨x, h2, h3⟩)
  cases l with
  | log t m =>
    simp only at hs
    split at hs
    · simp only [Option.some.injEq] at hs; subst hs
      split
      · refine ⟨a, ?_, c, d, e⟩
        intro hbl hx
        refine b hbl (hx.imp id ?_)
        rintro ⟨x, hx, hf⟩
        simp only [XState.hand, List.mem_append, List.mem_singleton] at hx
        rcases hx with hx | rfl
        · exact ⟨x, hx, hf⟩
        · cases hf
      · exact ⟨a, b, c, d, e⟩
    · cases hs
  | fatal t =>
    simp only [XState.begin, XState.goto] at hs
    repeat' (split at hs)
    all_goals (cases hs)
    all_goals (constructor <;> (try simp only) <;> grind [XWork.past, isFatal])
  | signal t n =>
    simp only [XState.begin, XState.goto] at hs
    repeat' (split at hs)
    all_goals (cases hs)
    all_goals (constructor <;> (try simp only) <;> grind [XWork.past, isFatal])
  | leave t =>
    simp only [XState.goto] at hs
    repeat' (split at hs)
    all_goals (cases hs)
    all_goals (constructor <;> (try simp only) <;> grind [XWork.past, isFatal])
  | check t =>
    simp only [XState.goto] at hs
    repeat' (split at hs)
    all_goals (cases hs)
    all_goals (constructor <;> (try simp only) <;> grind [XWork.past, isFatal])
  | push t =>
    simp only [XState.goto, XState.hand] at hs
    repeat' (split at hs)
    all_goals (cases hs)
    all_goals (constructor <;> (try simp only) <;> grind [XWork.past, isFatal])
  | unblock t =>
    simp only [XState.goto] at hs
    repeat' (split at hs)
    all_goals (cases hs)
    all_goals (constructor <;> (try simp only) <;> grind [XWork.past, isFatal])
  | restore t =>
    simp only [XState.goto] at hs
    repeat' (split at hs)
    all_goals (cases hs)
    all_goals (constructor <;> (try simp only) <;> grind [XWork.past, isFatal])
  | raise t =>
    simp only [XState.goto] at hs
    repeat' (split at hs)
    all_goals (cases hs)
    all_goals (constructor <;> (try simp only) <;> grind [XWork.past, isFatal])
  | release t =>
    simp only [XState.goto] at hs
    repeat' (split at hs)
    all_goals (cases hs)
    all_goals (constructor <;> (try simp only) <;> grind [XWork.past, isFatal])
  | exit t =>
    simp only at hs
    repeat' (split at hs)
    all_goals (cases hs)
    all_goals (constructor <;> (try simp only) <;> grind [XWork.past, isFatal])
  | take =>
    simp only at hs
    split at hs
    · rename_i hw
      have np : ¬ XWork.past s.wpc := by rw [hw]; exact id
      split at hs
      · cases hs
      · rename_i m q heq
        cases hs
        refine ⟨a, ?_, c, d, e⟩
        intro h1 h2
        rcases h2 with h2 | ⟨x, h2, h3⟩
        · exact b h1 (.inl h2)
        · exact b2 h1 x (by rw [heq]; exact List.mem_cons_of_mem _ h2) h3
      · rename_i u n q heq
        cases hs
        exact ⟨a, fun h1 _ => b2 h1 (.fatal u n) (by rw [heq]; exact List.mem_cons_self) rfl, fun h1 => absurd (c h1) np,
          fun h1 => absurd (d h1) np, fun h1 => absurd (e h1) np⟩
    · cases hs
  | sink =>
    simp only at hs
    repeat' (split at hs)
    all_goals (cases hs)
    all_goals (constructor <;> (try simp only) <;> grind [XWork.past, isFatal])
  | flush =>
    simp only at hs
    repeat' (split at hs)
    all_goals (cases hs)
    all_goals (constructor <;> (try simp only) <;> grind [XWork.past, isFatal])
  | wRestore =>
    simp only at hs
    repeat' (split at hs)
    all_goals (cases hs)
    all_goals (constructor <;> (try simp only) <;> grind [XWork.past, isFatal])
  | wRaise =>
    simp only at hs
    repeat' (split at hs)
    all_goals (cases hs)
    all_goals (constructor <;> (try simp only) <;> grind [XWork.past, isFatal])
  | wRelease =>
    simp only at hs
    repeat' (split at hs)
    all_goals (cases hs)
    all_goals (constructor <;> (try simp only) <;> grind [XWork.past, isFatal])
  | wExit =>
    simp only at hs
    repeat' (split at hs)
    all_goals (cases hs)
    all_goals (constructor <;> (try simp only) <;> grind [XWork.past, isFatal])

theorem xOne_start : XOne xStart := ⟨by simp [xStart], by simp [xStart], by simp [xStart], by simp [xStart], by simp [xStart]⟩

theorem xOne_run {ends : Int → Bool} {ls : List XLabel} {s : XState} (ho : OneAtATime ends ls)
    (h : xRun ends xStart ls = some s) : XOne s := by
  induction ls using List.reverseRecOn generalizing s with
  | nil => simp only [xRun, Option.some.injEq] at h; subst h; exact xOne_start
  | append_singleton l x ih =>
    rw [xRun_snoc] at h
    cases h1 : xRun ends xStart l with
    | none => rw [h1] at h; cases h
    | some s1 =>
      rw [h1, Option.bind_some] at h
      have ho' : OneAtATime ends l := fun l1 l2 s e hr => ho l1 (l2 ++ [x]) s (by rw [e, List.append_assoc]) hr
      exact xOne_step (xExitInv_run h1) (ih ho' h1) (ho l [x] s1 rfl h1) h

/-- C79 (positive part): as long as fatal events come one at a time, the process does not end, in whatever way, before the sinks have
processed everything handed over up to and including the first fatal message. -/
theorem C79_one_at_a_time_partial (ends : Int → Bool) (ls : List XLabel) (s : XState) (h : xRun ends xStart ls = some s)
    (ho : OneAtATime ends ls) (hd : s.dead.isSome = true) : Flushed s.hist s.done :=
  (xExitInv_run h).flushed ((xOne_run ho h).dead hd)

/-! ### When do fatal events come one at a time? -/

theorem xStep_block {ends : Int → Bool} {s s' : XState} {l : XLabel} (hs : xStep ends s l = some s') (hb : s'.block = true) :
    s.block = true := by
  unfold xStep at hs
  split at hs
  · cases hs
  cases l <;> simp only [XState.begin, XState.goto, XState.hand] at hs <;> (repeat' (split at hs)) <;> cases hs <;>
    (try simp only at hb) <;> grind

/-- What one step does to the threads that are busy, while the threads are held. -/
theorem xStep_busy {ends : Int → Bool} {s s' : XState} {l : XLabel} (hs : xStep ends s l = some s') (hb : s.block = true) (t : Nat)
    (ht : busy (s'.pc t)) : busy (s.pc t) ∨ l = .fatal t ∨ (∃ n, l = .signal t n ∧ s.first = 0) := by
  unfold xStep at hs
  split at hs
  · cases hs
  rename_i hd
  cases l <;> simp only [XState.begin, XState.goto, XState.hand] at hs <;> (repeat' (split at hs)) <;> cases hs <;>
    (try simp only at ht) <;>
    first | exact .inl ht | (split at ht; (rename_i e; subst e; first | exact .inr (.inr ⟨_, rfl, ‹_›⟩) | grind [busy]); grind [busy]) | grind [busy]

theorem xStep_first {ends : Int → Bool} {s s' : XState} {l : XLabel} (hs : xStep ends s l = some s') :
    s'.first = s.first ∨ ((∃ t n, l = .signal t n) ∧ s'.first = s.first + 1) := by
  unfold xStep at hs
  split at hs
  · cases hs
  cases l <;> simp only [XState.begin, XState.goto, XState.hand] at hs <;> (repeat' (split at hs)) <;> cases hs <;>
    (try simp only) <;> grind

theorem xStep_signal_first {ends : Int → Bool} {s s' : XState} {t : Nat} {n : Int} (hs : xStep ends s (.signal t n) = some s')
    (ht : busy (s'.pc t)) : s'.first = s.first + 1 := by
  unfold xStep at hs
  split at hs
  · cases hs
  simp only [XState.begin, XState.goto, XState.hand] at hs
  (repeat' (split at hs)) <;> cases hs <;> (try simp only at ht) <;> grind [busy]

/-- Schedules in which all fatal events are signals: at most one gets past the counter. -/
theorem signals_one {ends : Int → Bool} {ls : List XLabel} {s : XState} (hl : OnlySignals ls) (h : xRun ends xStart ls = some s)
    (hb : s.block = true) :
    (∀ t u, busy (s.pc t) → busy (s.pc u) → t = u) ∧ (s.first = 0 → ∀ t, ¬ busy (s.pc t)) := by
  induction ls using List.reverseRecOn generalizing s with
  | nil => simp only [xRun, Option.some.injEq] at h; subst h; exact ⟨fun t u h => absurd h (by simp [xStart, busy]), fun _ t => by simp [xStart, busy]⟩
  | append_singleton l x ih =>
    rw [xRun_snoc] at h
    cases h1 : xRun ends xStart l with
    | none => rw [h1] at h; cases h
    | some s1 =>
      rw [h1, Option.bind_some] at h
      have hb1 := xStep_block h hb
      obtain ⟨i1, i2⟩ := ih (fun y hy => hl y (List.mem_append_left _ hy)) h1 hb1
      have hx : ∀ t, x ≠ .fatal t := hl x (by simp)
      have key : ∀ t, busy (s.pc t) → busy (s1.pc t) ∨ (∃ n, x = .signal t n ∧ s1.first = 0) := by
        intro t ht
        rcases xStep_busy h hb1 t ht with h | h | h
        · exact .inl h
        · exact absurd h (hx t)
        · exact .inr h
      constructor
      · intro t u ht hu
        rcases key t ht with a | ⟨n, a, a0⟩
        · rcases key u hu with b | ⟨m, b, b0⟩
          · exact i1 t u a b
          · exact absurd a (i2 b0 t)
        · rcases key u hu with b | ⟨m, b, b0⟩
          · exact absurd b (i2 a0 u)
          · rw [a] at b; cases b; rfl
      · intro h0 t ht
        rcases key t ht with a | ⟨n, a, a0⟩
        · rcases xStep_first h with hf | ⟨_, hf⟩
          · exact i2 (by omega) t a
          · omega
        · subst a
          have := xStep_signal_first h ht
          omega

theorem onlySignals_one {ends : Int → Bool} {ls : List XLabel} (hl : OnlySignals ls) : OneAtATime ends ls := by
  intro l1 l2 s e h hb
  exact (signals_one (fun y hy => hl y (by rw [e]; exact List.mem_append_left _ hy)) h hb).1

/-- Schedules with a single fatal event. -/
theorem single_one {ends : Int → Bool} {ls : List XLabel} {s : XState} (h : xRun ends xStart ls = some s) (hb : s.block = true) :
    ((events ls).length ≤ 1 → ∀ t u, busy (s.pc t) → busy (s.pc u) → t = u) ∧ ((events ls).length = 0 → ∀ t, ¬ busy (s.pc t)) := by
  induction ls using List.reverseRecOn generalizing s with
  | nil => simp only [xRun, Option.some.injEq] at h; subst h; exact ⟨fun _ t u h => absurd h (by simp [xStart, busy]), fun _ t => by simp [xStart, busy]⟩
  | append_singleton l x ih =>
    rw [xRun_snoc] at h
    cases h1 : xRun ends xStart l with
    | none => rw [h1] at h; cases h
    | some s1 =>
      rw [h1, Option.bind_some] at h
      have hb1 := xStep_block h hb
      obtain ⟨i1, i2⟩ := ih h1 hb1
      have hev : events (l ++ [x]) = events l ++ events [x] := by simp [events]
      have hxe : ∀ t, x = .fatal t ∨ (∃ n, x = .signal t n ∧ s1.first = 0) → (events [x]).length = 1 := by
        rintro t (h | ⟨n, h, _⟩) <;> subst h <;> simp [events]
      rw [hev, List.length_append]
      constructor
      · intro hle t u ht hu
        rcases xStep_busy h hb1 t ht with a | a
        · rcases xStep_busy h hb1 u hu with b | b
          · exact i1 (by omega) t u a b
          · exact absurd a (i2 (by have := hxe u b; omega) t)
        · rcases xStep_busy h hb1 u hu with b | b
          · exact absurd b (i2 (by have := hxe t a; omega) u)
          · rcases a with a | ⟨n, a, _⟩ <;> rcases b with b | ⟨m, b, _⟩ <;> rw [a] at b <;> cases b <;> rfl
      · intro h0 t ht
        rcases xStep_busy h hb1 t ht with a | a
        · exact i2 (by omega) t a
        · have := hxe t a; omega

theorem events_prefix {l1 l2 : List XLabel} : (events l1).length ≤ (events (l1 ++ l2)).length := by
  simp [events]

/-- C79 (positive part): if all fatal events are signals, however many, on whichever threads and at whatever moments, then everything handed over
up to and including the fatal message is processed by the sinks before the process ends. -/
theorem C79_signals_partial (ends : Int → Bool) (ls : List XLabel) (s : XState) (h : xRun ends xStart ls = some s)
    (hl : OnlySignals ls) (hd : s.dead.isSome = true) : Flushed s.hist s.done :=
  C79_one_at_a_time_partial ends ls s h (onlySignals_one hl) hd

/-- C79 (positive part): so it is with a single fatal event of any kind, whatever is logged by other threads at the same time. -/
theorem C79_single_partial (ends : Int → Bool) (ls : List XLabel) (s : XState) (h : xRun ends xStart ls = some s)
    (hl : (events ls).length ≤ 1) (hd : s.dead.isSome = true) : Flushed s.hist s.done :=
  C79_one_at_a_time_partial ends ls s h
    (fun _ _ _ e hr hb => (single_one hr hb).1 (Nat.le_trans (e ▸ events_prefix) hl)) hd

/-! ### Two fatal statements -/

theorem xRun_append (ends : Int → Bool) (s : XState) (l1 l2 : List XLabel) :
    xRun ends s (l1 ++ l2) = (xRun ends s l1).bind (fun s' => xRun ends s' l2) := by
  induction l1 generalizing s with
  | nil => rfl
  | cons x l ih =>
    simp only [List.cons_append, xRun]
    cases xStep ends s x with
    | none => rfl
    | some s' => exact ih s'

theorem xRun_logs (ends : Int → Bool) (ms : List Nat) (s : XState) (hd : s.dead = none) (hp : s.pc 0 = .run) (hl : s.logger = true) :
    xRun ends s (ms.map (.log 0)) = some { s with queue := s.queue ++ ms.map .msg, hist := s.hist ++ ms.map .msg } := by
  induction ms generalizing s with
  | nil => simp [xRun]
  | cons m ms ih =>
    simp only [List.map_cons, xRun, xStep, hd, hp, hl, Option.isSome_none, Bool.false_eq_true, if_false, true_or, if_true, Option.bind_some]
    rw [ih (s.hand (.msg m)) hd hp hl]
    simp [XState.hand, hd, hl]

theorem xRun_takes (ends : Int → Bool) (ms : List Nat) (s : XState) (q : List XItem) (hd : s.dead = none) (hw : s.wpc = .serving)
    (hq : s.queue = ms.map .msg ++ q) :
    xRun ends s (List.replicate ms.length .take) = some { s with queue := q, sinkq := s.sinkq ++ ms.map .msg } := by
  induction ms generalizing s with
  | nil => simp at hq; simp [xRun, ← hq]
  | cons m ms ih =>
    simp only [List.length_cons, List.replicate_succ, xRun, xStep, hd, hw, hq, Option.isSome_none, Bool.false_eq_true, if_false, if_true,
      Option.bind_some, List.map_cons, List.cons_append]
    rw [ih _ rfl rfl rfl]
    simp

/-- The beginning of the bad schedules: the messages `ms` are logged, thread 1 makes a fatal call, the worker takes everything, the sinks
have not got to it yet. -/
def cutPrefix (ms : List Nat) : List XLabel :=
  ms.map (.log 0) ++ [.fatal 1, .check 1, .push 1] ++ List.replicate ms.length .take ++ [.take]

/-- The state then. -/
def cutState (ms : List Nat) : XState :=
  { logger := false, first := 0, block := true, restored := false, queue := [], sinkq := ms.map .msg ++ [.fatal 1 6], done := [],
    hist := ms.map .msg ++ [.fatal 1 6], wpc := .fatal 6, pc := fun k => if k = 1 then .blocked else .run,
    sig := fun k => if k = 1 then 6 else 0, via := fun _ => false, dead := none }

theorem cutPrefix_run (ends : Int → Bool) (ms : List Nat) : xRun ends xStart (cutPrefix ms) = some (cutState ms) := by
  unfold cutPrefix
  rw [xRun_append, xRun_append, xRun_append, xRun_logs ends ms xStart rfl rfl rfl]
  simp only [Option.bind_some, xRun, xStep, xStart, Option.isSome_none, Bool.false_eq_true, if_false, if_true, XState.begin, XState.goto,
    XState.hand]
  rw [xRun_takes ends ms _ [.fatal 1 6] rfl rfl (by simp)]
  simp only [Option.bind_some, Option.isSome_none, Bool.false_eq_true, if_false, if_true, Option.some.injEq]
  unfold cutState
  simp only [List.nil_append, XState.mk.injEq, true_and, and_true]
  refine ⟨?_, ?_⟩ <;> funext k <;> by_cases hk : k = 1 <;> simp [hk]

theorem not_flushed_nil {hist : List XItem} : ¬ Flushed hist [] := by
  rintro ⟨pre, f, post, _, _, _, h⟩
  simp at h

/-- C79 is false in general: whatever has been logged, a LOG(FATAL) or failed CHECK on a second thread, made after the worker has begun to deal with
the first, finds no logger, restores the handlers and raises SIGABRT at once; the process is killed and neither the messages nor the fatal
message have reached a sink. -/
theorem C79_negation (ms : List Nat) : ∃ (ls : List XLabel) (s : XState), xRun (fun _ => true) xStart ls = some s ∧
    s.hist = ms.map .msg ++ [.fatal 1 6] ∧ s.dead = some (.killed 6) ∧ s.done = [] ∧ ¬ Flushed s.hist s.done := by
  refine ⟨cutPrefix ms ++ [.fatal 2, .check 2, .restore 2, .raise 2], _, (xRun_append _ _ _ _).trans ((congrArg (Option.bind · _) (cutPrefix_run _ ms)).trans rfl), ?_⟩
  exact ⟨rfl, rfl, rfl, not_flushed_nil⟩

/-- C79: the same with a fatal signal on the second thread: the process exits. -/
theorem C79_negation_signal (ms : List Nat) (n : Int) : ∃ (ls : List XLabel) (s : XState), xRun (fun _ => true) xStart ls = some s ∧
    s.hist = ms.map .msg ++ [.fatal 1 6] ∧ s.dead = some (.exited n) ∧ s.done = [] ∧ ¬ Flushed s.hist s.done := by
  refine ⟨cutPrefix ms ++ [.signal 2 n, .check 2, .restore 2, .raise 2, .release 2, .exit 2], _, (xRun_append _ _ _ _).trans ((congrArg (Option.bind · _) (cutPrefix_run _ ms)).trans rfl), ?_⟩
  exact ⟨rfl, rfl, rfl, not_flushed_nil⟩

/-- C79: if the second thread has looked for the logger before the worker began, and calls it afterwards, the call goes through a null pointer. -/
theorem C79_negation_null : ∃ (ls : List XLabel) (s : XState), xRun (fun _ => true) xStart ls = some s ∧
    s.dead = some .ub ∧ s.done = [] ∧ s.hist = [.fatal 1 6] := by
  refine ⟨[.fatal 1, .check 1, .push 1, .fatal 2, .check 2, .take, .push 2], _, rfl, rfl, rfl, rfl⟩

/-! ### C80 -/

/-- C80 (positive part): if raising a signal ends the process and fatal events come one at a time, no fatal statement and no handler ever
returns. -/
theorem C80_no_return_partial (ends : Int → Bool) (he : ∀ n, ends n = true) (ls : List XLabel) (s : XState)
    (h : xRun ends xStart ls = some s) (ho : OneAtATime ends ls) (t : Nat) : s.pc t ≠ .back := by
  have key : s.block = true ∧ (∀ n, s.wpc ≠ .raised n) := by
    induction ls using List.reverseRecOn generalizing s with
    | nil => simp only [xRun, Option.some.injEq] at h; subst h; exact ⟨rfl, by simp [xStart]⟩
    | append_singleton l x ih =>
      rw [xRun_snoc] at h
      cases h1 : xRun ends xStart l with
      | none => rw [h1] at h; cases h
      | some s1 =>
        rw [h1, Option.bind_some] at h
        have ho' : OneAtATime ends l := fun l1 l2 s e hr => ho l1 (l2 ++ [x]) s (by rw [e, List.append_assoc]) hr
        obtain ⟨i1, i2⟩ := ih s1 h1 ho'
        have hlow := (xOne_run ho' h1).low i1
        unfold xStep at h
        split at h
        · cases h
        cases x <;> simp only [XState.begin, XState.goto, XState.hand] at h <;> (repeat' (split at h)) <;> cases h <;>
          (try simp only) <;> grind
  intro hb
  have := (xOne_run ho h).low key.1 t
  rw [hb] at this; simp at this

/-- C80: whatever happens, a fatal statement that returns does so while some thread is inside exit(), or the process has ended. -/
theorem C80_exiting (ends : Int → Bool) (ls : List XLabel) (s : XState) (h : xRun ends xStart ls = some s) (t : Nat) (hb : s.pc t = .back) :
    (∃ u, s.pc u = .exiting) ∨ ∃ n, s.wpc = .exiting n := by
  have key : (s.block = false → (∃ u, s.pc u = .exiting) ∨ ∃ n, s.wpc = .exiting n) ∧ ((∃ u, s.pc u = .back) → s.block = false) := by
    clear hb
    induction ls using List.reverseRecOn generalizing s with
    | nil => simp only [xRun, Option.some.injEq] at h; subst h; exact ⟨by simp [xStart], by simp [xStart]⟩
    | append_singleton l x ih =>
      rw [xRun_snoc] at h
      cases h1 : xRun ends xStart l with
      | none => rw [h1] at h; cases h
      | some s1 =>
        rw [h1, Option.bind_some] at h
        obtain ⟨i1, i2⟩ := ih s1 h1
        have i1' : s1.block = false → (∀ u, s1.pc u ≠ .exiting) → ∃ n, s1.wpc = .exiting n := by
          intro a b
          rcases i1 a with ⟨u, hu⟩ | c
          · exact absurd hu (b u)
          · exact c
        have i2' : ∀ u, s1.pc u = .back → s1.block = false := fun u hu => i2 ⟨u, hu⟩
        unfold xStep at h
        split at h
        · cases h
        cases x <;> simp only [XState.begin, XState.goto, XState.hand] at h <;> (repeat' (split at h)) <;> cases h <;>
          constructor <;> (try simp only) <;> grind
  exact key.1 (key.2 ⟨t, hb⟩)

/-- C80 is false where raising the signal does not end the process (PID 1, an ignored signal, a handler of the program's own that returns):
LOG(FATAL) returns and the program goes on, here to its next LOG, while the worker is in exit(). -/
theorem C80_negation : ∃ (ls : List XLabel) (s : XState), xRun (fun _ => false) xStart ls = some s ∧ events ls = [.fatal 1] ∧
    s.pc 1 = .back ∧ s.dead = none ∧ (xStep (fun _ => false) s (.log 1 7)).isSome = true :=
  ⟨[.fatal 1, .check 1, .push 1, .take, .sink, .flush, .wRestore, .wRaise, .wRelease, .unblock 1], _, rfl, rfl, rfl, rfl, rfl⟩

/-- C80 is false too where raising does end the process: a signal on another thread while the worker deals with the fatal statement lets
that statement return, with nothing flushed. -/
theorem C80_negation_race (ms : List Nat) (n : Int) : ∃ (ls : List XLabel) (s : XState), xRun (fun _ => true) xStart ls = some s ∧
    s.pc 1 = .back ∧ s.dead = none ∧ s.done = [] ∧ s.hist = ms.map .msg ++ [.fatal 1 6] := by
  refine ⟨cutPrefix ms ++ [.signal 2 n, .check 2, .restore 2, .raise 2, .release 2, .unblock 1], _, (xRun_append _ _ _ _).trans ((congrArg (Option.bind · _) (cutPrefix_run _ ms)).trans rfl), ?_⟩
  exact ⟨rfl, rfl, rfl, rfl⟩

/-- C80: exit() can be under way on two threads at once (undefined behaviour in C): with two signals whose raising does not end the process. -/
theorem C80_negation_exit (n : Int) : ∃ (ls : List XLabel) (s : XState), xRun (fun _ => false) xStart ls = some s ∧ OnlySignals ls ∧
    s.dead = none ∧ s.pc 2 = .exiting ∧ s.wpc = .exiting n := by
  refine ⟨[.signal 1 n, .check 1, .push 1, .signal 2 n, .take, .sink, .flush, .wRestore, .wRaise, .wRelease, .leave 2, .check 2, .restore 2,
    .raise 2, .release 2], _, rfl, ?_, rfl, rfl, rfl⟩
  intro l hl t
  simp only [List.mem_cons, List.not_mem_nil, or_false] at hl
  rcases hl with rfl | rfl | rfl | rfl | rfl | rfl | rfl | rfl | rfl | rfl | rfl | rfl | rfl | rfl | rfl <;> simp

/-! ### The number the process ends with -/

/-- The number the worker is dealing with. -/
def wnum : XWork → Option Int
  | .serving => none
  | .fatal n => some n
  | .flushed n => some n
  | .restored n => some n
  | .raised n => some n
  | .exiting n => some n

/-- Invariant: all numbers come from fatal events, and who raises has restored the handlers. -/
structure XNum (ends : Int → Bool) (ls : List XLabel) (s : XState) : Prop where
  sig : ∀ t, s.pc t ≠ .run → s.sig t ∈ nums ls
  via : ∀ t, s.pc t ≠ .run → s.via t = true → .signal t (s.sig t) ∈ ls
  raised : ∀ t, s.pc t = .raised ∨ s.pc t = .exiting → s.via t = true ∨ ends (s.sig t) = false
  queue : ∀ t n, .fatal t n ∈ s.queue → n ∈ nums ls
  work : ∀ n, wnum s.wpc = some n → n ∈ nums ls
  wraised : ∀ n, s.wpc = .raised n ∨ s.wpc = .exiting n → ends n = false
  killed : ∀ n, s.dead = some (.killed n) → n ∈ nums ls ∧ ends n = true
  exited : ∀ n, s.dead = some (.exited n) → n ∈ nums ls ∧ (ends n = false ∨ ∃ t, .signal t n ∈ ls)
  handlers : ∀ t, s.pc t = .restored ∨ s.pc t = .raised ∨ s.pc t = .exiting → s.restored = true
  whandlers : ∀ n, s.wpc = .restored n ∨ s.wpc = .raised n ∨ s.wpc = .exiting n → s.restored = true

theorem XNum.more {ends : Int → Bool} {ls : List XLabel} {s : XState} (h : XNum ends ls s) (x : XLabel) : XNum ends (ls ++ [x]) s := by
  have hm : ∀ {n : Int}, n ∈ nums ls → n ∈ nums (ls ++ [x]) := fun hn => by
    unfold nums at *; rw [List.filterMap_append]; exact List.mem_append_left _ hn
  have hl : ∀ {y : XLabel}, y ∈ ls → y ∈ ls ++ [x] := fun hy => List.mem_append_left _ hy
  obtain ⟨a, b, c, d, e, f, g, i, j, k⟩ := h
  exact ⟨fun t ht => hm (a t ht), fun t ht hv => hl (b t ht hv), c, fun t n hn => hm (d t n hn), fun n hn => hm (e n hn), f,
    fun n hn => ⟨hm (g n hn).1, (g n hn).2⟩, fun n hn => ⟨hm (i n hn).1, (i n hn).2.imp id fun ⟨t, ht⟩ => ⟨t, hl ht⟩⟩, j, k⟩

theorem xNum_step {ends : Int → Bool} {ls : List XLabel} {s s' : XState} {x : XLabel} (h : XNum ends ls s) (hs : xStep ends s x = some s') :
    XNum ends (ls ++ [x]) s' := by
  have hx : ∀ n, evNum x = some n → n ∈ nums (ls ++ [x]) := fun n hn => by
    unfold nums; rw [List.filterMap_append]; exact List.mem_append_right _ (by simp [hn])
  have hy : x ∈ ls ++ [x] := by simp
  obtain ⟨a, b, c, d, e, f, g, i, j, k⟩ := h.more x
  clear h
  generalize ls ++ [x] = L at *
  unfold xStep at hs
  split at hs
  · cases hs
  cases x <;> simp only [XState.begin, XState.goto, XState.hand] at hs <;> (repeat' (split at hs)) <;> cases hs <;>
    constructor <;> (try simp only) <;> grind [wnum, evNum]

theorem xNum_run {ends : Int → Bool} {ls : List XLabel} {s : XState} (h : xRun ends xStart ls = some s) : XNum ends ls s := by
  induction ls using List.reverseRecOn generalizing s with
  | nil =>
    simp only [xRun, Option.some.injEq] at h; subst h
    constructor <;> simp [xStart, wnum]
  | append_singleton l x ih =>
    rw [xRun_snoc] at h
    cases h1 : xRun ends xStart l with
    | none => rw [h1] at h; cases h
    | some s1 => rw [h1, Option.bind_some] at h; exact xNum_step (ih h1) h

/-- C80: a process killed by a signal is killed by the number of one of its fatal events. -/
theorem C80_killed (ends : Int → Bool) (ls : List XLabel) (s : XState) (h : xRun ends xStart ls = some s) (n : Int) (hd : s.dead = some (.killed n)) :
    n ∈ nums ls ∧ ends n = true := (xNum_run h).killed n hd

/-- C80: a process that exits does so with the number of one of its fatal events, and only if raising it did not end the process or it
came as a signal. -/
theorem C80_exited (ends : Int → Bool) (ls : List XLabel) (s : XState) (h : xRun ends xStart ls = some s) (n : Int) (hd : s.dead = some (.exited n)) :
    n ∈ nums ls ∧ (ends n = false ∨ ∃ t, .signal t n ∈ ls) := (xNum_run h).exited n hd

/-- C80: with a single fatal event the process ends with its number. -/
theorem C80_single (ends : Int → Bool) (ls : List XLabel) (s : XState) (h : xRun ends xStart ls = some s) (n m : Int) (hn : nums ls = [m])
    (hd : s.dead = some (.killed n) ∨ s.dead = some (.exited n)) : n = m := by
  have : n ∈ nums ls := by
    rcases hd with hd | hd
    · exact (C80_killed ends ls s h n hd).1
    · exact (C80_exited ends ls s h n hd).1
  rw [hn, List.mem_singleton] at this
  exact this

/-- C80: once a thread or the worker is about to raise its signal, a fatal signal on any thread that is still in the program has its
original effect: it is not handled any more. -/
theorem C80_default (ends : Int → Bool) (ls : List XLabel) (s : XState) (h : xRun ends xStart ls = some s)
    (hr : (∃ t, s.pc t = .restored ∨ s.pc t = .raised ∨ s.pc t = .exiting) ∨ ∃ n, s.wpc = .restored n ∨ s.wpc = .raised n ∨ s.wpc = .exiting n)
    (hd : s.dead = none) (t : Nat) (ht : s.pc t = .run) (n : Int) :
    xStep ends s (.signal t n) = some (if ends n then { s with dead := some (.killed n) } else s) := by
  have hres : s.restored = true := by
    rcases hr with ⟨u, hu⟩ | ⟨m, hm⟩
    · exact (xNum_run h).handlers u hu
    · exact (xNum_run h).whandlers m hm
  simp [xStep, hd, ht, hres]

/-- Schedules that meet the hypotheses and end: one statement among messages, and two signals. -/
example : ∃ s, xRun (fun _ => true) xStart [.log 0 1, .fatal 1, .check 1, .push 1, .log 2 5, .take, .take, .sink, .sink, .flush, .wRestore, .wRaise] = some s ∧
    s.dead.isSome = true ∧ (events [.log 0 1, .fatal 1, .check 1, .push 1, .log 2 5, .take, .take, .sink, .sink, .flush, .wRestore, .wRaise]).length ≤ 1 :=
  ⟨_, rfl, rfl, by decide⟩

example : ∃ s, xRun (fun _ => true) xStart [.log 0 1, .signal 1 11, .signal 2 15, .check 1, .push 1, .take, .take, .sink, .sink, .flush, .wRestore, .wRaise] = some s ∧
    s.dead.isSome = true ∧ s.pc 2 = .wait := ⟨_, rfl, rfl, rfl⟩

/-- Single events, killed and exiting. -/
example : ∃ s, xRun (fun _ => true) xStart [.fatal 1, .check 1, .push 1, .take, .sink, .flush, .wRestore, .wRaise] = some s ∧ s.dead = some (.killed 6) ∧
    nums [.fatal 1, .check 1, .push 1, .take, .sink, .flush, .wRestore, .wRaise] = [6] := ⟨_, rfl, rfl, rfl⟩

example : ∃ s, xRun (fun _ => false) xStart [.signal 1 15, .check 1, .push 1, .take, .sink, .flush, .wRestore, .wRaise, .wRelease, .wExit] = some s ∧
    s.dead = some (.exited 15) ∧ nums [.signal 1 15, .check 1, .push 1, .take, .sink, .flush, .wRestore, .wRaise, .wRelease, .wExit] = [15] :=
  ⟨_, rfl, rfl, rfl⟩

/-- A thread is about to raise while another is in the program. -/
example : ∃ s, xRun (fun _ => true) xStart [.fatal 1, .check 1, .push 1, .take, .fatal 2, .check 2, .restore 2] = some s ∧ s.pc 2 = .restored ∧ s.dead = none ∧
    s.pc 3 = .run := ⟨_, rfl, rfl, rfl, rfl⟩

end G3.Props
