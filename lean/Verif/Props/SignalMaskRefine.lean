import Verif.Props.SignalMask
import Verif.Props.FatalExit
/-
C124: without blocked signals, the model with signal masks does what Model/FatalExit does.
-/
namespace G3.Props
open G3 G3.Spec

/-- Steps of a program that blocks nothing: threads, sinks, fatal statements and handled signals on threads of the program, the worker. -/
def unmasked (sigs : List Int) : MLabel → Prop
  | .spawn _ _ => True
  | .addSink _ _ => True
  | .raise t n => n ∈ sigs ∧ ∃ i, t = .prog i
  | .fault t n => n ∈ sigs ∧ ∃ i, t = .prog i
  | .fatal t => ∃ i, t = .prog i
  | .take => True
  | .flush => True
  | .restore => True
  | .wRaise => True
  | .exit => True
  | _ => False

/-- The number of the fatal event of a step. -/
def maskNum : MLabel → Option Int
  | .raise _ n => some n
  | .fault _ n => some n
  | .fatal _ => some 6
  | _ => none

/-- The same end in Model/FatalExit. -/
def endX : MEnd → XEnd
  | .killed n => .killed n
  | .exited n => .exited n

/-- The same place of the worker in Model/FatalExit. -/
def workX : MWork → XWork
  | .serving => .serving
  | .fatal n => .fatal n
  | .flushed n => .flushed n
  | .restored n => .restored n
  | .raised n => .raised n

/-- The number of a fatal message. -/
def itemNum : XItem → Option Int
  | .fatal _ n => some n
  | .msg _ => none

/-- What the two models share while the process runs. -/
structure MaskX (sigs : List Int) (m : MaskState) (x : XState) : Prop where
  runs : m.ended = none
  alive : x.dead = none
  worker : m.live .worker = true
  up : m.logger = x.logger
  first : m.count = x.first
  queue : x.queue.map itemNum = m.queue.map some
  done : x.done.map itemNum = m.report.map some
  flushed : x.sinkq = []
  wpc : x.wpc = workX m.wpc
  handles : m.handled = if x.restored then [] else sigs
  bare : ∀ t, m.live t = true → m.asleep t = false → m.mask t = []
  library : m.asleep .worker = false ∧ ∀ k, m.asleep (.sink k) = false
  pc : ∀ i, m.asleep (.prog i) = false → x.pc i = .run

/-- The process has ended in both. -/
def MaskEndX (m : MaskState) (x : XState) : Prop :=
  m.ended.isSome = true ∧ x.dead = m.ended.map endX ∧ x.done.map itemNum = m.report.map some

theorem maskX_start (sigs : List Int) : ∃ m, mStep sigs (mStart []) (.init (.prog 0)) = some m ∧ MaskX sigs m xStart := by
  refine ⟨_, by simp only [mStep, mStart]; rfl, ?_⟩
  exact { runs := rfl, alive := rfl, worker := by simp [MaskState.start], up := rfl, first := rfl, queue := rfl, done := rfl, flushed := rfl, wpc := rfl, handles := rfl,
          bare := by intro t _ _; simp only [MaskState.start]; by_cases h : t = MThr.worker <;> simp [h]
          library := ⟨rfl, fun _ => rfl⟩, pc := fun _ _ => rfl }

theorem maskX_asleep {sigs : List Int} {m : MaskState} {x : XState} (h : MaskX sigs m x) (i : Nat) (t : MThr) (ht : Function.update m.asleep (.prog i) true t = false) :
    t ≠ .prog i ∧ m.asleep t = false := by
  by_cases he : t = .prog i
  · subst he; simp at ht
  · exact ⟨he, by simpa [he] using ht⟩

/-- A handled signal on a thread of the program. -/
theorem maskX_hit {sigs : List Int} {m : MaskState} {x : XState} (h : MaskX sigs m x) {i : Nat} {n : Int} (hn : n ∈ sigs) (ha : m.asleep (.prog i) = false) :
    ∃ xs x', xRun (fun _ => true) x xs = some x' ∧ nums xs = [n] ∧ (MaskX sigs (m.hit (.prog i) n) x' ∨ MaskEndX (m.hit (.prog i) n) x') := by
  have hp := h.pc i ha
  have hal := h.alive
  cases hr : x.restored with
  | true =>
    have hh : m.handled = [] := by rw [h.handles, hr]; rfl
    refine ⟨[.signal i n], { x with dead := some (.killed n) }, by simp [xRun, xStep, hal, hp, hr], rfl, .inr ?_⟩
    have : m.hit (.prog i) n = { m with ended := some (.killed n) } := by rw [MaskState.hit, if_pos (by simp [hh])]
    rw [this]
    exact ⟨rfl, rfl, h.done⟩
  | false =>
    have hh : m.handled = sigs := by rw [h.handles, hr]; rfl
    have hin : ¬ n ∉ m.handled := by rw [hh]; exact fun hc => hc hn
    by_cases hc : m.count = 0
    · have hf : x.first = 0 := by rw [← h.first]; exact hc
      cases hl : x.logger with
      | true =>
        have hml : m.logger = true := by rw [h.up, hl]
        refine ⟨[.signal i n, .check i, .push i], _, by simp [xRun, xStep, hal, hp, hr, hf, hl, XState.begin, XState.goto, XState.hand]; rfl, rfl, .inl ?_⟩
        rw [MaskState.hit, if_neg hin]
        simp only [hc, ne_eq, not_true_eq_false, if_false, hml, if_true]
        exact { runs := h.runs, alive := rfl, worker := h.worker, up := rfl, first := rfl,
                queue := by simp [h.queue, itemNum], done := h.done, flushed := h.flushed, wpc := h.wpc, handles := by simpa [hr] using hh,
                bare := by
                  intro t h1 h2
                  obtain ⟨h3, h4⟩ := maskX_asleep h i t h2
                  simpa [h3] using h.bare t h1 h4
                library := ⟨by simpa using h.library.1, fun k => by simpa using h.library.2 k⟩
                pc := by
                  intro j hj
                  obtain ⟨h3, h4⟩ := maskX_asleep h i _ hj
                  have h5 : j ≠ i := by simpa using h3
                  simpa [h5] using h.pc j h4 }
      | false =>
        have hml : m.logger = false := by rw [h.up, hl]
        refine ⟨[.signal i n, .check i, .restore i, .raise i, .release i, .exit i], _,
          by simp [xRun, xStep, hal, hp, hr, hf, hl, XState.begin, XState.goto]; rfl, rfl, .inr ?_⟩
        rw [MaskState.hit, if_neg hin]
        simp only [hc, ne_eq, not_true_eq_false, if_false, hml, Bool.false_eq_true]
        exact ⟨rfl, rfl, h.done⟩
    · have hf : x.first ≠ 0 := by rw [← h.first]; exact hc
      refine ⟨[.signal i n], _, by simp [xRun, xStep, hal, hp, hr, hf, XState.begin, XState.goto]; rfl, rfl, .inl ?_⟩
      rw [MaskState.hit, if_neg hin]
      simp only [hc, ne_eq, not_false_eq_true, if_true]
      exact { runs := h.runs, alive := rfl, worker := h.worker, up := h.up, first := by simp [h.first],
              queue := h.queue, done := h.done, flushed := h.flushed, wpc := h.wpc, handles := by simpa [hr] using hh,
              bare := by
                intro t h1 h2
                obtain ⟨h3, h4⟩ := maskX_asleep h i t h2
                simpa [h3] using h.bare t h1 h4
              library := ⟨by simpa using h.library.1, fun k => by simpa using h.library.2 k⟩
              pc := by
                intro j hj
                obtain ⟨h3, h4⟩ := maskX_asleep h i _ hj
                have h5 : j ≠ i := by simpa using h3
                simpa [h5] using h.pc j h4 }

/-- A new thread. -/
theorem maskX_spawn {sigs : List Int} {m : MaskState} {x : XState} (h : MaskX sigs m x) {t u : MThr} (ht : m.live t = true) (ha : m.asleep t = false) :
    MaskX sigs (m.start t u) x :=
  { runs := h.runs, alive := h.alive, worker := by rw [start_live]; split <;> simp [h.worker], up := h.up, first := h.first, queue := h.queue, done := h.done, flushed := h.flushed, wpc := h.wpc,
    handles := h.handles
    bare := by
      intro v h1 h2
      rw [start_mask]
      rw [start_live] at h1
      by_cases hv : v = u
      · simpa [hv] using h.bare t ht ha
      · simp only [hv, if_false] at h1 ⊢
        exact h.bare v h1 h2
    library := h.library, pc := h.pc }

/-- One step of the model with masks is a few of Model/FatalExit. -/
theorem maskX_step {sigs : List Int} {m m' : MaskState} {x : XState} {l : MLabel} (h : MaskX sigs m x) (hl : unmasked sigs l) (hs : mStep sigs m l = some m') :
    ∃ xs x', xRun (fun _ => true) x xs = some x' ∧ nums xs = (maskNum l).toList ∧ (MaskX sigs m' x' ∨ MaskEndX m' x') := by
  have hal := h.alive
  have hrun := h.runs
  unfold mStep at hs
  rw [hrun] at hs
  simp only [Option.isSome_none, Bool.false_eq_true, if_false] at hs
  cases l with
  | spawn t i =>
    simp only at hs
    split at hs
    · rename_i hc
      simp only [Option.some.injEq] at hs
      subst hs
      exact ⟨[], x, rfl, rfl, .inl (maskX_spawn h hc.1 (by simpa using hc.2.1))⟩
    · simp at hs
  | addSink t k =>
    simp only at hs
    split at hs
    · rename_i hc
      simp only [Option.some.injEq] at hs
      subst hs
      have h2 := maskX_spawn (u := .sink k) h hc.1 (by simpa using hc.2.1)
      exact ⟨[], x, rfl, rfl, .inl { h2 with }⟩
    · simp at hs
  | raise t n =>
    obtain ⟨hn, i, rfl⟩ := hl
    simp only at hs
    split at hs
    · rename_i hc
      have ha : m.asleep (.prog i) = false := by simpa using hc.2
      have hm := h.bare _ hc.1 ha
      simp only [hm, List.not_mem_nil, if_false, Option.some.injEq] at hs
      subst hs
      exact maskX_hit h hn ha
    · simp at hs
  | fault t n =>
    obtain ⟨hn, i, rfl⟩ := hl
    simp only at hs
    split at hs
    · rename_i hc
      have ha : m.asleep (.prog i) = false := by simpa using hc.2
      have hm := h.bare _ hc.1 ha
      simp only [hm, List.not_mem_nil, if_false, Option.some.injEq] at hs
      subst hs
      exact maskX_hit h hn ha
    · simp at hs
  | fatal t =>
    obtain ⟨i, rfl⟩ := hl
    simp only at hs
    split at hs
    · rename_i hc
      have ha : m.asleep (.prog i) = false := by simpa using hc.2
      have hm := h.bare _ hc.1 ha
      have hp := h.pc i ha
      cases hlg : x.logger with
      | true =>
        have hml : m.logger = true := by rw [h.up, hlg]
        simp only [hml, if_true, Option.some.injEq] at hs
        subst hs
        refine ⟨[.fatal i, .check i, .push i], _, by simp [xRun, xStep, hal, hp, hlg, XState.begin, XState.goto, XState.hand]; rfl, rfl, .inl ?_⟩
        exact { runs := rfl, alive := rfl, worker := h.worker, up := rfl, first := h.first,
                queue := by simp [h.queue, itemNum], done := h.done, flushed := h.flushed, wpc := h.wpc, handles := h.handles,
                bare := by
                  intro t h1 h2
                  obtain ⟨h3, h4⟩ := maskX_asleep h i t h2
                  exact h.bare t h1 h4
                library := ⟨by simpa using h.library.1, fun k => by simpa using h.library.2 k⟩
                pc := by
                  intro j hj
                  obtain ⟨h3, h4⟩ := maskX_asleep h i _ hj
                  have h5 : j ≠ i := by simpa using h3
                  simpa [h5] using h.pc j h4 }
      | false =>
        have hml : m.logger = false := by rw [h.up, hlg]
        simp only [hml, Bool.false_eq_true, if_false, hm, List.not_mem_nil, Option.some.injEq] at hs
        subst hs
        refine ⟨[.fatal i, .check i, .restore i, .raise i], _, by simp [xRun, xStep, hal, hp, hlg, XState.begin, XState.goto]; rfl, rfl, .inr ?_⟩
        exact ⟨rfl, by simp [endX], h.done⟩
    · simp at hs
  | take =>
    simp only [h.library.1, Bool.false_eq_true, if_false] at hs
    split at hs
    · rename_i n q hw hq
      simp only [Option.some.injEq] at hs
      subst hs
      have hxq := h.queue
      rw [hq] at hxq
      rcases hx : x.queue with _ | ⟨a, xq⟩
      · rw [hx] at hxq; simp at hxq
      · rw [hx] at hxq
        simp only [List.map_cons, List.cons.injEq] at hxq
        cases a with
        | msg _ => simp [itemNum] at hxq
        | fatal t k =>
          simp only [itemNum, Option.some.injEq] at hxq
          obtain ⟨rfl, hxq⟩ := hxq
          have hxw : x.wpc = .serving := by rw [h.wpc, hw]; rfl
          refine ⟨[.take, .sink], _, by simp [xRun, xStep, hal, hxw, hx, h.flushed]; rfl, rfl, .inl ?_⟩
          exact { runs := rfl, alive := rfl, worker := h.worker, up := rfl, first := h.first, queue := hxq,
                  done := by simp [h.done, itemNum], flushed := rfl, wpc := rfl, handles := h.handles, bare := h.bare, library := h.library, pc := h.pc }
    · simp at hs
  | flush =>
    simp only [h.library.1, Bool.false_eq_true, if_false] at hs
    split at hs
    · rename_i n hw
      have hxw : x.wpc = .fatal n := by rw [h.wpc, hw]; rfl
      split at hs
      · simp only [Option.some.injEq] at hs
        subst hs
        refine ⟨[.flush], _, by simp [xRun, xStep, hal, hxw, h.flushed]; rfl, rfl, .inl ?_⟩
        exact { runs := rfl, alive := rfl, worker := h.worker, up := h.up, first := h.first, queue := h.queue, done := h.done, flushed := rfl,
                wpc := rfl, handles := h.handles, bare := h.bare, library := h.library, pc := h.pc }
      · simp at hs
    · simp at hs
  | restore =>
    simp only [h.library.1, Bool.false_eq_true, if_false] at hs
    split at hs
    · rename_i n hw
      have hxw : x.wpc = .flushed n := by rw [h.wpc, hw]; rfl
      simp only [Option.some.injEq] at hs
      subst hs
      refine ⟨[.wRestore], _, by simp [xRun, xStep, hal, hxw]; rfl, rfl, .inl ?_⟩
      exact { runs := rfl, alive := rfl, worker := h.worker, up := h.up, first := h.first, queue := h.queue, done := h.done, flushed := h.flushed,
              wpc := rfl, handles := rfl, bare := h.bare, library := h.library, pc := h.pc }
    · simp at hs
  | wRaise =>
    simp only [h.library.1, Bool.false_eq_true, if_false] at hs
    split at hs
    · rename_i n hw
      have hxw : x.wpc = .restored n := by rw [h.wpc, hw]; rfl
      have hm := h.bare _ h.worker h.library.1
      simp only [hm, List.not_mem_nil, if_false, Option.some.injEq] at hs
      subst hs
      refine ⟨[.wRaise], _, by simp [xRun, xStep, hal, hxw]; rfl, rfl, .inr ?_⟩
      exact ⟨rfl, rfl, h.done⟩
    · simp at hs
  | exit =>
    simp only [h.library.1, Bool.false_eq_true, if_false] at hs
    split at hs
    · rename_i n hw
      have hxw : x.wpc = .raised n := by rw [h.wpc, hw]; rfl
      simp only [Option.some.injEq] at hs
      subst hs
      refine ⟨[.wRelease, .wExit], _, by simp [xRun, xStep, hal, hxw]; rfl, rfl, .inr ?_⟩
      exact ⟨rfl, rfl, h.done⟩
    · simp at hs
  | init t => exact hl.elim
  | setMask t k => exact hl.elim
  | kill n => exact hl.elim
  | deliver t n => exact hl.elim

theorem maskX_run {sigs : List Int} {ls : List MLabel} {m m' : MaskState} {x : XState} (h : MaskX sigs m x) (hl : ∀ l ∈ ls, unmasked sigs l)
    (hr : mRun sigs m ls = some m') :
    ∃ xs x', xRun (fun _ => true) x xs = some x' ∧ nums xs = ls.filterMap maskNum ∧ (MaskX sigs m' x' ∨ MaskEndX m' x') := by
  induction ls generalizing m x with
  | nil => simp only [mRun, Option.some.injEq] at hr; subst hr; exact ⟨[], x, rfl, rfl, .inl h⟩
  | cons l r ih =>
    rw [mRun] at hr
    rcases hs : mStep sigs m l with _ | m1
    · simp [hs] at hr
    · rw [hs, Option.bind_some] at hr
      obtain ⟨xs, x1, h1, h2, h3⟩ := maskX_step h (hl l (by simp)) hs
      have hf : (l :: r).filterMap maskNum = (maskNum l).toList ++ r.filterMap maskNum := by
        rw [List.filterMap_cons]; cases maskNum l <;> rfl
      rcases h3 with h3 | h3
      · obtain ⟨ys, x2, h4, h5, h6⟩ := ih h3 (fun k hk => hl k (by simp [hk])) hr
        exact ⟨xs ++ ys, x2, by rw [xRun_append, h1]; exact h4, by rw [hf, nums, List.filterMap_append]; exact congrArg₂ _ h2 h5, h6⟩
      · have := maskEnded_run h3.1 hr
        obtain ⟨rfl, rfl⟩ := this
        exact ⟨xs, x1, h1, by rw [hf, h2]; simp, .inr h3⟩

/-- C124: in a program that blocks no signal, whatever threads it starts and whatever fatal events happen on them, what is reported and how the process ends is what happens in a history of Model/FatalExit with the same fatal events, so that
what is proved there (C62, C79, C80) holds here as well. -/
theorem C124_unblocked (sigs : List Int) (ls : List MLabel) (m : MaskState) (hl : ∀ l ∈ ls, unmasked sigs l)
    (h : mRun sigs (mStart []) (.init (.prog 0) :: ls) = some m) :
    ∃ xs x, xRun (fun _ => true) xStart xs = some x ∧ nums xs = ls.filterMap maskNum ∧ x.dead = m.ended.map endX ∧
      x.done.map itemNum = m.report.map some := by
  obtain ⟨m0, h0, hx⟩ := maskX_start sigs
  rw [mRun, h0, Option.bind_some] at h
  obtain ⟨xs, x, h1, h2, h3 | h3⟩ := maskX_run hx hl h
  · exact ⟨xs, x, h1, h2, by rw [h3.alive, h3.runs]; rfl, h3.done⟩
  · exact ⟨xs, x, h1, h2, h3.2.1, h3.2.2⟩

/-- So with one fatal event the process can only be ended by its signal. -/
theorem C124_unblocked_single (sigs : List Int) (ls : List MLabel) (m : MaskState) (hl : ∀ l ∈ ls, unmasked sigs l)
    (h : mRun sigs (mStart []) (.init (.prog 0) :: ls) = some m) (k n : Int) (hk : ls.filterMap maskNum = [k])
    (he : m.ended = some (.killed n) ∨ m.ended = some (.exited n)) : n = k := by
  obtain ⟨xs, x, h1, h2, h3, _⟩ := C124_unblocked sigs ls m hl h
  rw [hk] at h2
  rcases he with he | he <;> rw [he] at h3
  · have := C80_killed _ xs x h1 n h3
    rw [h2] at this; simpa using this.1
  · have := C80_exited _ xs x h1 n h3
    rw [h2] at this; simpa using this.1

/-- Two threads, a sink, a segmentation fault on one of them, a fatal statement on the other: the hypotheses hold and the fault is reported. -/
example : ∃ m, mRun [6, 11] (mStart []) [.init (.prog 0), .spawn (.prog 0) 1, .addSink (.prog 0) 0, .fault (.prog 1) 11, .fatal (.prog 0), .take, .flush, .restore, .wRaise] = some m ∧
    m.ended = some (.killed 11) ∧ m.report = [11] := ⟨_, rfl, by decide, by decide⟩

end G3.Props
