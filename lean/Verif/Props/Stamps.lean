import Verif.Proofs.Stamps
import Verif.Props.Worker
/- C113: the order of the log and the time stamps. -/
namespace G3.Props
open G3 G3.Spec

variable {c : Int} {ls : List StLabel} {s : StState}

/-- C113: every entry handed over is that of a statement of its thread, and its stamp is what the clock showed when the statement ended. -/
theorem C113_from (h : stRun (StState.start c) ls = some s) : ∀ p ∈ s.out, FromStatement c ls p.1 ∧ HandedIn ls p.1 p.2 := (stWhere c ls s h).out

/-- C113: the beginning, the end and the hand-over belong to the same statement. -/
theorem C113_whole (h : stRun (StState.start c) ls = some s) :
    ∀ p ∈ s.out, Whole ls p.1 p.2 ∨ ∃ k, k < p.2 ∧ Whole ls p.1 k ∧ FirstAt ls k IsPush ∧ FirstAt ls p.2 (· = .init) :=
  fun p hp => ((stDone c ls s h).out p hp).2

/-- C113: everything handed over is in the log: what is pushed while there is a logger, and the first message if it was pushed before the first
initializeLogging. -/
theorem C113_all (h : stRun (StState.start c) ls = some s) :
    (∀ k t, At ls k (.push t) → ActiveAt ls k → ∃ e, (e, k) ∈ s.out) ∧
    (∀ k t, At ls k (.pushFatal t) → ActiveAt ls k → ∃ e, (e, k) ∈ s.out) ∧
    (∀ k j t, FirstAt ls k (· = .init) → j < k → At ls j (.push t) → ∃ e, (e, k) ∈ s.out) :=
  ⟨(stDone c ls s h).push, (stDone c ls s h).fatal, (stDone c ls s h).init⟩

/-- C113: the log is in the order of the hand-overs, one entry per step. -/
theorem C113_order (h : stRun (StState.start c) ls = some s) : (s.out.map Prod.snd).Pairwise (· < ·) := (stOrd c ls s h).steps

/-- C113, full statement for one thread in view: `x.thread = y.thread → x.stamp ≤ y.stamp` for x before y in the log. What is missing
(`C113_hook_negation`): entries made by the hook of a fatal event come before its entry although their stamps are later. -/
theorem C113_thread_partial (h : stRun (StState.start c) ls = some s) (hc : Steady ls) :
    (s.out.map Prod.fst).Pairwise fun x y => x.thread = y.thread →
      x.stamp ≤ y.stamp ∨ (y.fatal = true ∧ HookAt ls y.made ∧ y.made < x.began) := by
  have hord := (stOrd c ls s h).ord
  have hsteps := (stOrd c ls s h).steps
  rw [List.pairwise_map] at hord hsteps ⊢
  refine List.Pairwise.imp_of_mem ?_ (hord.and hsteps)
  rintro ⟨x, hx⟩ ⟨y, hy⟩ mx my ⟨hxy, hlt⟩ ht
  obtain ⟨⟨_, xm, _, xs⟩, xh⟩ := (stWhere c ls s h).out _ mx
  obtain ⟨⟨_, ym, _, ys⟩, yh⟩ := (stWhere c ls s h).out _ my
  rcases hxy ht with hm | ⟨hf, hm⟩
  · refine .inl ?_
    change x.stamp = _ at xs
    change y.stamp = _ at ys
    rw [xs, ys]
    exact clockAfter_take c ls hc (Nat.le_of_lt hm)
  · refine .inr ⟨hf, ?_, hm⟩
    have hb : At ls x.began (.begin y.thread) := by
      have := ((stWhere c ls s h).out _ mx).1.1
      rw [show x.thread = y.thread from ht] at this
      exact this
    have hxb : x.began < hy := by
      have h1 : x.began < x.made := ((stWhere c ls s h).out _ mx).1.2.2.1
      have h2 : x.made < hx := xh.1
      have h3 : hx < hy := hlt
      omega
    have hw : Whole ls y hy := by
      rcases ((stDone c ls s h).out _ my).2 with hw | ⟨k, hk, hw, hp, hi⟩
      · exact hw
      · exfalso
        obtain ⟨_, _, _, hw⟩ := hw
        obtain ⟨⟨l, hl, u, rfl⟩, _⟩ := hp
        have := (hw hf).1
        unfold At at this hl
        rw [hl] at this; cases this
    obtain ⟨_, _, _, hw⟩ := hw
    rcases (hw hf).2.2 with hw | hw
    · exact hw
    · exfalso
      have := mem_stepsOf (t := y.thread) hb (show y.made + 1 ≤ x.began from hm) hxb rfl
      rw [hw] at this; cases this

/-- C113: without hooks, the entries of each thread are in the order of their stamps. -/
theorem C113_no_hook (h : stRun (StState.start c) ls = some s) (hc : Steady ls) (hh : .setHook ∉ ls) :
    (s.out.map Prod.fst).Pairwise fun x y => x.thread = y.thread → x.stamp ≤ y.stamp := by
  refine (C113_thread_partial h hc).imp fun hxy ht => (hxy ht).resolve_right ?_
  rintro ⟨_, ⟨j, _, hj, _⟩, _⟩
  exact hh (List.mem_of_getElem? hj)

/-- C113: the entry of a fatal event is the last one of its thread, and the thread does nothing any more. -/
theorem C113_fatal_last (h : stRun (StState.start c) ls = some s) :
    (s.out.map Prod.fst).Pairwise (fun x y => x.thread = y.thread → x.fatal = false) ∧
    ∀ p ∈ s.out, p.1.fatal = true → ∀ k l, p.2 < k → At ls k l → stThread l ≠ some p.1.thread := by
  have hafter := (stDone c ls s h).after
  refine ⟨?_, hafter⟩
  have hsteps := (stOrd c ls s h).steps
  rw [List.pairwise_map] at hsteps ⊢
  refine List.Pairwise.imp_of_mem ?_ hsteps
  rintro ⟨x, hx⟩ ⟨y, hy⟩ mx my hlt ht
  cases hf : x.fatal with
  | false => rfl
  | true =>
    exfalso
    obtain ⟨_, yh⟩ := (stWhere c ls s h).out _ my
    rcases yh.2 with ⟨_, g, _⟩ | ⟨_, g, _⟩ | ⟨_, g, k, hk, hm, hfp, hp⟩
    · exact hafter _ mx hf hy _ hlt g (congrArg some ht.symm)
    · exact hafter _ mx hf hy _ hlt g (congrArg some ht.symm)
    · -- a fatal entry cannot be handed over before the first initializeLogging
      obtain ⟨_, xh⟩ := (stWhere c ls s h).out _ mx
      rcases xh.2 with ⟨g', _⟩ | ⟨_, _, j, hj, hij, _⟩ | ⟨g', _⟩
      · rw [show x.fatal = false from g'] at hf; cases hf
      · exact g.2 j _ (show j < hy by change hx < hy at hlt; change j < hx at hj; omega) hij rfl
      · rw [show x.fatal = false from g'] at hf; cases hf

/-- C113: two entries are out of order only if their statements overlap: the one with the earlier stamp, which comes later, had already been made
when the other one was, and was not handed over before it. -/
theorem C113_overlap (h : stRun (StState.start c) ls = some s) (hc : Steady ls) :
    s.out.Pairwise fun x y => y.1.stamp < x.1.stamp → y.1.made < x.1.made ∧ x.1.made < x.2 ∧ x.2 < y.2 := by
  have hsteps := (stOrd c ls s h).steps
  rw [List.pairwise_map] at hsteps
  refine List.Pairwise.imp_of_mem ?_ hsteps
  intro x y mx my hlt hst
  obtain ⟨⟨_, xm, _, xs⟩, xh⟩ := (stWhere c ls s h).out _ mx
  obtain ⟨⟨_, ym, _, ys⟩, yh⟩ := (stWhere c ls s h).out _ my
  refine ⟨?_, xh.1, hlt⟩
  refine Nat.lt_of_not_le fun hle => ?_
  have := clockAfter_take c ls hc hle
  rw [← xs, ← ys] at this
  omega

/-- C113: a statement that was over (its message handed over) before another one ended, on whatever thread, comes first and has the earlier stamp. -/
theorem C113_real_time (h : stRun (StState.start c) ls = some s) (hc : Steady ls) {x y : StEntry × Nat} (hx : x ∈ s.out) (hy : y ∈ s.out)
    (hxy : x.2 < y.1.made) : x.1.stamp ≤ y.1.stamp ∧ [x, y].Sublist s.out := by
  obtain ⟨⟨_, xm, _, xs⟩, xh⟩ := (stWhere c ls s h).out _ hx
  obtain ⟨⟨_, ym, _, ys⟩, yh⟩ := (stWhere c ls s h).out _ hy
  constructor
  · rw [xs, ys]
    exact clockAfter_take c ls hc (by have := xh.1; omega)
  · have hlt : x.2 < y.2 := Nat.lt_trans hxy yh.1
    have hs := (stOrd c ls s h).steps
    rw [List.pairwise_map] at hs
    obtain ⟨a, b, e⟩ := List.append_of_mem hx
    rw [e] at hs hy ⊢
    rcases List.mem_append.1 hy with hy | hy
    · have := (List.pairwise_append.1 hs).2.2 y hy x (List.mem_cons_self ..)
      omega
    · rcases List.mem_cons.1 hy with rfl | hy
      · omega
      · exact (List.Sublist.cons_cons x (List.singleton_sublist.2 hy)).trans (List.sublist_append_right a _)

/-- The entry a sink receives. -/
private def entryOf : Got StEntry → StEntry
  | .log e => e
  | .fatal e => e

/-- C113: what each sink receives: with a worker that is handed the entries of the log, every sink receives the entries of each thread in the
order of their stamps, up to the entries of hooks. -/
theorem C113_sink (h : stRun (StState.start c) ls = some s) (hc : Steady ls) {wl : List (WLabel StEntry)} {w : WState StEntry}
    (hw : wRun WState.start wl = some w)
    (hin : (handed 0 0 wl).flatMap Req.gives = s.out.map fun p => if p.1.fatal then .fatal p.1 else .log p.1) (i : Nat) :
    ((received (w.sk i)).map entryOf).Pairwise fun x y => x.thread = y.thread →
      x.stamp ≤ y.stamp ∨ (y.fatal = true ∧ HookAt ls y.made ∧ y.made < x.began) := by
  have hsub := (C01_order hw i).map entryOf
  rw [hin, List.map_map] at hsub
  have e : (entryOf ∘ fun p : StEntry × Nat => if p.1.fatal then Got.fatal p.1 else Got.log p.1) = Prod.fst := by
    funext p
    by_cases hf : p.1.fatal = true
    · change entryOf (if p.1.fatal = true then _ else _) = _; rw [if_pos hf]; rfl
    · change entryOf (if p.1.fatal = true then _ else _) = _; rw [if_neg hf]; rfl
  rw [e] at hsub
  exact (C113_thread_partial h hc).sublist hsub

/-- C113: the process ends exactly when a fatal message finds no logger, and then nothing follows. -/
theorem C113_end (h : stRun (StState.start c) ls = some s) :
    (s.over = true ↔ ∃ k t, At ls k (.pushFatal t) ∧ ¬ ActiveAt ls k) ∧
    ∀ k t, At ls k (.pushFatal t) → ¬ ActiveAt ls k → k + 1 = ls.length :=
  ⟨⟨(stDone c ls s h).over, fun ⟨k, t, h1, h2⟩ => ((stDone c ls s h).stop k t h1 h2).1⟩, fun k t h1 h2 => ((stDone c ls s h).stop k t h1 h2).2⟩

/-! ### Where the full statement fails -/

/-- The stamps of the log, in its order. -/
private def stampsOf (s : StState) : List (Nat × Int) := s.out.map fun p => (p.1.thread, p.1.stamp)

/-- C113, negation: two threads, and the entry with the later stamp comes first. -/
theorem C113_negation : ∃ ls s, Steady ls ∧ stRun (StState.start 0) ls = some s ∧ stampsOf s = [(2, 1), (1, 0)] := by
  refine ⟨[.init, .begin 1, .make 1 false, .pass 1, .begin 2, .make 2 false, .push 2, .push 1], _, ?_, rfl, by decide⟩
  intro c hc
  simp at hc

/-- C113, negation for a single thread: the hook of a fatal event logs, and its entry comes before the fatal one although it has a later stamp. -/
theorem C113_hook_negation : ∃ ls s, Steady ls ∧ stRun (StState.start 0) ls = some s ∧ stampsOf s = [(1, 1), (1, 0)] := by
  refine ⟨[.init, .setHook, .begin 1, .make 1 true, .pass 1, .begin 1, .make 1 false, .push 1, .pushFatal 1], _, ?_, rfl, by decide⟩
  intro c hc
  simp at hc

/-- C113, negation if the clock is set back: a single thread without hooks. -/
theorem C113_clock_negation : ∃ ls s, .setHook ∉ ls ∧ stRun (StState.start 5) ls = some s ∧ stampsOf s = [(1, 5), (1, 2)] := by
  refine ⟨[.init, .begin 1, .make 1 false, .push 1, .adjust 2, .begin 1, .make 1 false, .push 1], _, ?_, rfl, by decide⟩
  simp

/-! ### Examples -/

/-- A message before initializeLogging that is kept and a second one that is not, operands that log, two threads, a hook that logs. -/
private def stExample : List StLabel :=
  [.begin 1, .make 1 false, .push 1, .begin 1, .make 1 false, .push 1, .pass 3, .init,
   .begin 1, .begin 1, .make 1 false, .pass 1, .push 1, .make 1 false, .begin 2, .push 1,
   .setHook, .make 2 true, .pass 4, .begin 2, .make 2 false, .push 2, .begin 1, .make 1 false, .pushFatal 2, .push 1]

example : (stRun (StState.start 0) stExample).map stampsOf = some [(1, 0), (1, 3), (1, 4), (2, 8), (2, 4), (1, 8)] := by decide
example : (stRun (StState.start 0) stExample).map (fun s => s.out.map (·.2)) = some [7, 12, 15, 21, 24, 25] := by decide

/-- The hypotheses of the theorems are met by it. -/
example : ∃ s, stRun (StState.start 0) stExample = some s ∧ Steady stExample ∧ s.out.length = 6 := by
  refine ⟨_, rfl, ?_, by decide⟩
  intro c hc
  simp [stExample] at hc

/-- The hypotheses of `C113_real_time`: the first entry was handed over in step 7, the last one made in step 23. -/
example : ∃ s x y, stRun (StState.start 0) stExample = some s ∧ x ∈ s.out ∧ y ∈ s.out ∧ x.2 < y.1.made := by
  refine ⟨_, (⟨1, 0, false, 0, 1⟩, 7), (⟨1, 8, false, 22, 23⟩, 25), rfl, by decide, by decide, by decide⟩

private def stWorker : List (WLabel StEntry) :=
  [.add, .work, .ret 0, .save ⟨1, 1, false, 5, 6⟩, .fatal ⟨1, 0, true, 2, 3⟩, .work, .work, .work, .work, .sinkPop 0, .sinkFin 0]

/-- `C113_sink`: the log of `C113_hook_negation` goes to a sink. -/
example : ∃ s w, stRun (StState.start 0) [.init, .setHook, .begin 1, .make 1 true, .pass 1, .begin 1, .make 1 false, .push 1, .pushFatal 1] = some s ∧
    wRun WState.start stWorker = some w ∧
    (handed 0 0 stWorker).flatMap Req.gives =
      (s.out.map fun p => if p.1.fatal then Got.fatal p.1 else Got.log p.1) ∧ received (w.sk 0) = [Got.log (⟨1, 1, false, 5, 6⟩ : StEntry)] :=
  ⟨_, _, rfl, rfl, rfl, rfl⟩

/-- `C113_no_hook`: without the hook. -/
example : ∃ ls s, .setHook ∉ ls ∧ Steady ls ∧ stRun (StState.start 0) ls = some s ∧ s.out.length = 2 := by
  refine ⟨[.init, .begin 1, .make 1 false, .push 1, .pass 1, .begin 1, .make 1 true, .pushFatal 1], _, by simp, ?_, rfl, by decide⟩
  intro c hc
  simp at hc

/-- `C113_end`: a fatal event after shutDownLogging. -/
example : (stRun (StState.start 0) [.init, .shut, .begin 1, .make 1 true, .pushFatal 1]).map (·.over) = some true := by decide

/-- Nothing follows a message that is not handed over yet; a thread asleep does nothing. -/
example : (stRun (StState.start 0) [.begin 1, .make 1 false, .begin 1]).isNone = true := by decide
example : (stRun (StState.start 0) [.init, .begin 1, .make 1 true, .pushFatal 1, .begin 1]).isNone = true := by decide

end G3.Props
