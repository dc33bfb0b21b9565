import Verif.Props.GlobalsMeaning
/- C90: what the calls do, access by access, from beginning to end. -/
namespace G3.Spec
open G3

/-- A message is put into the worker's queue. -/
def pPush : List GOp := [.lock .queue, .write .queue, .unlock .queue]
/-- The hook is replaced. -/
def pHook : List GOp := [.lock .hook, .write .hook, .unlock .hook]
/-- The pointer to the logger is set to null. -/
def pShut : List GOp := [.lock .init, .write .logger, .unlock .init]
/-- The signal handlers are replaced. -/
def pSignals : List GOp := [.read .signals, .write .saved]
/-- The logger is set, and the rest of initializeLogging. -/
def pSet : List GOp := [.write .logger] ++ pHook ++ [.atomic, .unlock .init]

/-- A LOG call: with a logger; without one, as the first; without one, later. -/
def pLog : List (List GOp × Bool) :=
  [([.read .logger, .read .logger] ++ pPush, true),
   ([.read .logger, .enter .setFirst, .write .first, .read .first, .leave .setFirst], true),
   ([.read .logger, .passed .setFirst], true)]

/-- How a call can go, and whether it returns (otherwise the process ends there, or the thread waits for its end). -/
def callPaths : GApi → List (List GOp × Bool)
  | .log => pLog
  | .logf => pLog.map fun q => (.read .maxSize :: q.1, q.2)
  | .fatal =>
    [[GOp.enter .trace, .leave .trace], [.passed .trace]].flatMap fun m =>
      [([.read .hook] ++ pHook ++ [.atomic] ++ m ++ [.atomic, .read .handler, .read .logger, .read .logger] ++ pPush ++ [.atomic], false),
       ([.read .hook] ++ pHook ++ [.atomic] ++ m ++ [.atomic, .read .handler, .read .logger] ++ pSignals, false),
       ([.read .hook] ++ pHook ++ [.atomic] ++ m ++ [.atomic, .read .handler], true)]
  | .fatalWork =>
    [([.lock .queue, .read .queue, .write .queue, .unlock .queue] ++ pShut ++ pSignals, false),
     ([.lock .queue, .read .queue, .write .queue, .unlock .queue], true)]
  | .initialize =>
    [[.enter .initialize] ++ pSignals ++ [.leave .initialize], [GOp.passed .initialize]].flatMap fun m =>
      [(m ++ [.lock .init, .read .logger], false),
       (m ++ [.lock .init, .read .logger, .enter .saveFirst, .read .first, .write .first] ++ pPush ++ [.leave .saveFirst] ++ pSet, true),
       (m ++ [.lock .init, .read .logger, .enter .saveFirst, .read .first, .leave .saveFirst] ++ pSet, true),
       (m ++ [.lock .init, .read .logger, .passed .saveFirst] ++ pSet, true)]
  | .shutDown => [(pShut, true)]
  | .destroy => [([.read .logger, .read .logger] ++ pShut, true), ([.read .logger] ++ pShut, true)]
  | .setHook => [(pHook, true)]
  | .setHandler => [([.write .handler], true)]
  | .setMax => [([.write .maxSize], true)]
  | .overrideSignals => [([.lock .signal, .read .signals, .write .saved, .write .signals] ++ pSignals ++ [.unlock .signal], true)]
  | .restoreSignal => [([.write .saved], true)]

/-- The events of a call of `a` in thread `t`. -/
def callEvents (t : Nat) (a : GApi) (ops : List GOp) : List GEvent := ops.map fun o => ⟨t, some a, o⟩

/-- Thread `t`, doing these things one after another, causes these events. -/
inductive Performs (t : Nat) : List GItem → List GEvent → Prop
  | nil : Performs t [] []
  | call {is : List GItem} {es : List GEvent} {a : GApi} {ops : List GOp} :
      Performs t is es → (ops, true) ∈ callPaths a → Performs t (is ++ [.call a]) (es ++ callEvents t a ops)
  | fork {is : List GItem} {es : List GEvent} {u : Nat} : Performs t is es → Performs t (is ++ [.fork u]) (es ++ [⟨t, none, .fork u⟩])
  | join {is : List GItem} {es : List GEvent} {u : Nat} : Performs t is es → Performs t (is ++ [.join u]) (es ++ [⟨t, none, .join u⟩])

/-- The events of thread `t`. -/
def eventsOf (t : Nat) (tr : List GEvent) : List GEvent := tr.filter fun e => e.thr == t

end G3.Spec

namespace G3.Props
open G3 G3.Spec

/-- The ways through a program of accesses. -/
def codePaths : GCode → List (List GOp × Bool)
  | .ret => [([], true)]
  | .stop => [([], false)]
  | .lock m n => (codePaths n).map fun q => (.lock m :: q.1, q.2)
  | .unlock m n => (codePaths n).map fun q => (.unlock m :: q.1, q.2)
  | .once f b n => (codePaths b).map (fun q => (.enter f :: q.1, q.2)) ++ (codePaths n).map (fun q => (.passed f :: q.1, q.2))
  | .leave f n => (codePaths n).map fun q => (.leave f :: q.1, q.2)
  | .read x n => (codePaths (n true)).map (fun q => (.read x :: q.1, q.2)) ++ (codePaths (n false)).map (fun q => (.read x :: q.1, q.2))
  | .write x _ n => (codePaths n).map fun q => (.write x :: q.1, q.2)
  | .atomic n => (codePaths n).map fun q => (.atomic :: q.1, q.2)

theorem gCode_paths (a : GApi) : ∀ q ∈ codePaths (gCode a), q ∈ callPaths a := by cases a <;> decide +kernel

theorem codePaths_ne (c : GCode) : codePaths c ≠ [] := by
  induction c with
  | ret => simp [codePaths]
  | stop => simp [codePaths]
  | lock m n ih => simpa [codePaths] using ih
  | unlock m n ih => simpa [codePaths] using ih
  | once f b n ihb ihn => simp [codePaths, ihb]
  | leave f n ih => simpa [codePaths] using ih
  | read x n ih => simp [codePaths, ih true]
  | write x v n ih => simpa [codePaths] using ih
  | atomic n ih => simpa [codePaths] using ih

/-- Where thread `t` is. -/
def AtCall (p : Nat → List GItem) (s : GState) (t : Nat) : Prop :=
  match s.cur t with
  | none => ∃ done, p t = done ++ s.prog t ∧ Performs t done (eventsOf t s.tr)
  | some (a, c) => ∃ done es ops, p t = done ++ [.call a] ++ s.prog t ∧ Performs t done es ∧ eventsOf t s.tr = es ++ callEvents t a ops ∧
      ∀ q ∈ codePaths c, (ops ++ q.1, q.2) ∈ callPaths a

theorem eventsOf_snoc_same (t : Nat) (tr : List GEvent) (e : GEvent) (h : e.thr = t) : eventsOf t (tr ++ [e]) = eventsOf t tr ++ [e] := by
  simp [eventsOf, h]

theorem eventsOf_snoc_other (t : Nat) (tr : List GEvent) (e : GEvent) (h : e.thr ≠ t) : eventsOf t (tr ++ [e]) = eventsOf t tr := by
  simp [eventsOf, h]

/-- The other threads are where they were. -/
theorem gStep_others {s s' : GState} {t u : Nat} (hs : gStep s t = some s') (hu : u ≠ t) :
    s'.cur u = s.cur u ∧ s'.prog u = s.prog u ∧ eventsOf u s'.tr = eventsOf u s.tr := by
  have hev : ∀ (e : GEvent), e.thr = t → eventsOf u (s.tr ++ [e]) = eventsOf u s.tr := by
    intro e he
    exact eventsOf_snoc_other u s.tr e (by rw [he]; exact fun e' => hu e'.symm)
  unfold gStep at hs
  split at hs
  · cases hs
  split at hs
  · unfold gExec at hs
    simp only at hs
    repeat' split at hs
    all_goals first
      | cases hs; done
      | (cases hs; exact ⟨by simp [gSet, hu], rfl, by first | rfl | exact hev _ rfl⟩)
  · repeat' split at hs
    all_goals first
      | cases hs; done
      | (cases hs; exact ⟨by simp [gSet, hu], by simp [gSet, hu], by first | rfl | exact hev _ rfl⟩)

theorem atCall_self {p : Nat → List GItem} {s s' : GState} {t : Nat} (h : AtCall p s t) (hs : gStep s t = some s') : AtCall p s' t := by
  unfold gStep at hs
  split at hs
  · cases hs
  split at hs
  · next a c hcur =>
    unfold AtCall at h
    rw [hcur] at h
    obtain ⟨done, es, ops, h1, h2, h3, h4⟩ := h
    have go : ∀ {o : GOp} {n : GCode} {u : GState}, u.cur t = some (a, n) → u.prog t = s.prog t → u.tr = s.tr ++ [⟨t, some a, o⟩] →
        (∀ q ∈ codePaths n, (o :: q.1, q.2) ∈ codePaths c) → AtCall p u t := by
      intro o n u hc hp ht hq
      unfold AtCall
      rw [hc]
      refine ⟨done, es, ops ++ [o], by rw [hp]; exact h1, h2, ?_, ?_⟩
      · rw [ht, eventsOf_snoc_same t _ _ rfl, h3]
        simp [callEvents]
      · intro q hq'
        have := h4 _ (hq q hq')
        simpa using this
    unfold gExec at hs
    cases c with
    | ret =>
      cases hs
      unfold AtCall
      simp only [gSet, if_true]
      refine ⟨done ++ [.call a], h1, ?_⟩
      rw [h3]
      have := h4 ([], true) (by simp [codePaths])
      exact Performs.call h2 (by simpa using this)
    | stop => cases hs
    | lock m n =>
      simp only at hs
      split at hs
      · cases hs; exact go (n := n) (by simp [gSet]) rfl rfl (by intro q hq; simp only [codePaths, List.mem_map]; exact ⟨q, hq, rfl⟩)
      · cases hs
    | unlock m n =>
      simp only at hs
      split at hs
      · cases hs; exact go (n := n) (by simp [gSet]) rfl rfl (by intro q hq; simp only [codePaths, List.mem_map]; exact ⟨q, hq, rfl⟩)
      · cases hs
    | once f b n =>
      simp only at hs
      split at hs
      · cases hs; exact go (n := b) (by simp [gSet]) rfl rfl (by intro q hq; simp only [codePaths, List.mem_append, List.mem_map]; exact .inl ⟨q, hq, rfl⟩)
      · cases hs
      · cases hs; exact go (n := n) (by simp [gSet]) rfl rfl (by intro q hq; simp only [codePaths, List.mem_append, List.mem_map]; exact .inr ⟨q, hq, rfl⟩)
    | leave f n =>
      simp only at hs
      split at hs
      · cases hs; exact go (n := n) (by simp [gSet]) rfl rfl (by intro q hq; simp only [codePaths, List.mem_map]; exact ⟨q, hq, rfl⟩)
      · cases hs
    | read x n =>
      cases hs
      refine go (n := n (s.val x)) (by simp [gSet]) rfl rfl ?_
      intro q hq
      simp only [codePaths, List.mem_append, List.mem_map]
      cases hv : s.val x <;> rw [hv] at hq
      · exact .inr ⟨q, hq, rfl⟩
      · exact .inl ⟨q, hq, rfl⟩
    | write x v n =>
      cases hs
      exact go (n := n) (by simp [gSet]) rfl rfl (by intro q hq; simp only [codePaths, List.mem_map]; exact ⟨q, hq, rfl⟩)
    | atomic n =>
      cases hs
      exact go (n := n) (by simp [gSet]) rfl rfl (by intro q hq; simp only [codePaths, List.mem_map]; exact ⟨q, hq, rfl⟩)
  · next hcur =>
    unfold AtCall at h
    rw [hcur] at h
    obtain ⟨done, h1, h2⟩ := h
    split at hs
    · cases hs
    · next a r hp =>
      cases hs
      unfold AtCall
      simp only [gSet, if_true]
      refine ⟨done, eventsOf t s.tr, [], ?_, h2, by simp [callEvents], fun q hq => gCode_paths a q hq⟩
      rw [h1, hp]; simp
    · next u r hp =>
      split at hs
      · cases hs
      · cases hs
        unfold AtCall
        simp only [hcur, gSet, if_true]
        refine ⟨done ++ [.fork u], by rw [h1, hp]; simp, ?_⟩
        rw [eventsOf_snoc_same t _ _ rfl]
        exact Performs.fork h2
    · next u r hp =>
      split at hs
      · cases hs
        unfold AtCall
        simp only [hcur, gSet, if_true]
        refine ⟨done ++ [.join u], by rw [h1, hp]; simp, ?_⟩
        rw [eventsOf_snoc_same t _ _ rfl]
        exact Performs.join h2
      · cases hs

theorem atCall_run {p : Nat → List GItem} {ls : List Nat} : ∀ {s s' : GState}, (∀ t, AtCall p s t) → gRun s ls = some s' → ∀ t, AtCall p s' t := by
  induction ls with
  | nil => intro s s' h hr; cases hr; exact h
  | cons l ls ih =>
    intro s s' h hr
    obtain ⟨u, hu, hr⟩ := Option.bind_eq_some_iff.1 hr
    refine ih (fun t => ?_) hr
    by_cases e : t = l
    · subst e; exact atCall_self (h t) hu
    · obtain ⟨a1, a2, a3⟩ := gStep_others hu e
      have := h t
      unfold AtCall at this ⊢
      rw [a1, a2, a3]; exact this

/-- C90: however the threads interleave, every thread does what its program says, call after call, and every call goes one of the ways of the table, from beginning to
end; the call in which a thread is has gone a part of one of these ways; if it has ended the process, all of one that does not return. -/
theorem C90_calls (p : Nat → List GItem) (ls : List Nat) (s : GState) (hr : gRun (gStart p) ls = some s) (t : Nat) :
    match s.cur t with
    | none => ∃ done, p t = done ++ s.prog t ∧ Performs t done (eventsOf t s.tr)
    | some (a, c) => ∃ done es ops rest b, p t = done ++ [.call a] ++ s.prog t ∧ Performs t done es ∧ eventsOf t s.tr = es ++ callEvents t a ops ∧
        (ops ++ rest, b) ∈ callPaths a ∧ (c = .stop → rest = [] ∧ b = false) ∧ (c = .ret → rest = [] ∧ b = true) := by
  have h0 : ∀ t, AtCall p (gStart p) t := fun t => ⟨[], rfl, Performs.nil⟩
  have h := atCall_run h0 hr t
  unfold AtCall at h
  split
  · next hc => rw [hc] at h; exact h
  · next a c hc =>
    rw [hc] at h
    obtain ⟨done, es, ops, h1, h2, h3, h4⟩ := h
    cases hq : codePaths c with
    | nil => exact absurd hq (codePaths_ne c)
    | cons q qs =>
      refine ⟨done, es, ops, q.1, q.2, h1, h2, h3, h4 q (by rw [hq]; simp), ?_, ?_⟩
      · intro e; subst e; simp only [codePaths, List.cons.injEq] at hq; rw [← hq.1]; exact ⟨rfl, rfl⟩
      · intro e; subst e; simp only [codePaths, List.cons.injEq] at hq; rw [← hq.1]; exact ⟨rfl, rfl⟩

/-- Thread 0 starts thread 1, which makes the call, and makes some calls itself. -/
def gTwo (pre : List GItem) (a : GApi) : Nat → List GItem := fun t => if t = 0 then .fork 1 :: pre else if t = 1 then [.call a] else []

/-- The first thread makes so many steps, and so on. -/
def gSched (l : List (Nat × Nat)) : List Nat := l.flatMap fun q => List.replicate q.2 q.1

/-- What thread 0 does, and in which order the threads run, so that the call goes the ways of the table. -/
def gWitness : GApi → List (List GItem × List (Nat × Nat))
  | .log => [([.call .initialize], [(0, 18), (1, 7)]),
      ([], [(0, 1), (1, 7)]),
      ([.call .log], [(0, 8), (1, 4)])]
  | .logf => [([.call .initialize], [(0, 18), (1, 8)]),
      ([], [(0, 1), (1, 8)]),
      ([.call .log], [(0, 8), (1, 5)])]
  | .fatal => [([.call .initialize], [(0, 18), (1, 16)]),
      ([], [(0, 1), (1, 13)]),
      ([.call .setHandler], [(0, 4), (1, 11)]),
      ([.call .initialize, .call .fatal], [(0, 34), (1, 15)]),
      ([.call .fatal], [(0, 14), (1, 12)]),
      ([.call .setHandler, .call .fatal], [(0, 15), (1, 10)])]
  | .fatalWork => [([.call .initialize, .call .fatal], [(0, 34), (1, 10)]),
      ([.call .initialize, .call .log], [(0, 25), (1, 6)])]
  | .initialize => [([.call .initialize], [(0, 1), (1, 5), (0, 14), (1, 2)]),
      ([.call .log], [(0, 8), (1, 21)]),
      ([], [(0, 1), (1, 17)]),
      ([.call .initialize, .call .shutDown], [(0, 1), (1, 5), (0, 19), (1, 10)]),
      ([.call .initialize], [(0, 18), (1, 4)]),
      ([.call .log, .call .initialize], [(0, 13), (1, 18)]),
      ([.call .initialize], [(0, 6), (1, 14)]),
      ([.call .initialize, .call .shutDown], [(0, 23), (1, 12)])]
  | .shutDown => [([], [(0, 1), (1, 5)])]
  | .destroy => [([.call .initialize], [(0, 18), (1, 7)]),
      ([], [(0, 1), (1, 6)])]
  | .setHook => [([], [(0, 1), (1, 5)])]
  | .setHandler => [([], [(0, 1), (1, 3)])]
  | .setMax => [([], [(0, 1), (1, 3)])]
  | .overrideSignals => [([], [(0, 1), (1, 9)])]
  | .restoreSignal => [([], [(0, 1), (1, 3)])]

/-- The call goes this way. -/
def gShows (a : GApi) (w : List GItem × List (Nat × Nat)) (q : List GOp × Bool) : Bool :=
  match gRun (gStart (gTwo w.1 a)) (gSched w.2) with
  | some s => decide (eventsOf 1 s.tr = callEvents 1 a q.1) && decide ((s.cur 1).isNone = q.2) && (gStep s 1).isNone && decide (s.prog 1 = [])
  | none => false

theorem gWitness_shows (a : GApi) : ∀ q ∈ callPaths a, ∃ w ∈ gWitness a, gShows a w q = true := by cases a <;> decide +kernel

/-- C90: every way of the table is really gone, by some program with two threads; at its end the call has returned, or the thread does not go on. -/
theorem C90_calls_real (a : GApi) (q : List GOp × Bool) (hq : q ∈ callPaths a) :
    ∃ p ls s, gRun (gStart p) ls = some s ∧ p 1 = [.call a] ∧ s.prog 1 = [] ∧ eventsOf 1 s.tr = callEvents 1 a q.1 ∧ (s.cur 1 = none ↔ q.2 = true) ∧ gStep s 1 = none := by
  obtain ⟨w, _, hw⟩ := gWitness_shows a q hq
  unfold gShows at hw
  split at hw
  · next s hs =>
    simp only [Bool.and_eq_true, decide_eq_true_eq, Option.isNone_iff_eq_none] at hw
    refine ⟨_, _, s, hs, rfl, hw.2, hw.1.1.1, ?_, hw.1.2⟩
    rw [← hw.1.1.2, Option.isNone_iff_eq_none]
  · cases hw

/-- The hypotheses of C90_calls_real can be met, with an early message that initializeLogging hands over. -/
example : ∃ q ∈ callPaths .initialize, q.2 = true ∧ GOp.write .first ∈ q.1 ∧ GOp.write .queue ∈ q.1 := by decide +kernel

/-- The hypotheses of C90_calls can be met in the middle of a call. -/
example : ∃ s, gRun (gStart (gTwo [.call .log] .initialize)) (gSched [(0, 8), (1, 12)]) = some s ∧ (s.cur 1).isSome = true := by decide +kernel

end G3.Props
