import Verif.Props.ProgramThreads
import Verif.Spec.Rotate
/-
C98: changing the log file while other threads log.
-/
namespace G3.Props
open G3 G3.Spec

/-! ### What the thread of the sink does with its tasks -/

/-- A task of the thread of a file sink and the operation on the sink that it performs: a message is written (sink.hpp:45-58, 64-68), the call `c`
performs `calls c` (sink.hpp:71-73). -/
inductive Executes (calls : Nat → SinkOp) : SItem LogMessage → SinkOp → Prop
  | msg (m : LogMessage) (t : Str) : Executes calls (.msg m) (.write m t)
  | fatal (m : LogMessage) (t : Str) : Executes calls (.fatal m) (.write m t)
  | call (c : Nat) : Executes calls (.call c) (calls c)

/-- The same for a sequence of tasks; in between the stream may write out by itself. -/
inductive PerformsAll (calls : Nat → SinkOp) : List (SItem LogMessage) → List SinkOp → Prop
  | nil : PerformsAll calls [] []
  | spill {d : List (SItem LogMessage)} {ops : List SinkOp} (n : Nat) : PerformsAll calls d ops → PerformsAll calls d (.spill n :: ops)
  | task {x : SItem LogMessage} {o : SinkOp} {d : List (SItem LogMessage)} {ops : List SinkOp} : Executes calls x o → PerformsAll calls d ops →
      PerformsAll calls (x :: d) (o :: ops)

theorem all_split {calls : Nat → SinkOp} {d1 d2 : List (SItem LogMessage)} {c : Nat} {ops : List SinkOp}
    (h : PerformsAll calls (d1 ++ .call c :: d2) ops) :
    ∃ ops1 ops2, ops = ops1 ++ calls c :: ops2 ∧ PerformsAll calls d1 ops1 ∧ PerformsAll calls d2 ops2 := by
  generalize hd : d1 ++ SItem.call c :: d2 = d at h
  induction h generalizing d1 with
  | nil => cases d1 <;> cases hd
  | spill n _ ih =>
    obtain ⟨o1, o2, e, h1, h2⟩ := ih hd
    exact ⟨.spill n :: o1, o2, by rw [e]; rfl, .spill n h1, h2⟩
  | @task x o d ops hx hr ih =>
    cases d1 with
    | nil =>
      cases hd
      cases hx
      exact ⟨[], ops, rfl, .nil, hr⟩
    | cons y d1 =>
      cases hd
      obtain ⟨o1, o2, e, h1, h2⟩ := ih rfl
      exact ⟨o :: o1, o2, by rw [e]; rfl, .task hx h1, h2⟩

theorem all_targets {calls : Nat → SinkOp} {d : List (SItem LogMessage)} {ops : List SinkOp} (p : Str) (h : PerformsAll calls d ops) :
    targets p ops = targets p ((d.filterMap callOf).map calls) := by
  induction h with
  | nil => rfl
  | spill n _ ih => exact ih
  | @task x o d ops hx _ ih =>
    cases hx with
    | msg m t => exact ih
    | fatal m t => exact ih
    | call c =>
      have e : ((SItem.call c :: d : List (SItem LogMessage)).filterMap callOf).map calls = calls c :: (d.filterMap callOf).map calls := rfl
      rw [e]
      have := targets_append p [calls c] ops
      have h2 := targets_append p [calls c] ((d.filterMap callOf).map calls)
      rw [List.singleton_append] at this h2
      rw [this, h2, ih]

/-- The lines received are those of the messages, if no call changes the format. -/
theorem all_received {calls : Nat → SinkOp} (ha : ∀ c, Askable (calls c)) (hf : ∀ c g, calls c ≠ .overrideDetails g) (E : Env) (f : DetailsFn)
    {d : List (SItem LogMessage)} {ops : List SinkOp} (h : PerformsAll calls d ops) :
    Spec.received E f ops = (d.filterMap gotOf).map (gotLine E f) := by
  induction h with
  | nil => rfl
  | spill n _ ih => exact ih
  | @task x o d ops hx _ ih =>
    cases hx with
    | msg m t => rw [Spec.received, ih]; rfl
    | fatal m t => rw [Spec.received, ih]; rfl
    | call c =>
      have e : (SItem.call c :: d : List (SItem LogMessage)).filterMap gotOf = d.filterMap gotOf := rfl
      rw [e, ← ih]
      have h1 := ha c
      have h2 := hf c
      cases ho : calls c with
      | write m t => rw [ho] at h1; exact h1.elim
      | spill n => rw [ho] at h1; exact h1.elim
      | overrideDetails g => exact absurd ho (h2 g)
      | _ => rfl

theorem entries_flatMap (files : List (Str × List Chunk)) : entries (files.flatMap Prod.snd) = (files.map fun x => entries x.2).flatten := by
  induction files with
  | nil => rfl
  | cons x files ih => rw [List.flatMap_cons, List.map_cons, List.flatten_cons, ← ih]; unfold entries; rw [List.filterMap_append]

/-! ### The worker -/

/-- The files of a sink that has been destroyed. -/
theorem files_of {ls : List (WLabel LogMessage)} {w : WState LogMessage} (hw : wRun WState.start ls = some w) {i : Nat}
    (hd : (w.sk i).destroyed = true) (E : Env) {s : FileSink} {fs : FS} {p path : Str} {N : Nat} (hN : 1 ≤ N)
    (h : Constructed s fs p path N) {calls : Nat → SinkOp} (ha : ∀ c, Askable (calls c)) (hf : ∀ c g, calls c ≠ .overrideDetails g)
    {ops : List SinkOp} (ho : PerformsAll calls (w.sk i).done ops)
    (hnd : (path :: targets p ((calledOn i ls).map calls)).Nodup) (time : Str) :
    ∃ s' fs' outs files, sinkRun E s fs ops = .ok (s', fs', outs) ∧
      files.map Prod.fst = path :: targets p ((calledOn i ls).map calls) ∧
      (∀ x ∈ files, s'.destroy fs' time x.1 = some (chunkText x.2)) ∧
      Distributed ((Props.received (w.sk i)).map (gotLine E .default)) files ∧
      ∀ q, q ∉ path :: targets p ((calledOn i ls).map calls) → s'.destroy fs' time q = fs q := by
  have ht : targets p ops = targets p ((calledOn i ls).map calls) := by rw [all_targets p ho, C18_calls_all hw i (.inl hd)]
  have hnd' : (path :: targets p ops).Nodup := by rw [ht]; exact hnd
  obtain ⟨s', fs', e, h1, h2, h3⟩ := C40_layout E hN h ops hnd' time
  obtain ⟨s2, fs2, outs2, e2, files, f1, f2, f3⟩ := C40_no_loss E hN h ops hnd' time
  rw [e] at e2
  cases e2
  refine ⟨s', fs', _, files, e, by rw [f1, ht], f2, ?_, ?_⟩
  · unfold Distributed
    rw [← entries_flatMap, f3, all_received ha hf E .default ho]
    rfl
  · rw [← ht]; exact h3

/-- C98: a file sink is used through its handle - its file is changed, its name asked for, its header replaced - at any time and from any thread,
while messages are logged. When the worker has been destroyed and no client keeps the sink alive, the files are the first one and those
of the successful changes in the order in which they were asked for, every line that the sink was to get is in exactly one of them, complete, and from file to
file the lines are in the order of logging. No other file is touched. -/
theorem C98_files {ls : List (WLabel LogMessage)} {w : WState LogMessage} (hw : wRun WState.start ls = some w) (hp : w.phase = .returned) {i : Nat}
    (hn : i < w.n) (hc : ¬ clientUses w i) (E : Env) {s : FileSink} {fs : FS} {p path : Str} {N : Nat} (hN : 1 ≤ N)
    (h : Constructed s fs p path N) {calls : Nat → SinkOp} (ha : ∀ c, Askable (calls c)) (hf : ∀ c g, calls c ≠ .overrideDetails g)
    {ops : List SinkOp} (ho : PerformsAll calls (w.sk i).done ops)
    (hnd : (path :: targets p ((calledOn i ls).map calls)).Nodup) (time : Str) :
    ∃ s' fs' outs files, sinkRun E s fs ops = .ok (s', fs', outs) ∧
      files.map Prod.fst = path :: targets p ((calledOn i ls).map calls) ∧
      (∀ x ∈ files, s'.destroy fs' time x.1 = some (chunkText x.2)) ∧
      Distributed ((gets i (handed 0 0 ls)).map (gotLine E .default)) files ∧
      ∀ q, q ∉ path :: targets p ((calledOn i ls).map calls) → s'.destroy fs' time q = fs q := by
  obtain ⟨hd, hr, _⟩ := C03_partial hw hp i hn hc
  rw [← hr]
  exact files_of hw hd E hN h ha hf ho hnd time

/-- C98: the same when a fatal event has ended the process (the fatal message `m` is the one with the text added to it, logworker.cpp:48-53). -/
theorem C98_fatal {ls : List (WLabel LogMessage)} {w : WState LogMessage} (hw : wRun WState.start ls = some w) (hp : w.wpc = .dead) :
    ∃ pre m post, handed 0 0 ls = pre ++ .fatal m :: post ∧ (∀ r ∈ pre, r.final = false) ∧
    ∀ i, i < w.n → ¬ clientUses w i → ∀ (E : Env) {s : FileSink} {fs : FS} {p path : Str} {N : Nat}, 1 ≤ N →
      Constructed s fs p path N → ∀ {calls : Nat → SinkOp}, (∀ c, Askable (calls c)) → (∀ c g, calls c ≠ .overrideDetails g) →
      ∀ {ops : List SinkOp}, PerformsAll calls (w.sk i).done ops → (path :: targets p ((calledOn i ls).map calls)).Nodup → ∀ time : Str,
    ∃ s' fs' outs files, sinkRun E s fs ops = .ok (s', fs', outs) ∧
      files.map Prod.fst = path :: targets p ((calledOn i ls).map calls) ∧
      (∀ x ∈ files, s'.destroy fs' time x.1 = some (chunkText x.2)) ∧
      Distributed ((gets i pre ++ if attached i pre then [Got.fatal m] else []).map (gotLine E .default)) files ∧
      ∀ q, q ∉ path :: targets p ((calledOn i ls).map calls) → s'.destroy fs' time q = fs q := by
  obtain ⟨pre, m, post, h1, h2, h3⟩ := C07_partial hw hp
  refine ⟨pre, m, post, h1, h2, ?_⟩
  intro i hn hc E s fs p path N hN h calls ha hf ops ho hnd time
  obtain ⟨hd, hr⟩ := h3 i hn hc
  rw [← hr]
  exact files_of hw hd E hN h ha hf ho hnd time

/-- C98: a change has been carried out after the schedule `a` (the future of the call is ready at the latest now). Everything that is
logged afterwards is in the new file or later ones: the files up to the change have only lines of what was logged in `a`. -/
theorem C98_after {a b : List (WLabel LogMessage)} {u w : WState LogMessage} (hu : wRun WState.start a = some u) (hb : wRun u b = some w)
    (hp : w.phase = .returned) {i : Nat}
    (hn : i < w.n) (hc : ¬ clientUses w i) (E : Env) {s : FileSink} {fs : FS} {p path : Str} {N : Nat} (hN : 1 ≤ N)
    (h : Constructed s fs p path N) {calls : Nat → SinkOp} (ha : ∀ c, Askable (calls c)) (hf : ∀ c g, calls c ≠ .overrideDetails g)
    {ops : List SinkOp} (ho : PerformsAll calls (w.sk i).done ops) (hnd : (path :: targets p ((calledOn i (a ++ b)).map calls)).Nodup)
    {c : Nat} {d1 d2 : List (SItem LogMessage)} (hd : (u.sk i).done = d1 ++ .call c :: d2) {d j n nt ht : Str} (hcl : calls c = .change d j n nt ht true)
    (time : Str) :
    ∃ s' fs' outs before after, sinkRun E s fs ops = .ok (s', fs', outs) ∧
      before.map Prod.fst = path :: targets p ((d1.filterMap callOf).map calls) ∧ (after.map Prod.fst).head? = some (targetName p d j nt) ∧
      (∀ x ∈ before ++ after, s'.destroy fs' time x.1 = some (chunkText x.2)) ∧
      Distributed ((gets i (handed 0 0 (a ++ b))).map (gotLine E .default)) (before ++ after) ∧
      ∃ early, early <+: gets i (handed 0 0 a) ∧ Distributed (early.map (gotLine E .default)) before := by
  have hw := wRun_append' hu hb
  obtain ⟨hdes, hr, _⟩ := C03_partial hw hp i hn hc
  obtain ⟨t, hgrow⟩ := (grows_run (allInv_run hu) hb).done i
  have hdone : (w.sk i).done = d1 ++ .call c :: (d2 ++ t) := by rw [hgrow, hd]; simp
  rw [hdone] at ho
  have hall := all_received ha hf E .default ho
  have hta := all_targets p ho
  obtain ⟨ops1, ops2, rfl, h1, h2⟩ := all_split ho
  have ht' : targets p (ops1 ++ calls c :: ops2) = targets p ((calledOn i (a ++ b)).map calls) := by
    rw [hta, ← hdone, C18_calls_all hw i (.inl hdes)]
  rw [hcl] at ht' hall
  rw [← ht'] at hnd
  obtain ⟨s', fs', outs, e, before, after, e1, e2, e3, e4, e5⟩ := C41_exact E hN h ops1 ops2 d j n nt ht hnd time
  refine ⟨s', fs', outs, before, after, by rw [hcl]; exact e, by rw [e1, all_targets p h1], by rw [e2]; rfl, e3, ?_, ?_⟩
  · unfold Distributed
    rw [← entries_flatMap, List.flatMap_append]
    have : entries (before.flatMap Prod.snd ++ after.flatMap Prod.snd) = entries (before.flatMap Prod.snd) ++ entries (after.flatMap Prod.snd) := by
      unfold entries; rw [List.filterMap_append]
    rw [this, e4, e5, ← List.append_assoc, List.take_append_drop, ← hr]
    unfold Props.received
    rw [hdone, ← hall, received_append]
    rfl
  · have hg := all_received ha hf E .default h1
    refine ⟨(d1.filterMap gotOf).take ((Spec.received E .default ops1).length - (Spec.received E .default ops1).length % N), ?_, ?_⟩
    · refine (List.take_prefix _ _).trans (List.IsPrefix.trans ?_ (C02_prefix hu i))
      unfold Props.received
      rw [hd, List.filterMap_append]
      exact List.prefix_append _ _
    · unfold Distributed
      rw [← entries_flatMap, e4, hg, List.map_take]

/-- C98, exact for what was logged before a change was asked for: `sent` is what the worker had passed on to the sink by then, at least what
the requests completely served by then give to it. The files up to the change have all of these lines if the sink flushes after
every entry, and otherwise all but the last `sent.length % N`. -/
theorem C98_before {a b : List (WLabel LogMessage)} {u w : WState LogMessage} {i c : Nat} (hu : wRun WState.start a = some u)
    (hb : wRun u (.call i c :: b) = some w) (hp : w.phase = .returned)
    (hn : i < w.n) (hc : ¬ clientUses w i) (E : Env) {s : FileSink} {fs : FS} {p path : Str} {N : Nat} (hN : 1 ≤ N)
    (h : Constructed s fs p path N) {calls : Nat → SinkOp} (ha : ∀ c, Askable (calls c)) (hf : ∀ c g, calls c ≠ .overrideDetails g)
    {ops : List SinkOp} (ho : PerformsAll calls (w.sk i).done ops) (hnd : (path :: targets p ((calledOn i (a ++ .call i c :: b)).map calls)).Nodup)
    {d j n nt ht : Str} (hcl : calls c = .change d j n nt ht true) (time : Str) :
    ∃ s' fs' outs before after sent, sinkRun E s fs ops = .ok (s', fs', outs) ∧
      before.map Prod.fst = path :: targets p ((calledOn i a).map calls) ∧
      after.map Prod.fst = targetName p d j nt :: targets p ((calledOn i b).map calls) ∧
      (∀ x ∈ before ++ after, s'.destroy fs' time x.1 = some (chunkText x.2)) ∧
      Distributed ((gets i (handed 0 0 (a ++ .call i c :: b))).map (gotLine E .default)) (before ++ after) ∧
      gets i ((handed 0 0 a).take u.completed) <+: sent ∧ sent <+: gets i (handed 0 0 a) ∧
      Distributed ((sent.take (sent.length - sent.length % N)).map (gotLine E .default)) before := by
  have hw := wRun_append' hu hb
  obtain ⟨hdes, hr, _⟩ := C03_partial hw hp i hn hc
  have hcalls := C18_calls_all hw i (.inl hdes)
  have hcut : calledOn i (a ++ .call i c :: b) = calledOn i a ++ c :: calledOn i b := by
    rw [calledOn_append]
    congr 1
    simp [calledOn]
  obtain ⟨sent, q1, q2, q3, q4⟩ := C18_calls_order hu hb
  obtain ⟨later, hdone⟩ : ∃ later, (w.sk i).done = sent ++ .call c :: later := by
    rcases q4 with q4 | q4
    · have := (q4.filterMap callOf).length_le
      rw [hcalls, q1, hcut] at this
      simp at this
    · exact q4
  have hlater : later.filterMap callOf = calledOn i b := by
    rw [hdone, List.filterMap_append, q1, hcut] at hcalls
    have := List.append_cancel_left hcalls
    exact (List.cons_inj_right c).1 this
  rw [hdone] at ho
  have hall := all_received ha hf E .default ho
  have hta := all_targets p ho
  obtain ⟨ops1, ops2, rfl, h1, h2⟩ := all_split ho
  have ht' : targets p (ops1 ++ calls c :: ops2) = targets p ((calledOn i (a ++ .call i c :: b)).map calls) := by
    rw [hta, ← hdone, hcalls]
  rw [hcl] at ht' hall
  rw [← ht'] at hnd
  obtain ⟨s', fs', outs, e, before, after, e1, e2, e3, e4, e5⟩ := C41_exact E hN h ops1 ops2 d j n nt ht hnd time
  have hg := all_received ha hf E .default h1
  refine ⟨s', fs', outs, before, after, sent.filterMap gotOf, by rw [hcl]; exact e, by rw [e1, all_targets p h1, q1], by rw [e2, all_targets p h2, hlater],
    e3, ?_, q2, q3, ?_⟩
  · unfold Distributed
    rw [← entries_flatMap, List.flatMap_append]
    have : entries (before.flatMap Prod.snd ++ after.flatMap Prod.snd) = entries (before.flatMap Prod.snd) ++ entries (after.flatMap Prod.snd) := by
      unfold entries; rw [List.filterMap_append]
    rw [this, e4, e5, ← List.append_assoc, List.take_append_drop, ← hr]
    unfold Props.received
    rw [hdone, ← hall, received_append]
    rfl
  · unfold Distributed
    rw [← entries_flatMap, e4, hg, List.map_take, List.length_map]

/-- A synchronous call of the worker that has returned: everything handed to the worker before it has been served. -/
theorem barrier {M : Type} {a1 a2 : List (WLabel M)} {u1 u : WState M} {x : WLabel M} (h1 : wRun WState.start a1 = some u1)
    (hbg : u1.phase.bgNull = false) (hx : x = .add ∨ x = .clear ∨ ∃ j, x = .remove j) (h2 : wRun u1 (x :: a2) = some u)
    {c : WCall} (hk : u.calls[u1.calls.length]? = some c) (hret : c.returned = true) : u1.sub.length < u.completed := by
  obtain ⟨v, hv, h3⟩ := Option.bind_eq_some_iff.1 h2
  have hne : u1.phase ≠ .returned := by intro e; rw [e] at hbg; cases hbg
  have hcall : ∃ kd, v.calls = u1.calls ++ [⟨kd, some u1.sub.length, false⟩] := by
    unfold wStep at hv
    split at hv
    · cases hv
    rcases hx with rfl | rfl | ⟨j, rfl⟩
    · simp only [addStep, if_neg hne, beginCall, hbg] at hv
      cases hv; exact ⟨_, rfl⟩
    · simp only [if_neg hne, beginCall, hbg] at hv
      cases hv; exact ⟨_, rfl⟩
    · simp only [if_neg hne, beginCall, hbg] at hv
      split at hv <;> cases hv; exact ⟨_, rfl⟩
  obtain ⟨kd, hcall⟩ := hcall
  have hiv := allInv_run (wRun_append' h1 (show wRun u1 [x] = some v by rw [wRun, hv]; rfl))
  have hi := allInv_run (wRun_append' h1 h2)
  have hv1 : v.calls[u1.calls.length]? = some ⟨kd, some u1.sub.length, false⟩ := by rw [hcall]; simp
  obtain ⟨b, hb, _⟩ := (grows_run hiv h3).calls _ _ hv1
  rw [hk] at hb
  cases hb
  have hmem := List.mem_iff_getElem?.2 ⟨_, hk⟩
  have hs := hi.w.calls.pos _ hmem _ rfl
  have := hi.w.calls.ret _ hmem hret
  unfold ready at this
  simp only [Bool.or_eq_true, decide_eq_true_eq] at this
  rcases this with h | h
  · exact h
  · rw [ended_facts hi (hi.w.book.gone h).2]
    exact (List.getElem?_eq_some_iff.1 hs).1

/-- C98 where it holds for what was logged before: the sink flushes after every entry, and between logging (schedule `a1`) and asking for
the change some synchronous call of the worker - `addSink`, `removeSink` of another sink - has returned. Then all lines of `a1` are in the files
up to the change. -/
theorem C98_before_partial {a1 a2 b : List (WLabel LogMessage)} {u1 u w : WState LogMessage} {i c : Nat} {x : WLabel LogMessage}
    (h1 : wRun WState.start a1 = some u1) (hbg : u1.phase.bgNull = false) (hx : x = .add ∨ x = .clear ∨ ∃ j, x = .remove j)
    (h2 : wRun u1 (x :: a2) = some u) {sync : WCall} (hk : u.calls[u1.calls.length]? = some sync) (hret : sync.returned = true)
    (hb : wRun u (.call i c :: b) = some w) (hp : w.phase = .returned)
    (hn : i < w.n) (hc : ¬ clientUses w i) (E : Env) {s : FileSink} {fs : FS} {p path : Str}
    (h : Constructed s fs p path 1) {calls : Nat → SinkOp} (ha : ∀ c, Askable (calls c)) (hf : ∀ c g, calls c ≠ .overrideDetails g)
    {ops : List SinkOp} (ho : PerformsAll calls (w.sk i).done ops)
    (hnd : (path :: targets p ((calledOn i ((a1 ++ x :: a2) ++ .call i c :: b)).map calls)).Nodup)
    {d j n nt ht : Str} (hcl : calls c = .change d j n nt ht true) (time : Str) :
    ∃ s' fs' outs before after more, sinkRun E s fs ops = .ok (s', fs', outs) ∧
      before.map Prod.fst = path :: targets p ((calledOn i (a1 ++ x :: a2)).map calls) ∧
      (∀ x ∈ before ++ after, s'.destroy fs' time x.1 = some (chunkText x.2)) ∧
      Distributed ((gets i (handed 0 0 a1) ++ more).map (gotLine E .default)) before := by
  have hu := wRun_append' h1 h2
  obtain ⟨s', fs', outs, before, after, sent, r1, r2, r3, r4, r5, r6, r7, r8⟩ :=
    C98_before hu hb hp hn hc E (Nat.le_refl 1) h ha hf ho hnd hcl time
  have hcomp := barrier h1 hbg hx h2 hk hret
  have hpre : gets i (handed 0 0 a1) <+: sent := by
    refine List.IsPrefix.trans ?_ r6
    have e1 := handed_take h1 h2
    have e2 : ((handed 0 0 (a1 ++ x :: a2)).take u.completed).take u1.sub.length = handed 0 0 a1 := by
      rw [List.take_take, Nat.min_eq_left (by omega), e1]
    obtain ⟨t, ht⟩ := List.take_prefix u1.sub.length ((handed 0 0 (a1 ++ x :: a2)).take u.completed)
    rw [e2] at ht
    rw [← ht]
    exact gets_mono i _ _
  obtain ⟨more, rfl⟩ := hpre
  refine ⟨s', fs', outs, before, after, more, r1, r2, r4, ?_⟩
  rw [Nat.mod_one, Nat.sub_zero, List.take_length] at r8
  exact r8

/-! ### Calls that change the format -/

/-- What is done with a task, in the words of the specification. -/
def turnOf : SItem LogMessage → Option Turn
  | .msg m => some (.entry (.log m))
  | .fatal m => some (.entry (.fatal m))
  | .call c => some (.call c)
  | .stop => none

theorem turn_got (d : List (SItem LogMessage)) : (d.filterMap turnOf).filterMap Turn.got = d.filterMap gotOf := by
  induction d with
  | nil => rfl
  | cons x d ih => cases x <;> first | exact congrArg (List.cons _) ih | exact ih

theorem turn_called (d : List (SItem LogMessage)) : (d.filterMap turnOf).filterMap Turn.called = d.filterMap callOf := by
  induction d with
  | nil => rfl
  | cons x d ih => cases x <;> first | exact congrArg (List.cons _) ih | exact ih

theorem all_lines {calls : Nat → SinkOp} (ha : ∀ c, Askable (calls c)) (E : Env)
    {d : List (SItem LogMessage)} {ops : List SinkOp} (h : PerformsAll calls d ops) :
    ∀ f, Spec.received E f ops = linesOf E calls f (d.filterMap turnOf) := by
  induction h with
  | nil => intro f; rfl
  | spill n _ ih => intro f; exact ih f
  | @task x o d ops hx _ ih =>
    intro f
    cases hx with
    | msg m t => rw [Spec.received, ih]; rfl
    | fatal m t => rw [Spec.received, ih]; rfl
    | call c =>
      have e : (SItem.call c :: d : List (SItem LogMessage)).filterMap turnOf = .call c :: d.filterMap turnOf := rfl
      rw [e, linesOf, ← ih]
      have h1 := ha c
      cases ho : calls c with
      | write m t => rw [ho] at h1; exact h1.elim
      | spill n => rw [ho] at h1; exact h1.elim
      | _ => rfl

/-- C98 when the format of the lines is changed, too: the sink is given its messages and calls in one order, in which both the messages and
the calls are in the order in which they were logged and made; every line is in exactly one file, and it has the format of the last change before it. -/
theorem C98_formats {ls : List (WLabel LogMessage)} {w : WState LogMessage} (hw : wRun WState.start ls = some w) (hp : w.phase = .returned) {i : Nat}
    (hn : i < w.n) (hc : ¬ clientUses w i) (E : Env) {s : FileSink} {fs : FS} {p path : Str} {N : Nat} (hN : 1 ≤ N)
    (h : Constructed s fs p path N) {calls : Nat → SinkOp} (ha : ∀ c, Askable (calls c))
    {ops : List SinkOp} (ho : PerformsAll calls (w.sk i).done ops)
    (hnd : (path :: targets p ((calledOn i ls).map calls)).Nodup) (time : Str) :
    ∃ s' fs' outs files order, sinkRun E s fs ops = .ok (s', fs', outs) ∧
      files.map Prod.fst = path :: targets p ((calledOn i ls).map calls) ∧
      (∀ x ∈ files, s'.destroy fs' time x.1 = some (chunkText x.2)) ∧
      order.filterMap Turn.got = gets i (handed 0 0 ls) ∧ order.filterMap Turn.called = calledOn i ls ∧
      Distributed (linesOf E calls .default order) files ∧
      ∀ q, q ∉ path :: targets p ((calledOn i ls).map calls) → s'.destroy fs' time q = fs q := by
  obtain ⟨hd, hr, _⟩ := C03_partial hw hp i hn hc
  have hcalls := C18_calls_all hw i (.inl hd)
  have ht : targets p ops = targets p ((calledOn i ls).map calls) := by rw [all_targets p ho, hcalls]
  have hnd' : (path :: targets p ops).Nodup := by rw [ht]; exact hnd
  obtain ⟨s', fs', e, h1, h2, h3⟩ := C40_layout E hN h ops hnd' time
  obtain ⟨s2, fs2, outs2, e2, files, f1, f2, f3⟩ := C40_no_loss E hN h ops hnd' time
  rw [e] at e2
  cases e2
  refine ⟨s', fs', _, files, (w.sk i).done.filterMap turnOf, e, by rw [f1, ht], f2, by rw [turn_got]; exact hr, by rw [turn_called, hcalls], ?_, ?_⟩
  · unfold Distributed
    rw [← entries_flatMap, f3, all_lines ha E ho]
  · rw [← ht]; exact h3

/-- The operations that may be asked for, with a change of the format between two messages. -/
example (E : Env) (m : LogMessage) : (∀ c : Nat, Askable (.overrideDetails (if c = 0 then .full else .default))) ∧
    linesOf E (fun _ => .overrideDetails .full) .default [.entry (.log m), .call 0, .entry (.log m)] = [(toString E m .default).1, (toString E m .full).1] :=
  ⟨fun _ => trivial, rfl⟩

end G3.Props
