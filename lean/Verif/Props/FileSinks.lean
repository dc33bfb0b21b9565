import Verif.Spec.FileSinks
import Verif.Props.FileSink
/-
Property C78: several file sinks and their files.
-/
namespace G3.Props
open G3 G3.Spec

/-! ### What one operation does to one file -/

theorem spill_at (o : OStream) (fs : FS) (n : Nat) (q : Str) :
    (o.spill fs n).2 q = if q = o.path then (fs q).map (fun c => writeAt c o.off (o.pend.take n)) else fs q := by
  unfold OStream.spill
  by_cases h : q = o.path
  · rw [if_pos h, h]
    cases hc : fs o.path with
    | none => simp [hc]
    | some c => simp [FS.set]
  · rw [if_neg h]
    cases hc : fs o.path with
    | none => rfl
    | some c => simp [FS.set, h]

theorem flush_at (o : OStream) (fs : FS) (q : Str) :
    (o.flush fs).2 q = if q = o.path then (fs q).map (fun c => writeAt c o.off o.pend) else fs q := by
  unfold OStream.flush; rw [spill_at]; simp

/-- Building a sink: the outcome does not depend on the files; one file is emptied. -/
theorem new_local (fs1 fs2 : FS) (lp d i : Str) (N : Nat) (nt : Str) (o1 o2 : Bool) {s : FileSink} {fs1' : FS}
    (h : FileSink.new fs1 lp d i N nt o1 o2 = .ok (s, fs1')) :
    s.out.path = s.path ∧ (∀ q, fs1' q = if q = s.path then some [] else fs1 q) ∧
    ∃ fs2', FileSink.new fs2 lp d i N nt o1 o2 = .ok (s, fs2') ∧ ∀ q, fs2' q = if q = s.path then some [] else fs2 q := by
  unfold FileSink.new createLogFile at *
  cases hp : acceptPrefix lp with
  | none => rw [hp] at h; cases h
  | some p =>
    simp only [hp] at h ⊢
    cases o1 with
    | true =>
      simp only [if_true, Except.ok.injEq, Prod.mk.injEq] at h ⊢
      obtain ⟨rfl, rfl⟩ := h
      exact ⟨rfl, fun q => rfl, _, ⟨rfl, rfl⟩, fun q => rfl⟩
    | false =>
      cases o2 with
      | true =>
        simp only [if_true, Bool.false_eq_true, if_false, Except.ok.injEq, Prod.mk.injEq] at h ⊢
        obtain ⟨rfl, rfl⟩ := h
        exact ⟨rfl, fun q => rfl, _, ⟨rfl, rfl⟩, fun q => rfl⟩
      | false => simp at h

theorem create_true (fs : FS) (p : Str) : createLogFile fs p true = (some { path := p, off := 0, pend := [] }, fs.set p []) := rfl
theorem create_false (fs : FS) (p : Str) : createLogFile fs p false = (none, fs) := rfl

/-- Using a sink: sink and result do not depend on the files; what happens to a file depends on that file
only; only files the sink has before or after are changed. -/
theorem use_local (E : Env) (s : FileSink) (fs1 fs2 : FS) (o : SinkOp) (hw : s.out.path = s.path) {s' : FileSink} {fs1' : FS} {r : Str}
    (h : sinkStep E s fs1 o = .ok (s', fs1', r)) :
    s'.out.path = s'.path ∧ (∀ q, q ≠ s.path → q ≠ s'.path → fs1' q = fs1 q) ∧
    ∃ fs2', sinkStep E s fs2 o = .ok (s', fs2', r) ∧ ∀ q, fs1 q = fs2 q → fs1' q = fs2' q := by
  cases o with
  | write m t =>
    simp only [sinkStep, FileSink.fileWrite] at h ⊢
    generalize hs1 : (if s.firstEntry then { s.addLogFileHeader t with firstEntry := false } else s) = s1 at h ⊢
    have e1 : s1.path = s.path ∧ s1.out.path = s.path := by
      rw [← hs1]; split <;> simp [FileSink.addLogFileHeader, OStream.put, hw]
    by_cases h0 : s1.every = 0
    · rw [if_pos h0] at h; cases h
    rw [if_neg h0] at h ⊢
    by_cases hc : (s1.counter + 1) % s1.every = 0
    · simp only [hc, if_true, Except.ok.injEq, Prod.mk.injEq] at h ⊢
      obtain ⟨rfl, rfl, rfl⟩ := h
      refine ⟨?_, ?_, _, ⟨rfl, rfl, rfl⟩, ?_⟩
      · show s1.out.path = s1.path; rw [e1.1, e1.2]
      · intro q hq _
        rw [flush_at, if_neg]; show q ≠ s1.out.path; rw [e1.2]; exact hq
      · intro q hq; rw [flush_at, flush_at, hq]
    · simp only [hc, if_false, Except.ok.injEq, Prod.mk.injEq] at h ⊢
      obtain ⟨rfl, rfl, rfl⟩ := h
      refine ⟨?_, fun q _ _ => rfl, _, ⟨rfl, rfl, rfl⟩, fun q hq => hq⟩
      show s1.out.path = s1.path; rw [e1.1, e1.2]
  | change d i n nt ht o =>
    simp only [sinkStep, FileSink.changeLogFile] at h ⊢
    cases o with
    | false =>
      simp only [create_false, Except.ok.injEq, Prod.mk.injEq] at h ⊢
      obtain ⟨rfl, rfl, rfl⟩ := h
      exact ⟨hw, fun q _ _ => rfl, _, ⟨rfl, rfl, rfl⟩, fun q hq => hq⟩
    | true =>
      simp only [create_true, Except.ok.injEq, Prod.mk.injEq] at h ⊢
      obtain ⟨rfl, rfl, rfl⟩ := h
      refine ⟨rfl, ?_, _, ⟨rfl, rfl, rfl⟩, ?_⟩
      · intro q hq hq'
        rw [flush_at, if_neg (by show q ≠ s.out.path; rw [hw]; exact hq), FS.set_other _ _ hq']
      · intro q hq
        rw [flush_at, flush_at]
        simp only [FS.set, hq]
  | overrideDetails f =>
    simp only [sinkStep, Except.ok.injEq, Prod.mk.injEq] at h ⊢
    obtain ⟨rfl, rfl, rfl⟩ := h
    exact ⟨hw, fun q _ _ => rfl, _, ⟨rfl, rfl, rfl⟩, fun q hq => hq⟩
  | overrideHeader f =>
    simp only [sinkStep, Except.ok.injEq, Prod.mk.injEq] at h ⊢
    obtain ⟨rfl, rfl, rfl⟩ := h
    exact ⟨hw, fun q _ _ => rfl, _, ⟨rfl, rfl, rfl⟩, fun q hq => hq⟩
  | fileName =>
    simp only [sinkStep, Except.ok.injEq, Prod.mk.injEq] at h ⊢
    obtain ⟨rfl, rfl, rfl⟩ := h
    exact ⟨hw, fun q _ _ => rfl, _, ⟨rfl, rfl, rfl⟩, fun q hq => hq⟩
  | spill n =>
    simp only [sinkStep, Except.ok.injEq, Prod.mk.injEq] at h ⊢
    obtain ⟨rfl, rfl, rfl⟩ := h
    refine ⟨hw, ?_, _, ⟨rfl, rfl, rfl⟩, ?_⟩
    · intro q hq _
      rw [spill_at, if_neg (by rw [hw]; exact hq)]
    · intro q hq; rw [spill_at, spill_at, hq]

theorem destroy_at (s : FileSink) (fs : FS) (t : Str) (q : Str) :
    s.destroy fs t q = if q = s.out.path then (fs q).map (fun c => writeAt c s.out.off (s.out.pend ++ (s.buffer ++
      ("g3log g3FileSink shutdown at: ".toList ++ t ++ "\n".toList)))) else fs q := by
  unfold FileSink.destroy
  rw [flush_at]; rfl

/-! ### Histories of several sinks -/

theorem sinksRun_snoc (E : Env) (st : SinksState) (l : List (Nat × SinksOp)) (k : Nat) (o : SinksOp) :
    sinksRun E st (l ++ [(k, o)]) = (sinksRun E st l).bind (fun s => sinksStep E s k o) := by
  induction l generalizing st with
  | nil => simp only [List.nil_append, sinksRun, Option.bind_some]; cases sinksStep E st k o <;> rfl
  | cons x l ih =>
    obtain ⟨j, p⟩ := x
    simp only [List.cons_append, sinksRun]
    cases sinksStep E st j p with
    | none => rfl
    | some s => exact ih s

theorem used_snoc {E : Env} {fs : FS} {tr : List (Nat × SinksOp)} {k : Nat} {p : Str} (h : Used E fs tr k p) (x : Nat × SinksOp) :
    Used E fs (tr ++ [x]) k p := by
  obtain ⟨l1, l2, st, s, e, h1, h2, h3⟩ := h
  exact ⟨l1, l2 ++ [x], st, s, by rw [e, List.append_assoc], h1, h2, h3⟩

theorem used_now {E : Env} {fs : FS} {tr : List (Nat × SinksOp)} {k : Nat} {st : SinksState} {s : FileSink}
    (h : sinksRun E (sinksInit fs) tr = some st) (hs : st.sink k = some s) : Used E fs tr k s.path :=
  ⟨tr, [], st, s, by simp, h, hs, rfl⟩

/-- The stream of a sink is open on the file the sink reports. -/
def SinksOk (st : SinksState) : Prop := ∀ k s, st.sink k = some s → s.out.path = s.path

/-- One step: the sinks stay consistent, a file changes only if the sink has it before or after, and other sinks
are not affected. -/
theorem sinksStep_local {E : Env} {st st' : SinksState} {k : Nat} {o : SinksOp} (hw : SinksOk st)
    (h : sinksStep E st k o = some st') :
    SinksOk st' ∧ (∀ j, j ≠ k → st'.sink j = st.sink j ∧ st'.outs j = st.outs j) ∧
    (∀ q, (∀ s, st.sink k = some s → q ≠ s.path) → (∀ s, st'.sink k = some s → q ≠ s.path) → st'.fs q = st.fs q) := by
  cases o with
  | build lp d i N nt o1 o2 =>
    simp only [sinksStep] at h
    split at h
    · cases h
    · split at h
      · cases h
      · rename_i s fs' hn
        simp only [Option.some.injEq] at h
        subst h
        obtain ⟨a, b, _⟩ := new_local _ st.fs _ _ _ _ _ _ _ hn
        refine ⟨?_, fun j hj => ⟨by simp [SinksState.put, hj], rfl⟩, ?_⟩
        · intro j t ht
          by_cases hj : j = k
          · subst hj; simp [SinksState.put] at ht; subst ht; exact a
          · simp [SinksState.put, hj] at ht; exact hw j t ht
        · intro q _ hq
          show fs' q = _
          rw [b, if_neg (hq s (by simp [SinksState.put]))]
  | use o =>
    simp only [sinksStep] at h
    split at h
    · cases h
    · rename_i s hs
      split at h
      · cases h
      · rename_i s' fs' r hn
        simp only [Option.some.injEq] at h
        subst h
        obtain ⟨a, b, _⟩ := use_local E s st.fs st.fs o (hw k s hs) hn
        refine ⟨?_, fun j hj => ⟨by simp [SinksState.put, hj], by simp [hj]⟩, ?_⟩
        · intro j t ht
          by_cases hj : j = k
          · subst hj; simp [SinksState.put] at ht; subst ht; exact a
          · simp [SinksState.put, hj] at ht; exact hw j t ht
        · intro q hq hq'
          exact b q (hq s hs) (hq' s' (by simp [SinksState.put]))
  | destroy t =>
    simp only [sinksStep] at h
    split at h
    · cases h
    · rename_i s hs
      simp only [Option.some.injEq] at h
      subst h
      refine ⟨?_, fun j hj => ⟨by simp [SinksState.put, hj], rfl⟩, ?_⟩
      · intro j t ht
        by_cases hj : j = k
        · subst hj; simp [SinksState.put] at ht
        · simp [SinksState.put, hj] at ht; exact hw j t ht
      · intro q hq _
        show s.destroy st.fs t q = _
        rw [destroy_at, if_neg]; rw [hw k s hs]; exact hq s hs

theorem sinksOk_init (fs : FS) : SinksOk (sinksInit fs) := by intro k s h; cases h

theorem sinksOk_run {E : Env} {fs : FS} {tr : List (Nat × SinksOp)} {st : SinksState}
    (h : sinksRun E (sinksInit fs) tr = some st) : SinksOk st := by
  induction tr using List.reverseRecOn generalizing st with
  | nil => simp only [sinksRun, Option.some.injEq] at h; subst h; exact sinksOk_init fs
  | append_singleton l x ih =>
    obtain ⟨k, o⟩ := x
    rw [sinksRun_snoc] at h
    cases h1 : sinksRun E (sinksInit fs) l with
    | none => rw [h1] at h; cases h
    | some st1 =>
      rw [h1, Option.bind_some] at h
      exact (sinksStep_local (ih h1) h).1

/-- The same step of the same sink in two states that may differ elsewhere. -/
theorem sinksStep_agree {E : Env} {st st' st2 : SinksState} {k : Nat} {o : SinksOp} (hw : SinksOk st)
    (h : sinksStep E st k o = some st') (hs : st2.sink k = st.sink k) (ho : st2.outs k = st.outs k) :
    ∃ st2', sinksStep E st2 k o = some st2' ∧ st2'.sink k = st'.sink k ∧ st2'.outs k = st'.outs k ∧
      ∀ q, st2.fs q = st.fs q → st2'.fs q = st'.fs q := by
  cases o with
  | build lp d i N nt o1 o2 =>
    simp only [sinksStep] at h ⊢
    rw [hs]
    cases hk : st.sink k with
    | some _ => rw [hk] at h; cases h
    | none =>
      simp only [hk] at h ⊢
      split at h
      · cases h
      · rename_i s fs' hn
        simp only [Option.some.injEq] at h
        subst h
        obtain ⟨a, b, fs2', c, e⟩ := new_local _ st2.fs _ _ _ _ _ _ _ hn
        simp only [c]
        refine ⟨_, rfl, by simp [SinksState.put], ho, ?_⟩
        intro q hq
        show fs2' q = fs' q
        rw [b, e, hq]
  | use o =>
    simp only [sinksStep] at h ⊢
    rw [hs]
    cases hk : st.sink k with
    | none => rw [hk] at h; cases h
    | some s =>
      simp only [hk] at h ⊢
      split at h
      · cases h
      · rename_i s' fs' r hn
        simp only [Option.some.injEq] at h
        subst h
        obtain ⟨a, b, fs2', c, e⟩ := use_local E s st.fs st2.fs o (hw k s hk) hn
        simp only [c]
        refine ⟨_, rfl, by simp [SinksState.put], by simp [ho], ?_⟩
        intro q hq
        exact (e q hq.symm).symm
  | destroy t =>
    simp only [sinksStep] at h ⊢
    rw [hs]
    cases hk : st.sink k with
    | none => rw [hk] at h; cases h
    | some s =>
      simp only [hk, Option.some.injEq] at h ⊢
      subst h
      refine ⟨_, rfl, by simp [SinksState.put], ho, ?_⟩
      intro q hq
      show s.destroy st2.fs t q = s.destroy st.fs t q
      rw [destroy_at, destroy_at, hq]

/-- C78 (positive part): whatever the sinks do and in whichever order their threads run, a sink that no other sink
shares a file name with behaves exactly as if it were alone: it ends in the same state, its calls give the
same results, and every file that no other sink has ever used, its own in particular, has the same
content. -/
theorem C78_independent_partial (E : Env) (fs : FS) (tr : List (Nat × SinksOp)) (k : Nat) {st : SinksState}
    (h : sinksRun E (sinksInit fs) tr = some st) :
    ∃ al, sinksRun E (sinksInit fs) (ofSink k tr) = some al ∧ al.sink k = st.sink k ∧ al.outs k = st.outs k ∧
      ∀ p, (∀ j, j ≠ k → ¬ Used E fs tr j p) → st.fs p = al.fs p := by
  induction tr using List.reverseRecOn generalizing st with
  | nil =>
    simp only [sinksRun, Option.some.injEq] at h; subst h
    exact ⟨_, rfl, rfl, rfl, fun _ _ => rfl⟩
  | append_singleton l x ih =>
    obtain ⟨j, o⟩ := x
    have hall := h
    rw [sinksRun_snoc] at h
    cases h1 : sinksRun E (sinksInit fs) l with
    | none => rw [h1] at h; cases h
    | some st1 =>
      rw [h1, Option.bind_some] at h
      obtain ⟨al, a1, a2, a3, a4⟩ := ih h1
      have hw := sinksOk_run h1
      by_cases hj : j = k
      · subst hj
        obtain ⟨al', b1, b2, b3, b4⟩ := sinksStep_agree hw h a2 a3
        refine ⟨al', ?_, b2, b3, ?_⟩
        · have : ofSink j (l ++ [(j, o)]) = ofSink j l ++ [(j, o)] := by simp [ofSink]
          rw [this, sinksRun_snoc, a1]; exact b1
        · intro p hp
          exact (b4 p (a4 p (fun i hi hu => hp i hi (used_snoc hu _))).symm).symm
      · obtain ⟨_, c1, c2⟩ := sinksStep_local hw h
        have hk : k ≠ j := fun e => hj e.symm
        refine ⟨al, ?_, by rw [a2, (c1 k hk).1], by rw [a3, (c1 k hk).2], ?_⟩
        · have : ofSink k (l ++ [(j, o)]) = ofSink k l := by simp [ofSink, hj]
          rw [this]; exact a1
        · intro p hp
          rw [c2 p, a4 p (fun i hi hu => hp i hi (used_snoc hu _))]
          · intro s hs e
            exact hp j hj (e ▸ used_snoc (used_now h1 hs) _)
          · intro s hs e
            exact hp j hj (e ▸ used_now hall hs)

/-- C78: files that no sink has used are untouched. -/
theorem C78_other_files (E : Env) (fs : FS) (tr : List (Nat × SinksOp)) {st : SinksState}
    (h : sinksRun E (sinksInit fs) tr = some st) (p : Str) (hp : ∀ j, ¬ Used E fs tr j p) : st.fs p = fs p := by
  induction tr using List.reverseRecOn generalizing st with
  | nil => simp only [sinksRun, Option.some.injEq] at h; subst h; rfl
  | append_singleton l x ih =>
    obtain ⟨j, o⟩ := x
    have hall := h
    rw [sinksRun_snoc] at h
    cases h1 : sinksRun E (sinksInit fs) l with
    | none => rw [h1] at h; cases h
    | some st1 =>
      rw [h1, Option.bind_some] at h
      obtain ⟨_, _, c2⟩ := sinksStep_local (sinksOk_run h1) h
      rw [c2 p, ih h1 (fun i hu => hp i (used_snoc hu _))]
      · intro s hs e; exact hp j (e ▸ used_snoc (used_now h1 hs) _)
      · intro s hs e; exact hp j (e ▸ used_now hall hs)

/-- Using one sink only is using it as in Model/FileSink. -/
theorem sinksRun_uses {E : Env} {k : Nat} (ops : List SinkOp) {st : SinksState} {s : FileSink} (hs : st.sink k = some s)
    (rest : List (Nat × SinksOp)) {st' : SinksState} (h : sinksRun E st (ops.map (fun o => (k, .use o)) ++ rest) = some st') :
    ∃ st1 s1 outs, sinkRun E s st.fs ops = .ok (s1, st1.fs, outs) ∧ st1.sink k = some s1 ∧
      st1.outs k = st.outs k ++ outs ∧ sinksRun E st1 rest = some st' := by
  induction ops generalizing st s with
  | nil => exact ⟨st, s, [], rfl, hs, by simp, h⟩
  | cons o ops ih =>
    simp only [List.map_cons, List.cons_append, sinksRun] at h
    cases hn : sinksStep E st k (.use o) with
    | none => rw [hn] at h; cases h
    | some st2 =>
      rw [hn] at h
      simp only [sinksStep, hs] at hn
      split at hn
      · cases hn
      · rename_i s2 fs2 r hst
        simp only [Option.some.injEq] at hn
        subst hn
        obtain ⟨st1, s1, outs, a, b, c, d⟩ := ih (s := s2) (by simp [SinksState.put]) h
        refine ⟨st1, s1, r :: outs, ?_, b, ?_, d⟩
        · simp only [sinkRun, hst]
          simp only at a
          rw [a]
        · rw [c]; simp

/-- C78 (positive part) with C38: a file sink that is built, used and destroyed while any number of other sinks are at
work leaves its header, every entry and the shut down line in its file, provided no other sink uses that
file name. -/
theorem C78_content_partial (E : Env) (fs : FS) (tr : List (Nat × SinksOp)) (k : Nat) {st : SinksState}
    (h : sinksRun E (sinksInit fs) tr = some st)
    (lp d i nt : Str) (N : Nat) (hN : 1 ≤ N) (o1 o2 : Bool) (ops : List SinkOp) (hc : NoChange ops) (time : Str)
    (hk : ofSink k tr = (k, .build lp d i N nt o1 o2) :: ops.map (fun o => (k, .use o)) ++ [(k, .destroy time)]) :
    ∃ p path, acceptPrefix lp = some p ∧
      path = (if o1 then pathSanityFix d (createLogFileName p i nt) else "./".toList ++ createLogFileName p i nt) ∧
      ((∀ j, j ≠ k → ¬ Used E fs tr j path) →
        st.fs path = some (firstHeader (aInit path).hdr ops ++ (received E .default ops).flatten ++
          "g3log g3FileSink shutdown at: ".toList ++ time ++ "\n".toList)) := by
  obtain ⟨al, a1, a2, a3, a4⟩ := C78_independent_partial E fs tr k h
  rw [hk] at a1
  simp only [List.cons_append, sinksRun] at a1
  cases hb : sinksStep E (sinksInit fs) k (.build lp d i N nt o1 o2) with
  | none => rw [hb] at a1; cases a1
  | some st0 =>
    rw [hb] at a1
    simp only [sinksStep, sinksInit] at hb
    split at hb
    · cases hb
    · rename_i s fs' hn
      simp only [Option.some.injEq] at hb
      subst hb
      have hp : ∃ p, acceptPrefix lp = some p := by
        cases hp : acceptPrefix lp with
        | none => simp [FileSink.new, hp] at hn
        | some p => exact ⟨p, rfl⟩
      obtain ⟨p, hp⟩ := hp
      have hpath : s.path = (if o1 then pathSanityFix d (createLogFileName p i nt) else "./".toList ++ createLogFileName p i nt) := by
        obtain ⟨c1, c2, c3⟩ := (C38_constructor fs lp d i nt N o1 o2).1 p hp
        cases o1 with
        | true =>
          obtain ⟨s', e, e'⟩ := c1 rfl
          rw [e] at hn; simp only [Except.ok.injEq, Prod.mk.injEq] at hn
          rw [← hn.1, e']; simp
        | false =>
          cases o2 with
          | true =>
            obtain ⟨s', e, e'⟩ := c2 rfl rfl
            rw [e] at hn; simp only [Except.ok.injEq, Prod.mk.injEq] at hn
            rw [← hn.1, e']; simp
          | false => rw [c3 rfl rfl] at hn; cases hn
      have hhdr : s.header = (aInit s.path).hdr := (constructed_inv ⟨fs, lp, d, i, nt, o1, o2, hn, rfl, rfl⟩).hdr
      obtain ⟨st1, s1, outs, b1, b2, b3, b4⟩ := sinksRun_uses ops (s := s) (by simp [SinksState.put]) _ a1
      obtain ⟨s', fs'', outs', e, c1, c2⟩ := C38_content E hN ⟨fs, lp, d, i, nt, o1, o2, hn, rfl, rfl⟩ ops hc time
      simp only at b1
      rw [e] at b1
      simp only [Except.ok.injEq, Prod.mk.injEq] at b1
      obtain ⟨rfl, hfs, _⟩ := b1
      simp only [sinksRun, sinksStep, b2, Option.some.injEq] at b4
      subst b4
      refine ⟨p, s.path, hp, hpath, ?_⟩
      intro hu
      rw [a4 _ hu]
      show s'.destroy st1.fs time s.path = _
      rw [← hfs, c1, hhdr]

/-- C78: in the same directory the names of two new sinks coincide exactly if prefix (after cleaning), id and second
of construction coincide. -/
theorem C78_same_name (lp lp' p p' d i i' t t' : Str) (hp : acceptPrefix lp = some p) (hp' : acceptPrefix lp' = some p')
    (hl : t.length = t'.length) :
    pathSanityFix d (createLogFileName p i t) = pathSanityFix d (createLogFileName p' i' t') ↔ p = p' ∧ i = i' ∧ t = t' := by
  have dot : ∀ lp p, acceptPrefix lp = some p → '.' ∉ p := by
    intro lp p h hm
    have := C36_clean lp p h '.' hm; revert this; decide
  constructor
  · intro h
    simp only [pathSanityFix] at h
    exact C56_injective _ _ _ _ _ _ (dot _ _ hp) (dot _ _ hp') hl (List.append_cancel_left h)
  · rintro ⟨rfl, rfl, rfl⟩; rfl

/-- C78: whatever has happened, building a sink empties the file it gets, whoever may have written it. -/
theorem C78_emptied (E : Env) (fs : FS) (tr : List (Nat × SinksOp)) {st : SinksState} (h : sinksRun E (sinksInit fs) tr = some st)
    (k : Nat) (lp p d i nt : Str) (N : Nat) (o2 : Bool) (hp : acceptPrefix lp = some p) (hk : st.sink k = none) :
    ∃ st', sinksRun E (sinksInit fs) (tr ++ [(k, .build lp d i N nt true o2)]) = some st' ∧
      st'.fs (pathSanityFix d (createLogFileName p i nt)) = some [] ∧
      ∀ q, q ≠ pathSanityFix d (createLogFileName p i nt) → st'.fs q = st.fs q := by
  obtain ⟨s, hs, _⟩ := ((C38_constructor st.fs lp d i nt N true o2).1 p hp).1 rfl
  rw [sinksRun_snoc, h, Option.bind_some]
  simp only [sinksStep, hk, hs]
  refine ⟨_, rfl, FS.set_same _ _ _, fun q hq => FS.set_other _ _ hq⟩

/-- The text of a default entry contains a tabulator or a line break of a fatal entry's first line; in either case
the asterisk or the tabulator that no shut down line has. -/
theorem entry_mark (E : Env) (m : LogMessage) : ∃ c ∈ (toString E m .default).1, c = '\t' ∨ c = '*' := by
  unfold toString
  simp only
  split
  · exact ⟨'\t', by simp [normalToString, details, defaultDetails, LogMessage.overrideDetails], .inl rfl⟩
  · split
    · exact ⟨'*', by simp [fatalSignalToString], .inr rfl⟩
    · split
      · exact ⟨'*', by simp [fatalExceptionToString], .inr rfl⟩
      · split
        · exact ⟨'\t', by simp [fatalLogToString], .inl rfl⟩
        · split
          · exact ⟨'\t', by simp [fatalCheckToString], .inl rfl⟩
          · exact ⟨'\t', by simp, .inl rfl⟩

theorem mem_writeAt {c t : Str} {off : Nat} {x : Char} (h : x ∈ writeAt c off t) : x ∈ c ∨ x ∈ t ∨ x = Char.ofNat 0 := by
  unfold writeAt at h
  split at h
  · exact .inl h
  · rcases List.mem_append.mp h with h | h
    · rcases List.mem_append.mp h with h | h
      · rcases List.mem_append.mp (List.mem_of_mem_take h) with h | h
        · exact .inl h
        · exact .inr (.inr (List.eq_of_mem_replicate h))
      · exact .inr (.inl h)
    · exact .inl (List.mem_of_mem_drop h)

/-- C78 is false in general: two sinks with the same prefix, id and directory built within the same second use the
same file; the second one empties it. Here the first sink has written a message (and flushed it), the second
is built, both are destroyed in the normal way, and no file contains the message, for every message. -/
theorem C78_negation (E : Env) (m : LogMessage) :
    ∃ (tr : List (Nat × SinksOp)) (st : SinksState) (path : Str),
      tr = [(0, .build "p".toList "d".toList "x".toList 1 "t".toList true true), (0, .use (.write m [])),
        (1, .build "p".toList "d".toList "x".toList 1 "t".toList true true), (1, .destroy []), (0, .destroy [])] ∧
      (∃ mid c, sinksRun E (sinksInit fun _ => none) (tr.take 2) = some mid ∧ mid.fs path = some c ∧
        (toString E m .default).1 <:+: c) ∧
      sinksRun E (sinksInit fun _ => none) tr = some st ∧
      ∀ q c, st.fs q = some c → ¬ (toString E m .default).1 <:+: c := by
  obtain ⟨P, hP⟩ : ∃ P, P = pathSanityFix "d".toList (createLogFileName "p".toList "x".toList "t".toList) := ⟨_, rfl⟩
  obtain ⟨H, hH⟩ : ∃ H, H = headerText [] defaultHeader := ⟨_, rfl⟩
  obtain ⟨s0, hs0⟩ : ∃ s0 : FileSink, s0 = FileSink.mk .default P "p".toList { path := P, off := 0, pend := [] } defaultHeader true [] 0 1 :=
    ⟨_, rfl⟩
  have hacc : acceptPrefix "p".toList = some "p".toList := by decide
  have hnew : ∀ fs : FS, FileSink.new fs "p".toList "d".toList "x".toList 1 "t".toList true true = .ok (s0, fs.set P []) := by
    intro fs
    rw [hs0, hP]
    simp only [FileSink.new, hacc, create_true]
  obtain ⟨D, hD⟩ : ∃ D, D = (toString E m .default).1 := ⟨_, rfl⟩
  obtain ⟨s1, hs1⟩ : ∃ s1 : FileSink, s1 = FileSink.mk .default P "p".toList
      { path := P, off := (H ++ D).length, pend := [] } defaultHeader false [] 1 1 := ⟨_, rfl⟩
  have hwr : ∀ fs : FS, fs P = some [] → sinkStep E s0 fs (.write m []) = .ok (s1, fs.set P (H ++ D), []) := by
    intro fs hf
    rw [hs0, hs1, hD, hH]
    simp only [sinkStep, FileSink.fileWrite, FileSink.addLogFileHeader, if_true, OStream.put, OStream.flush, OStream.spill, hf,
      List.nil_append, List.take_length, List.drop_length, Nat.zero_add, Nat.one_ne_zero, if_false, Nat.mod_self]
    rw [show (0 : Nat) = ([] : Str).length from rfl, writeAt_end]
    rfl
  obtain ⟨L, hL⟩ : ∃ L, L = "g3log g3FileSink shutdown at: ".toList ++ ([] : Str) ++ "\n".toList := ⟨_, rfl⟩
  have hout0 : s0.out = { path := P, off := 0, pend := [] } := by rw [hs0]
  have hout1 : s1.out.path = P ∧ s1.out.pend = [] ∧ s1.buffer = [] := by rw [hs1]; exact ⟨rfl, rfl, rfl⟩
  have hbuf0 : s0.buffer = [] := by rw [hs0]
  refine ⟨_, SinksState.mk (fun _ => none) (fun j => if j = 0 then [[]] else [])
    (s1.destroy (s0.destroy (((FS.set (fun _ => none) P []).set P (H ++ D)).set P []) []) []),
    P, rfl, ⟨?_, H ++ D, ?_, ?_, ?_⟩, ?_, ?_⟩
  · exact { sink := fun j => if j = 0 then some s1 else none, outs := fun j => if j = 0 then [[]] else [],
            fs := (FS.set (fun _ => none) P []).set P (H ++ D) }
  · simp only [List.take, sinksRun, sinksStep, sinksInit, hnew, SinksState.put, if_true, hwr _ (FS.set_same _ _ _)]
    simp only [Option.some.injEq, SinksState.mk.injEq, and_true]
    constructor
    all_goals (funext j; clear hnew hwr hs0 hs1 hH hP hL; by_cases h0 : j = 0 <;> by_cases h1 : j = 1 <;> simp_all [SinksState.put])
  · exact FS.set_same _ _ _
  · rw [← hD]; exact ⟨H, [], by simp⟩
  · simp only [sinksRun, sinksStep, sinksInit, hnew, SinksState.put, if_true, hwr _ (FS.set_same _ _ _), Nat.one_ne_zero, if_false,
      Nat.zero_ne_one]
    simp only [Option.some.injEq, SinksState.mk.injEq, and_true]
    constructor
    all_goals (funext j; clear hnew hwr hs0 hs1 hH hP hL; by_cases h0 : j = 0 <;> by_cases h1 : j = 1 <;> simp_all [SinksState.put])
  · intro q c hq hin
    simp only at hq
    rw [destroy_at, destroy_at, hout1.1, hout1.2.1, hout1.2.2, hout0, hbuf0, ← hL] at hq
    simp only [List.nil_append, FS.set] at hq
    by_cases hqp : q = P
    · simp only [hqp, if_true, Option.map_some, Option.some.injEq] at hq
      obtain ⟨x, hx, hx'⟩ := entry_mark E m
      have hxc : x ∈ c := hin.subset hx
      rw [← hq] at hxc
      have hcase : x ∈ L ∨ x = Char.ofNat 0 := by
        rcases mem_writeAt hxc with h | h | h
        · rcases mem_writeAt h with h | h | h
          · cases h
          · exact .inl h
          · exact .inr h
        · exact .inl h
        · exact .inr h
      rw [hL] at hcase
      rcases hx' with rfl | rfl <;> revert hcase <;> decide
    · simp [hqp] at hq

example : NoChange [.write (LogMessage.new false 0 1 [] 1 [] INFO) []] := by intro d i n nt ht o; simp

/-- The hypotheses of `C78_content_partial` are met by two sinks that are built in the same second with different ids and work at the
same time. -/
theorem sample_sinks (E : Env) (m : LogMessage) : ∃ st,
    sinksRun E (sinksInit fun _ => none) [(0, .build "p".toList "d".toList "x".toList 1 "t".toList true true),
      (1, .build "p".toList "d".toList "y".toList 2 "t".toList true true), (0, .use (.write m [])), (1, .use (.write m [])),
      (1, .destroy []), (0, .destroy [])] = some st := by
  have hacc : acceptPrefix "p".toList = some "p".toList := by decide
  simp only [sinksRun, sinksStep, sinksInit, SinksState.put, FileSink.new, hacc, create_true, if_true, Nat.one_ne_zero, Nat.zero_ne_one,
    if_false, sinkStep, FileSink.fileWrite, FileSink.addLogFileHeader, Nat.mod_self, Nat.zero_add]
  exact ⟨_, rfl⟩

end G3.Props
