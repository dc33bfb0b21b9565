import Verif.Spec.ThreadIds
import Mathlib.Data.List.Induction
import Mathlib.Tactic.Tauto
/-
C135: what the thread identification of an entry tells.
-/
namespace G3.Props
open G3 G3.Spec

theorem tidRun_append (s : TidState) (a b : List TidLabel) : tidRun s (a ++ b) = (tidRun s a).bind (tidRun · b) := by
  induction a generalizing s with
  | nil => rfl
  | cons l a ih =>
    simp only [List.cons_append, tidRun, Option.bind_assoc]
    congr 1; funext s'; exact ih s'

theorem tidRun_snoc (s : TidState) (ls : List TidLabel) (l : TidLabel) :
    tidRun s (ls ++ [l]) = (tidRun s ls).bind (tidStep · l) := by
  rw [tidRun_append]
  congr 1; funext s'
  simp only [tidRun]
  cases tidStep s' l <;> rfl

theorem runsAs_nil (t i : Nat) : ¬ RunsAs [] t i := by rintro ⟨a, b, h, -⟩; simp at h

theorem runsAs_snoc (ls : List TidLabel) (l : TidLabel) (t i : Nat) :
    RunsAs (ls ++ [l]) t i ↔ l = .start t i ∨ (RunsAs ls t i ∧ l ≠ .done t) := by
  constructor
  · rintro ⟨a, b, h, hb⟩
    rcases List.eq_nil_or_concat b with rfl | ⟨b', x, rfl⟩
    · exact .inl (by simpa using (List.append_inj' h rfl).2)
    · rw [List.concat_eq_append] at h hb
      rw [← List.cons_append, ← List.append_assoc] at h
      obtain ⟨h3, h4⟩ := List.append_inj' h rfl
      have h4 : l = x := by simpa using h4
      subst h4
      exact .inr ⟨⟨a, b', h3, fun hm => hb (by simp [hm])⟩, fun e => hb (by simp [e])⟩
  · rintro (rfl | ⟨⟨a, b, rfl, hb⟩, hl⟩)
    · exact ⟨ls, [], rfl, by simp⟩
    · refine ⟨a, b ++ [l], by simp, ?_⟩
      intro hm
      rcases List.mem_append.1 hm with hm | hm
      · exact hb hm
      · exact hl (List.mem_singleton.1 hm).symm

theorem stmtAt_snoc (ls : List TidLabel) (l : TidLabel) (n t i : Nat) (x : TidSrc) :
    StmtAt (ls ++ [l]) n t i x ↔ StmtAt ls n t i x ∨ (l = .log t x ∧ ls.countP isTidLog = n ∧ RunsAs ls t i) := by
  constructor
  · rintro ⟨a, b, h, h1⟩
    rcases List.eq_nil_or_concat b with rfl | ⟨b', y, rfl⟩
    · obtain ⟨rfl, h4⟩ := List.append_inj' h rfl
      exact .inr ⟨by simpa using h4, h1⟩
    · rw [List.concat_eq_append, ← List.cons_append, ← List.append_assoc] at h
      exact .inl ⟨a, b', (List.append_inj' h rfl).1, h1⟩
  · rintro (⟨a, b, rfl, h1⟩ | ⟨rfl, h1⟩)
    · exact ⟨a, b ++ [l], by simp, h1⟩
    · exact ⟨ls, [], rfl, h1⟩

/-- What the schedule says about the state. -/
structure TidInv (ls : List TidLabel) (s : TidState) : Prop where
  used : ∀ t, t ∈ s.used ↔ ∃ j, .start t j ∈ ls
  id : ∀ t i, s.id t = some i ↔ RunsAs ls t i
  uniq : ∀ t u i, s.id t = some i → s.id u = some i → t = u
  all : ∀ n t m, (s.out ++ s.queue)[n]? = some (t, m) ↔ ∃ i x, StmtAt ls n t i x ∧ m = x.message i
  len : (s.out ++ s.queue).length = ls.countP isTidLog
  out : s.out.length = ls.countP isTidWork

theorem tid_free {ls : List TidLabel} {s : TidState} (hi : TidInv ls s) (i : Nat) : s.free i = true ↔ ∀ u, ¬ RunsAs ls u i := by
  unfold TidState.free
  rw [List.all_eq_true]
  constructor
  · intro h u hr
    have hu : u ∈ s.used := by
      obtain ⟨a, b, rfl, -⟩ := hr
      exact (hi.used u).2 ⟨i, by simp⟩
    have h1 := h u hu
    rw [(hi.id u i).2 hr] at h1
    simp at h1
  · intro h u _
    have h1 : s.id u ≠ some i := fun e => h u ((hi.id u i).1 e)
    simpa using h1

theorem stmtAt_other {ls : List TidLabel} {l : TidLabel} (hl : isTidLog l = false) (n t i : Nat) (x : TidSrc) :
    StmtAt (ls ++ [l]) n t i x ↔ StmtAt ls n t i x := by
  rw [stmtAt_snoc]
  constructor
  · rintro (h | ⟨rfl, -⟩)
    · exact h
    · simp [isTidLog] at hl
  · exact .inl

theorem tidInv_step {ls : List TidLabel} {s s' : TidState} {l : TidLabel} (hi : TidInv ls s) (h : tidStep s l = some s') :
    TidInv (ls ++ [l]) s' := by
  cases l with
  | start t i =>
    simp only [tidStep] at h
    split at h
    · simp at h
    rename_i hc
    simp only [Option.some.injEq] at h
    subst h
    rw [Bool.or_eq_true, not_or] at hc
    have hu : t ∉ s.used := by simpa using hc.1
    have hf : ∀ u, ¬ RunsAs ls u i := (tid_free hi i).1 (by simpa using hc.2)
    have hnr : ∀ j, ¬ RunsAs ls t j := by
      rintro j ⟨a, b, rfl, -⟩
      exact hu ((hi.used t).2 ⟨j, by simp⟩)
    refine ⟨?_, ?_, ?_, ?_, ?_, ?_⟩
    · intro u
      simp only [List.mem_append, List.mem_singleton, hi.used, TidLabel.start.injEq]
      constructor
      · rintro (⟨j, hj⟩ | rfl)
        · exact ⟨j, .inl hj⟩
        · exact ⟨i, .inr ⟨rfl, rfl⟩⟩
      · rintro ⟨j, hj | ⟨rfl, -⟩⟩
        · exact .inl ⟨j, hj⟩
        · exact .inr rfl
    · intro u j
      rw [runsAs_snoc]
      by_cases hut : u = t
      · subst hut
        simp [hnr]
      · simp only [Function.update_of_ne hut, hi.id]
        simp [Ne.symm hut]
    · intro a b j h1 h2
      by_cases hat : a = t <;> by_cases hbt : b = t
      · rw [hat, hbt]
      · subst hat
        simp only [Function.update_self, Option.some.injEq] at h1
        subst h1
        simp only [Function.update_of_ne hbt] at h2
        exact absurd ((hi.id b i).1 h2) (hf b)
      · subst hbt
        simp only [Function.update_self, Option.some.injEq] at h2
        subst h2
        simp only [Function.update_of_ne hat] at h1
        exact absurd ((hi.id a i).1 h1) (hf a)
      · simp only [Function.update_of_ne hat] at h1
        simp only [Function.update_of_ne hbt] at h2
        exact hi.uniq a b j h1 h2
    · intro n u m
      simp only [stmtAt_other (l := .start t i) rfl]
      exact hi.all n u m
    · simp [hi.len, isTidLog]
    · simp [hi.out, isTidWork]
  | log t x =>
    simp only [tidStep] at h
    split at h
    · rename_i i hid
      simp only [Option.some.injEq] at h
      subst h
      refine ⟨?_, ?_, hi.uniq, ?_, ?_, ?_⟩
      · intro u; simp [hi.used]
      · intro u j; rw [runsAs_snoc, hi.id]; simp
      · intro n u m
        simp only
        rw [← List.append_assoc]
        rcases Nat.lt_trichotomy n (s.out ++ s.queue).length with hn | hn | hn
        · rw [List.getElem?_append_left hn, hi.all]
          simp only [stmtAt_snoc]
          constructor
          · rintro ⟨j, y, h1, h2⟩; exact ⟨j, y, .inl h1, h2⟩
          · rintro ⟨j, y, h1 | ⟨-, h1, -⟩, h2⟩
            · exact ⟨j, y, h1, h2⟩
            · rw [← h1, ← hi.len] at hn; omega
        · subst hn
          rw [List.getElem?_concat_length]
          simp only [Option.some.injEq, Prod.mk.injEq, stmtAt_snoc, TidLabel.log.injEq]
          constructor
          · rintro ⟨rfl, rfl⟩
            exact ⟨i, x, .inr ⟨⟨rfl, rfl⟩, hi.len.symm, (hi.id t i).1 hid⟩, rfl⟩
          · rintro ⟨j, y, h1 | ⟨⟨rfl, rfl⟩, -, h1⟩, h2⟩
            · have h3 := (hi.all _ u m).2 ⟨j, y, h1, h2⟩
              rw [List.getElem?_eq_none (Nat.le_refl _)] at h3
              simp at h3
            · have h3 := (hi.id t j).2 h1
              rw [hid] at h3
              cases h3
              exact ⟨rfl, h2.symm⟩
        · have hlen : (s.out ++ s.queue ++ [(t, x.message i)]).length ≤ n := by
            rw [List.length_append, List.length_singleton]; omega
          rw [List.getElem?_eq_none hlen]
          simp only [reduceCtorEq, false_iff, stmtAt_snoc]
          rintro ⟨j, y, h1 | ⟨-, h1, -⟩, h2⟩
          · have h3 := (hi.all _ u m).2 ⟨j, y, h1, h2⟩
            rw [List.getElem?_eq_none (Nat.le_of_lt hn)] at h3
            simp at h3
          · rw [← h1, ← hi.len] at hn; omega
      · simp only [← List.append_assoc]
        rw [List.length_append, hi.len]
        simp [isTidLog]
      · simp [hi.out, isTidWork]
    · simp at h
  | done t =>
    simp only [tidStep] at h
    split at h
    · rename_i i hid
      simp only [Option.some.injEq] at h
      subst h
      refine ⟨?_, ?_, ?_, ?_, ?_, ?_⟩
      · intro u; simp [hi.used]
      · intro u j
        rw [runsAs_snoc]
        by_cases hut : u = t
        · subst hut; simp
        · simp only [Function.update_of_ne hut, hi.id]
          simp [Ne.symm hut]
      · intro a b j h1 h2
        by_cases hat : a = t
        · subst hat; simp at h1
        · by_cases hbt : b = t
          · subst hbt; simp at h2
          · simp only [Function.update_of_ne hat] at h1
            simp only [Function.update_of_ne hbt] at h2
            exact hi.uniq a b j h1 h2
      · intro n u m
        simp only [stmtAt_other (l := .done t) rfl]
        exact hi.all n u m
      · simp [hi.len, isTidLog]
      · simp [hi.out, isTidWork]
    · simp at h
  | work =>
    simp only [tidStep] at h
    split at h
    · rename_i m q hq
      simp only [Option.some.injEq] at h
      subst h
      have he : s.out ++ [m] ++ q = s.out ++ s.queue := by rw [hq]; simp
      refine ⟨?_, ?_, hi.uniq, ?_, ?_, ?_⟩
      · intro u; simp [hi.used]
      · intro u j; rw [runsAs_snoc, hi.id]; simp
      · intro n u m'
        simp only [he, stmtAt_other (l := .work) rfl]
        exact hi.all n u m'
      · simp only [he, hi.len]; simp [isTidLog]
      · simp [hi.out, isTidWork]
    · simp at h

theorem tidInv_run (ls : List TidLabel) : ∀ {s : TidState}, tidRun .start ls = some s → TidInv ls s := by
  induction ls using List.reverseRecOn with
  | nil =>
    intro s h
    simp only [tidRun, Option.some.injEq] at h
    subst h
    refine ⟨by simp [TidState.start], ?_, by simp [TidState.start], ?_, rfl, rfl⟩
    · intro t i; simp [TidState.start, runsAs_nil]
    · intro n t m; simp [TidState.start, StmtAt]
  | append_singleton ls l ih =>
    intro s h
    rw [tidRun_snoc] at h
    obtain ⟨s1, h1, h2⟩ := Option.bind_eq_some_iff.1 h
    exact tidInv_step (ih h1) h2

/-- C135: for every schedule exactly what the entries are, those written and those that wait: the n-th one is the message of the n-th statement, with the
identification that its thread had; as many are written as the worker has made steps. -/
theorem C135_exact {ls : List TidLabel} {s : TidState} (h : tidRun .start ls = some s) :
    (∀ n t m, (s.out ++ s.queue)[n]? = some (t, m) ↔ ∃ i x, StmtAt ls n t i x ∧ m = x.message i) ∧
    s.out.length = ls.countP isTidWork := ⟨(tidInv_run ls h).all, (tidInv_run ls h).out⟩

/-- C135: the identification in an entry is the one that the thread of its statement had at the time of the statement, not that of the worker. -/
theorem C135_caller {ls : List TidLabel} {s : TidState} (h : tidRun .start ls = some s) {n t : Nat} {m : LogMessage}
    (hn : s.out[n]? = some (t, m)) : ∃ a b x, ls = a ++ .log t x :: b ∧ a.countP isTidLog = n ∧ RunsAs a t m.threadId := by
  have hlt : n < s.out.length := by
    by_cases hlt : n < s.out.length
    · exact hlt
    · rw [List.getElem?_eq_none (by omega)] at hn; simp at hn
  have h1 : (s.out ++ s.queue)[n]? = some (t, m) := by rw [List.getElem?_append_left hlt]; exact hn
  obtain ⟨i, x, ⟨a, b, h2, h3, h4⟩, rfl⟩ := ((tidInv_run ls h).all n t m).1 h1
  exact ⟨a, b, x, h2, h3, h4⟩

/-- C135: exactly which steps are possible. -/
theorem C135_can {ls : List TidLabel} {s : TidState} (h : tidRun .start ls = some s) (l : TidLabel) :
    (tidRun .start (ls ++ [l])).isSome ↔ tidPossible ls l := by
  have hi := tidInv_run ls h
  rw [tidRun_snoc, h, Option.bind_some]
  cases l with
  | start t i =>
    simp only [tidStep, tidPossible]
    rw [← tid_free hi i]
    have hu : (∀ j, .start t j ∉ ls) ↔ t ∉ s.used := by rw [hi.used]; simp
    rw [hu]
    cases hf : s.free i <;> by_cases ht : t ∈ s.used <;> simp [ht]
  | log t x =>
    simp only [tidStep, tidPossible, ← hi.id]
    cases s.id t <;> simp
  | done t =>
    simp only [tidStep, tidPossible, ← hi.id]
    cases s.id t <;> simp
  | work =>
    simp only [tidStep, tidPossible]
    rw [← hi.len, ← hi.out, List.length_append]
    cases s.queue <;> simp

/-- C135: if entries of different threads show the same identification, the thread of the first one had ended, and only then was that of the second one
started, both between the two statements. -/
theorem C135_apart {ls : List TidLabel} {s : TidState} (h : tidRun .start ls = some s) {n n' t t' : Nat} {m m' : LogMessage}
    (hn : s.out[n]? = some (t, m)) (hn' : s.out[n']? = some (t', m')) (hlt : n < n') (hid : m.threadId = m'.threadId) (hne : t ≠ t') :
    ∃ a b c d e x x', ls = a ++ .log t x :: b ++ .done t :: c ++ .start t' m.threadId :: d ++ .log t' x' :: e ∧
      a.countP isTidLog = n := by
  obtain ⟨a, b, x, h1, h2, h3⟩ := C135_caller h hn
  obtain ⟨a', b', x', h1', h2', h3'⟩ := C135_caller h hn'
  rw [← hid] at h3'
  -- the second statement comes later
  have hpre : ∃ c, a' = a ++ .log t x :: c := by
    rcases List.append_eq_append_iff.1 (h1.symm.trans h1') with ⟨z, hz1, hz2⟩ | ⟨z, hz1, hz2⟩
    · cases z with
      | nil =>
        exfalso
        rw [List.append_nil] at hz1
        rw [hz1, h2] at h2'
        omega
      | cons y z =>
        simp only [List.cons_append, List.cons.injEq] at hz2
        exact ⟨z, by rw [hz1, hz2.1]⟩
    · exfalso
      rw [hz1, List.countP_append] at h2
      omega
  obtain ⟨c, rfl⟩ := hpre
  obtain ⟨p, q, hp, hq⟩ := h3'
  -- a prefix of a run is a run
  have hrun : ∀ u v, ls = u ++ v → ∃ s1, tidRun .start u = some s1 := by
    intro u v e
    rw [e, tidRun_append] at h
    obtain ⟨s1, h5, -⟩ := Option.bind_eq_some_iff.1 h
    exact ⟨s1, h5⟩
  obtain ⟨sa, hsa⟩ := hrun a _ h1
  -- the second thread is started after the first statement
  have hlater : ∃ c1, p = a ++ .log t x :: c1 ∧ c = c1 ++ .start t' m.threadId :: q := by
    rcases List.append_eq_append_iff.1 hp with ⟨z, hz1, hz2⟩ | ⟨z, hz1, hz2⟩
    · cases z with
      | nil => simp at hz2
      | cons y z =>
        simp only [List.cons_append, List.cons.injEq] at hz2
        exact ⟨z, by rw [hz1, hz2.1], hz2.2⟩
    · exfalso
      cases z with
      | nil => simp at hz2
      | cons y z =>
        simp only [List.cons_append, List.cons.injEq] at hz2
        have h6 : RunsAs a t' m.threadId := by
          refine ⟨p, z, by rw [hz1, hz2.1], fun hm => hq ?_⟩
          rw [hz2.2]; simp [hm]
        exact hne ((tidInv_run a hsa).uniq t t' m.threadId (((tidInv_run a hsa).id t _).2 h3) (((tidInv_run a hsa).id t' _).2 h6))
  obtain ⟨c1, rfl, rfl⟩ := hlater
  -- at its start the identification was free
  have hls : ls = ((a ++ .log t x :: c1) ++ [.start t' m.threadId]) ++ (q ++ .log t' x' :: b') := by
    rw [h1']; simp
  obtain ⟨sp, hsp⟩ := hrun _ _ (hls.trans (List.append_assoc _ _ _))
  obtain ⟨sp', hsp'⟩ := hrun _ _ hls
  have hfree := ((C135_can hsp (.start t' m.threadId)).1 (by rw [hsp']; rfl)).2 t
  have hdone : TidLabel.done t ∈ c1 := by
    by_cases hd : TidLabel.done t ∈ c1
    · exact hd
    · exfalso
      obtain ⟨u, v, rfl, hv⟩ := h3
      refine hfree ⟨u, v ++ .log t x :: c1, by simp, ?_⟩
      intro hm
      rcases List.mem_append.1 hm with hm | hm
      · exact hv hm
      · rcases List.mem_cons.1 hm with hm | hm
        · simp at hm
        · exact hd hm
  obtain ⟨b1, c2, rfl⟩ := List.append_of_mem hdone
  exact ⟨a, b1, c2, q, b', x, x', by rw [h1']; simp, h2⟩

/-- C135 as long as no thread that has logged has ended: entries that show the same identification are of the same thread. Missing: identifications that the
system gives a second time, C135_negation. -/
theorem C135_statement_partial {ls : List TidLabel} {s : TidState} (h : tidRun .start ls = some s)
    (hd : ∀ t x a b, ls = a ++ .log t x :: b → .done t ∉ b) : IdTellsThread s := by
  intro p hp q hq hid
  by_cases hne : p.1 = q.1
  · exact hne
  exfalso
  obtain ⟨n, hn⟩ := List.mem_iff_getElem?.1 hp
  obtain ⟨n', hn'⟩ := List.mem_iff_getElem?.1 hq
  rcases Nat.lt_trichotomy n n' with hlt | rfl | hlt
  · obtain ⟨a, b, c, d, e, x, x', h1, -⟩ := C135_apart h hn hn' hlt hid hne
    exact hd p.1 x a (b ++ .done p.1 :: c ++ .start q.1 p.2.threadId :: d ++ .log q.1 x' :: e) (by rw [h1]; simp) (by simp)
  · rw [hn] at hn'
    cases hn'
    exact hne rfl
  · obtain ⟨a, b, c, d, e, x, x', h1, -⟩ := C135_apart h hn' hn hlt hid.symm (Ne.symm hne)
    exact hd q.1 x a (b ++ .done q.1 :: c ++ .start p.1 q.2.threadId :: d ++ .log p.1 x' :: e) (by rw [h1]; simp) (by simp)

/-! ### Where the property fails -/

/-- A statement. -/
def tidSample : TidSrc := { fullName := false, now := 0, file := ['a'], line := 1, function := ['f'], level := INFO }

/-- Thread 1 logs and ends, thread 2 gets its identification and logs. -/
def tidReuse : List TidLabel := [.start 1 7, .log 1 tidSample, .done 1, .start 2 7, .log 2 tidSample, .work, .work]

/-- C135 fails: the system gives the identification of a thread that has ended to a new one; the entries of both show the same. -/
theorem C135_negation : ∃ s, tidRun .start tidReuse = some s ∧ ¬ IdTellsThread s := by
  obtain ⟨s, h, h1⟩ := (Option.map_eq_some_iff (f := fun s : TidState => s.out.map fun p => (p.1, p.2.threadId)) (b := [(1, 7), (2, 7)])
    (x := tidRun .start tidReuse)).1 (by decide +kernel)
  refine ⟨s, h, fun hh => ?_⟩
  have h2 : (1, 7) ∈ s.out.map fun p => (p.1, p.2.threadId) := by rw [h1]; simp
  have h3 : (2, 7) ∈ s.out.map fun p => (p.1, p.2.threadId) := by rw [h1]; simp
  obtain ⟨p, hp, hp'⟩ := List.mem_map.1 h2
  obtain ⟨q, hq, hq'⟩ := List.mem_map.1 h3
  simp only [Prod.mk.injEq] at hp' hq'
  have h4 := hh p hp q hq (hp'.2.trans hq'.2.symm)
  omega

/-! ### Examples -/

/-- C135_exact, C135_caller, C135_can, C135_statement_partial: two threads at the same time. -/
example : (tidRun .start [.start 1 7, .start 2 8, .log 2 tidSample, .log 1 tidSample, .work, .work]).map
    (fun s => s.out.map fun p => (p.1, p.2.threadId)) = some [(2, 8), (1, 7)] := by decide +kernel

/-- C135_apart: `tidReuse` is such a schedule. -/
example : (tidRun .start tidReuse).map (fun s => s.out.map fun p => (p.1, p.2.threadId)) = some [(1, 7), (2, 7)] := by decide +kernel

/-- C135_can: an identification in use is not given again. -/
example : (tidRun .start [.start 1 7, .start 2 7]).isNone := by decide +kernel

end G3.Props
