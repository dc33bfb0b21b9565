import Verif.Spec.Inherit
import Mathlib.Data.List.Induction
/-
C132: log files and the programs that a logging program starts.
-/
namespace G3.Props
open G3 G3.Spec

variable {ls : List InhLabel} {s : InhState}

theorem inhRun_snoc_some {s v : InhState} {l : InhLabel} (hr : inhRun s (ls ++ [l]) = some v) :
    ∃ u, inhRun s ls = some u ∧ inhStep u l = some v := by
  induction ls generalizing s with
  | nil =>
    refine ⟨s, rfl, ?_⟩
    obtain ⟨w, h1, h2⟩ := Option.bind_eq_some_iff.1 (show (inhStep s l).bind (inhRun · []) = some v from hr)
    rw [h1]; exact h2
  | cons a ls ih =>
    obtain ⟨w, h1, h2⟩ := Option.bind_eq_some_iff.1 (show (inhStep s a).bind (inhRun · (ls ++ [l])) = some v from hr)
    obtain ⟨u, h3, h4⟩ := ih h2
    exact ⟨u, show (inhStep s a).bind (inhRun · ls) = some u by rw [h1]; exact h3, h4⟩

theorem filesOpened_snoc (ls : List InhLabel) (l : InhLabel) :
    filesOpened (ls ++ [l]) = filesOpened ls + if (opensFor l).isSome then 1 else 0 := by
  simp [filesOpened, List.countP_append, List.countP_singleton]

theorem fileLife_snoc {l : InhLabel} {f k n : Nat} {r : List InhLabel} :
    FileLife (ls ++ [l]) f k n r ↔ (∃ r0, r = r0 ++ [l] ∧ FileLife ls f k n r0) ∨ (opensFor l = some (k, n) ∧ filesOpened ls = f ∧ r = []) := by
  constructor
  · rintro ⟨a, x, e, h1, h2⟩
    rcases List.eq_nil_or_concat r with rfl | ⟨r', l', rfl⟩
    · obtain ⟨rfl, hx⟩ := List.append_inj' e rfl
      obtain rfl : l = x := by simpa using hx
      exact .inr ⟨h1, h2, rfl⟩
    · rw [List.concat_eq_append, ← List.cons_append, ← List.append_assoc] at e
      obtain ⟨rfl, hx⟩ := List.append_inj' e rfl
      obtain rfl : l = l' := by simpa using hx
      exact .inl ⟨r', by simp, a, x, rfl, h1, h2⟩
  · rintro (⟨r0, rfl, a, x, rfl, h1, h2⟩ | ⟨h1, h2, rfl⟩)
    · exact ⟨a, x, by simp, h1, h2⟩
    · exact ⟨ls, l, rfl, h1, h2⟩

theorem fileLife_lt {f k n : Nat} {r : List InhLabel} (h : FileLife ls f k n r) : f < filesOpened ls := by
  obtain ⟨a, l, rfl, h1, rfl⟩ := h
  simp [filesOpened, List.countP_append, List.countP_cons, h1]

theorem fileLife_n {f k n : Nat} {r : List InhLabel} (h : FileLife ls f k n r) : n ≤ 1 := by
  obtain ⟨a, l, -, h1, -⟩ := h
  cases l <;> simp [opensFor] at h1 <;> omega

/-- A file has one life. -/
theorem fileLife_unique {f k n k' n' : Nat} {r r' : List InhLabel} (h : FileLife ls f k n r) (h' : FileLife ls f k' n' r') : k = k' ∧ n = n' ∧ r = r' := by
  induction ls using List.reverseRecOn generalizing r r' with
  | nil => obtain ⟨a, l, e, -⟩ := h; simp at e
  | append_singleton ls l ih =>
    rcases fileLife_snoc.1 h with ⟨r0, rfl, g⟩ | ⟨h1, h2, rfl⟩ <;> rcases fileLife_snoc.1 h' with ⟨r0', rfl, g'⟩ | ⟨h1', h2', rfl⟩
    · obtain ⟨e1, e2, e3⟩ := ih g g'; exact ⟨e1, e2, by rw [e3]⟩
    · have := fileLife_lt g; omega
    · have := fileLife_lt g'; omega
    · rw [h1] at h1'; simp at h1'; exact ⟨h1'.1, h1'.2, rfl⟩

/-- The state from the schedule. -/
structure InhInv (ls : List InhLabel) (s : InhState) : Prop where
  next : s.next = filesOpened ls
  cur : ∀ k f, s.cur k = some f ↔ ∃ n r, FileLife ls f k n r ∧ .destroy k ∉ r ∧ r.count (.move k) = n
  pend : ∀ k f, s.pend k = some f ↔ ∃ r, FileLife ls f k 1 r ∧ .destroy k ∉ r ∧ r.count (.move k) = 0
  fds : ∀ f, f ∈ s.fds ↔ FileInUse ls f
  kids : ∀ p f, (∃ q ∈ s.kids, q.1 = p ∧ f ∈ q.2) ↔ KeptBy ls f p
  runs : ∀ p, s.runs p = true ↔ ProgRuns ls p

theorem fileInUse_snoc {l : InhLabel} {f : Nat} :
    FileInUse (ls ++ [l]) f ↔ (∃ k n r, FileLife ls f k n r ∧ ¬ DoneWith n k (r ++ [l])) ∨ ((opensFor l).isSome ∧ filesOpened ls = f) := by
  constructor
  · rintro ⟨k, n, r, h, hd⟩
    rcases fileLife_snoc.1 h with ⟨r0, rfl, g⟩ | ⟨h1, h2, rfl⟩
    · exact .inl ⟨k, n, r0, g, hd⟩
    · exact .inr ⟨by simp [h1], h2⟩
  · rintro (⟨k, n, r, h, hd⟩ | ⟨h1, h2⟩)
    · exact ⟨k, n, _, fileLife_snoc.2 (.inl ⟨r, rfl, h⟩), hd⟩
    · obtain ⟨⟨k, n⟩, h1⟩ := Option.isSome_iff_exists.1 h1
      exact ⟨k, n, [], fileLife_snoc.2 (.inr ⟨h1, h2, rfl⟩), by simp [DoneWith]⟩

theorem keptBy_snoc {l : InhLabel} {f p : Nat} :
    KeptBy (ls ++ [l]) f p ↔ (KeptBy ls f p ∧ l ≠ .quit p) ∨ (l = .spawn p ∧ FileInUse ls f) := by
  constructor
  · rintro ⟨k, n, r, r', h, hd, hq⟩
    rcases fileLife_snoc.1 h with ⟨r0, e, g⟩ | ⟨-, -, e⟩
    · rcases List.eq_nil_or_concat r' with rfl | ⟨r'', l', rfl⟩
      · obtain ⟨rfl, hx⟩ := List.append_inj' e rfl
        exact .inr ⟨by simpa using hx.symm, k, n, r, g, hd⟩
      · rw [List.concat_eq_append, ← List.cons_append, ← List.append_assoc] at e
        obtain ⟨rfl, hx⟩ := List.append_inj' e rfl
        obtain rfl : l' = l := by simpa using hx
        rw [List.concat_eq_append, List.mem_append, not_or] at hq
        exact .inl ⟨⟨k, n, r, r'', g, hd, hq.1⟩, fun hl => hq.2 (by simp [hl])⟩
    · simp at e
  · rintro (⟨⟨k, n, r, r', h, hd, hq⟩, hl⟩ | ⟨rfl, k, n, r, h, hd⟩)
    · exact ⟨k, n, r, r' ++ [l], fileLife_snoc.2 (.inl ⟨_, by simp, h⟩), hd, by simp [hq, hl.symm]⟩
    · exact ⟨k, n, r, [], fileLife_snoc.2 (.inl ⟨r, rfl, h⟩), hd, by simp⟩

theorem progRuns_snoc {l : InhLabel} {p : Nat} : ProgRuns (ls ++ [l]) p ↔ (ProgRuns ls p ∧ l ≠ .quit p) ∨ l = .spawn p := by
  constructor
  · rintro ⟨a, b, e, hq⟩
    rcases List.eq_nil_or_concat b with rfl | ⟨b', l', rfl⟩
    · obtain ⟨rfl, hx⟩ := List.append_inj' e rfl
      exact .inr (by simpa using hx)
    · rw [List.concat_eq_append, ← List.cons_append, ← List.append_assoc] at e
      obtain ⟨rfl, hx⟩ := List.append_inj' e rfl
      obtain rfl : l = l' := by simpa using hx
      rw [List.concat_eq_append, List.mem_append, not_or] at hq
      exact .inl ⟨⟨a, b', rfl, hq.1⟩, fun hl => hq.2 (by simp [hl])⟩
  · rintro (⟨⟨a, b, rfl, hq⟩, hl⟩ | rfl)
    · exact ⟨a, b ++ [l], by simp, by simp [hq, hl.symm]⟩
    · exact ⟨ls, [], rfl, by simp⟩

/-- A step that is none of sink k leaves its counts alone. -/
theorem doneWith_snoc {l : InhLabel} {n k : Nat} {r : List InhLabel} (h1 : l ≠ .move k) (h2 : l ≠ .destroy k) : DoneWith n k (r ++ [l]) ↔ DoneWith n k r := by
  simp [DoneWith, List.count_append, h1, h2.symm]

theorem inh_cur_keep {l : InhLabel} {k f : Nat} (h1 : l ≠ .move k) (h2 : l ≠ .destroy k) (h3 : ∀ n, opensFor l = some (k, n) → n = 1) :
    (∃ n r, FileLife (ls ++ [l]) f k n r ∧ .destroy k ∉ r ∧ r.count (.move k) = n) ↔ ∃ n r, FileLife ls f k n r ∧ .destroy k ∉ r ∧ r.count (.move k) = n := by
  constructor
  · rintro ⟨n, r, h, hd, hc⟩
    rcases fileLife_snoc.1 h with ⟨r0, rfl, g⟩ | ⟨e, -, rfl⟩
    · exact ⟨n, r0, g, fun hx => hd (by simp [hx]), by simpa [List.count_append, h1] using hc⟩
    · have := h3 n e; simp at hc; omega
  · rintro ⟨n, r, h, hd, hc⟩
    exact ⟨n, r ++ [l], fileLife_snoc.2 (.inl ⟨r, rfl, h⟩), by simp [hd, h2.symm], by simp [List.count_append, h1, hc]⟩

theorem inh_pend_keep {l : InhLabel} {k f : Nat} (h1 : l ≠ .move k) (h2 : l ≠ .destroy k) (h3 : l ≠ .opens k) :
    (∃ r, FileLife (ls ++ [l]) f k 1 r ∧ .destroy k ∉ r ∧ r.count (.move k) = 0) ↔ ∃ r, FileLife ls f k 1 r ∧ .destroy k ∉ r ∧ r.count (.move k) = 0 := by
  constructor
  · rintro ⟨r, h, hd, hc⟩
    rcases fileLife_snoc.1 h with ⟨r0, rfl, g⟩ | ⟨e, -, rfl⟩
    · exact ⟨r0, g, fun hx => hd (by simp [hx]), by simpa [List.count_append, h1] using hc⟩
    · cases l with
      | opens j =>
        simp [opensFor] at e
        exact absurd (by rw [e]) h3
      | _ => simp [opensFor] at e
  · rintro ⟨r, h, hd, hc⟩
    exact ⟨r ++ [l], fileLife_snoc.2 (.inl ⟨r, rfl, h⟩), by simp [hd, h2.symm], by simp [List.count_append, h1, hc]⟩

theorem inhInv (hr : inhRun InhState.start ls = some s) : InhInv ls s := by
  induction ls using List.reverseRecOn generalizing s with
  | nil =>
    obtain rfl := Option.some.inj hr
    have nl : ∀ {f k n r}, ¬ FileLife [] f k n r := by rintro f k n r ⟨a, l, e, -⟩; simp at e
    refine ⟨rfl, fun k f => ?_, fun k f => ?_, fun f => ?_, fun p f => ?_, fun p => ?_⟩
    · simp [InhState.start, nl]
    · simp [InhState.start, nl]
    · simp [InhState.start, nl, FileInUse]
    · simp [InhState.start, nl, KeptBy]
    · simp [InhState.start, InhState.runs, ProgRuns]
  | append_singleton ls l ih =>
    obtain ⟨u, hu, hs⟩ := inhRun_snoc_some hr
    have I := ih hu
    have kidsKeep : (∀ p, l ≠ .spawn p) → (∀ p, l ≠ .quit p) → s.kids = u.kids →
        (∀ p f, (∃ q ∈ s.kids, q.1 = p ∧ f ∈ q.2) ↔ KeptBy (ls ++ [l]) f p) ∧ ∀ p, s.runs p = true ↔ ProgRuns (ls ++ [l]) p := by
      intro h1 h2 h3
      refine ⟨fun p f => ?_, fun p => ?_⟩
      · rw [h3, I.kids, keptBy_snoc]; simp [h1, h2]
      · rw [InhState.runs, h3, ← InhState.runs, I.runs, progRuns_snoc]; simp [h1, h2]
    cases l with
    | create k =>
      have hh : u.cur k = none ∧ s = { u with next := u.next + 1, cur := Function.update u.cur k (some u.next), fds := u.fds ++ [u.next] } := by
        unfold inhStep at hs; dsimp only at hs
        split at hs
        · rename_i hn; exact ⟨hn, (Option.some.inj hs).symm⟩
        · cases hs
      obtain ⟨hn, rfl⟩ := hh
      obtain ⟨K1, K2⟩ := kidsKeep (by simp) (by simp) rfl
      refine ⟨?_, fun j f => ?_, fun j f => ?_, fun f => ?_, K1, K2⟩
      · rw [filesOpened_snoc]; simp [opensFor, I.next]
      · dsimp only
        by_cases hj : j = k
        · subst hj
          rw [Function.update_self]
          constructor
          · rintro e
            obtain rfl := Option.some.inj e
            exact ⟨0, [], fileLife_snoc.2 (.inr ⟨rfl, I.next.symm, rfl⟩), by simp, by simp⟩
          · rintro ⟨n, r, h, hd, hc⟩
            rcases fileLife_snoc.1 h with ⟨r0, rfl, g⟩ | ⟨-, h2, -⟩
            · have := (I.cur j f).2 ⟨n, r0, g, fun hx => hd (by simp [hx]), by simpa [List.count_append] using hc⟩
              rw [hn] at this; cases this
            · rw [I.next, h2]
        · rw [Function.update_of_ne hj, I.cur, inh_cur_keep (by simp) (by simp)]
          intro n e; simp [opensFor] at e; exact absurd e.1.symm hj
      · exact (I.pend j f).trans (inh_pend_keep (by simp) (by simp) (by simp)).symm
      · rw [fileInUse_snoc]
        simp only [List.mem_append, List.mem_singleton, I.fds, I.next]
        simp [doneWith_snoc, opensFor, FileInUse, eq_comm]
    | opens k =>
      have hh : u.pend k = none ∧ s = { u with next := u.next + 1, pend := Function.update u.pend k (some u.next), fds := u.fds ++ [u.next] } := by
        unfold inhStep at hs; dsimp only at hs
        split at hs
        · rename_i hn; exact ⟨hn, (Option.some.inj hs).symm⟩
        · cases hs
      obtain ⟨hn, rfl⟩ := hh
      obtain ⟨K1, K2⟩ := kidsKeep (by simp) (by simp) rfl
      refine ⟨?_, fun j f => ?_, fun j f => ?_, fun f => ?_, K1, K2⟩
      · rw [filesOpened_snoc]; simp [opensFor, I.next]
      · refine (I.cur j f).trans (inh_cur_keep (by simp) (by simp) ?_).symm
        intro n e; simp [opensFor] at e; exact e.2.symm
      · dsimp only
        by_cases hj : j = k
        · subst hj
          rw [Function.update_self]
          constructor
          · rintro e
            obtain rfl := Option.some.inj e
            exact ⟨[], fileLife_snoc.2 (.inr ⟨rfl, I.next.symm, rfl⟩), by simp, by simp⟩
          · rintro ⟨r, h, hd, hc⟩
            rcases fileLife_snoc.1 h with ⟨r0, rfl, g⟩ | ⟨-, h2, -⟩
            · have := (I.pend j f).2 ⟨r0, g, fun hx => hd (by simp [hx]), by simpa [List.count_append] using hc⟩
              rw [hn] at this; cases this
            · rw [I.next, h2]
        · rw [Function.update_of_ne hj, I.pend, inh_pend_keep (by simp) (by simp)]
          intro e; injection e with e; exact hj e.symm
      · rw [fileInUse_snoc]
        simp only [List.mem_append, List.mem_singleton, I.fds, I.next]
        simp [doneWith_snoc, opensFor, FileInUse, eq_comm]
    | move k =>
      have hh : ∃ f g, u.cur k = some f ∧ u.pend k = some g ∧
          s = { u with cur := Function.update u.cur k (some g), pend := Function.update u.pend k none, fds := u.fds.filter (· ≠ f) } := by
        unfold inhStep at hs; dsimp only at hs
        split at hs
        · rename_i f g h1 h2; exact ⟨f, g, h1, h2, (Option.some.inj hs).symm⟩
        · cases hs
      obtain ⟨f0, g0, hf, hg, rfl⟩ := hh
      obtain ⟨K1, K2⟩ := kidsKeep (by simp) (by simp) rfl
      refine ⟨?_, fun j f => ?_, fun j f => ?_, fun f => ?_, K1, K2⟩
      · rw [filesOpened_snoc]; simp [opensFor, I.next]
      · dsimp only
        by_cases hj : j = k
        · subst hj
          rw [Function.update_self, ← hg, I.pend]
          constructor
          · rintro ⟨r, h, hd, hc⟩
            exact ⟨1, _, fileLife_snoc.2 (.inl ⟨r, rfl, h⟩), by simp [hd], by simp [List.count_append, hc]⟩
          · rintro ⟨n, r, h, hd, hc⟩
            rcases fileLife_snoc.1 h with ⟨r0, rfl, g⟩ | ⟨h1, -, -⟩
            · have := fileLife_n g
              simp [List.count_append] at hc
              obtain rfl : n = 1 := by omega
              exact ⟨r0, g, fun hx => hd (by simp [hx]), by omega⟩
            · simp [opensFor] at h1
        · rw [Function.update_of_ne hj, I.cur, inh_cur_keep _ (by simp) (by simp [opensFor])]
          intro e; injection e with e; exact hj e.symm
      · dsimp only
        by_cases hj : j = k
        · subst hj
          rw [Function.update_self]
          constructor
          · intro e; cases e
          · rintro ⟨r, h, hd, hc⟩
            rcases fileLife_snoc.1 h with ⟨r0, rfl, g⟩ | ⟨h1, -, -⟩
            · simp [List.count_append] at hc
            · simp [opensFor] at h1
        · rw [Function.update_of_ne hj, I.pend, inh_pend_keep _ (by simp) (by simp)]
          intro e; injection e with e; exact hj e.symm
      · rw [fileInUse_snoc]
        obtain ⟨n0, r0, l0, d0, c0⟩ := (I.cur k f0).1 hf
        simp only [List.mem_filter, I.fds, decide_eq_true_eq]
        constructor
        · rintro ⟨⟨k', n, r, h, hd⟩, hne⟩
          refine .inl ⟨k', n, r, h, ?_⟩
          by_cases hk : k' = k
          · subst hk
            have hd' := hd
            simp only [DoneWith, not_or, Nat.not_lt] at hd
            have hc : r.count (.move k') ≠ n := fun hc => by
              have := (I.cur k' f).2 ⟨n, r, h, hd.2, hc⟩
              rw [hf] at this; exact hne (Option.some.inj this).symm
            simp only [DoneWith, List.count_append, List.count_singleton_self, List.mem_append]
            have := hd.1
            rintro (hx | hx | hx)
            · omega
            · exact hd.2 hx
            · simp at hx
          · rw [doneWith_snoc (fun e => hk (InhLabel.move.inj e).symm) (by simp)]; exact hd
        · rintro (⟨k', n, r, h, hd⟩ | ⟨hx, -⟩)
          · refine ⟨⟨k', n, r, h, ?_⟩, ?_⟩
            · simp only [DoneWith, List.count_append, List.mem_append] at hd ⊢
              rintro (hx | hx)
              · exact hd (.inl (by omega))
              · exact hd (.inr (.inl hx))
            · rintro rfl
              obtain ⟨rfl, rfl, rfl⟩ := fileLife_unique h l0
              refine hd (.inl ?_)
              rw [List.count_append, c0]; simp
          · simp [opensFor] at hx
    | destroy k =>
      have hh : ∃ f, u.cur k = some f ∧ u.pend k = none ∧
          s = { u with cur := Function.update u.cur k none, fds := u.fds.filter (· ≠ f) } := by
        unfold inhStep at hs; dsimp only at hs
        split at hs
        · rename_i f h1 h2; exact ⟨f, h1, h2, (Option.some.inj hs).symm⟩
        · cases hs
      obtain ⟨f0, hf, hg, rfl⟩ := hh
      obtain ⟨K1, K2⟩ := kidsKeep (by simp) (by simp) rfl
      refine ⟨?_, fun j f => ?_, fun j f => ?_, fun f => ?_, K1, K2⟩
      · rw [filesOpened_snoc]; simp [opensFor, I.next]
      · dsimp only
        by_cases hj : j = k
        · subst hj
          rw [Function.update_self]
          constructor
          · intro e; cases e
          · rintro ⟨n, r, h, hd, hc⟩
            rcases fileLife_snoc.1 h with ⟨r0, rfl, g⟩ | ⟨h1, -, -⟩
            · simp at hd
            · simp [opensFor] at h1
        · rw [Function.update_of_ne hj, I.cur, inh_cur_keep (by simp) _ (by simp [opensFor])]
          intro e; injection e with e; exact hj e.symm
      · dsimp only
        by_cases hj : j = k
        · subst hj
          rw [hg]
          constructor
          · intro e; cases e
          · rintro ⟨r, h, hd, hc⟩
            rcases fileLife_snoc.1 h with ⟨r0, rfl, g⟩ | ⟨h1, -, -⟩
            · simp at hd
            · simp [opensFor] at h1
        · rw [I.pend, inh_pend_keep (by simp) _ (by simp)]
          intro e; injection e with e; exact hj e.symm
      · rw [fileInUse_snoc]
        obtain ⟨n0, r0, l0, d0, c0⟩ := (I.cur k f0).1 hf
        simp only [List.mem_filter, I.fds, decide_eq_true_eq]
        constructor
        · rintro ⟨⟨k', n, r, h, hd⟩, hne⟩
          refine .inl ⟨k', n, r, h, ?_⟩
          by_cases hk : k' = k
          · exfalso
            subst hk
            simp only [DoneWith, not_or, Nat.not_lt] at hd
            by_cases hc : r.count (.move k') = n
            · have := (I.cur k' f).2 ⟨n, r, h, hd.2, hc⟩
              rw [hf] at this; exact hne (Option.some.inj this).symm
            · have h1 := hd.1
              have h2 := fileLife_n h
              obtain rfl : n = 1 := by omega
              have := (I.pend k' f).2 ⟨r, h, hd.2, by omega⟩
              rw [hg] at this; cases this
          · rw [doneWith_snoc (by simp) (fun e => hk (InhLabel.destroy.inj e).symm)]; exact hd
        · rintro (⟨k', n, r, h, hd⟩ | ⟨hx, -⟩)
          · refine ⟨⟨k', n, r, h, ?_⟩, ?_⟩
            · simp only [DoneWith, List.count_append, List.mem_append] at hd ⊢
              rintro (hx | hx)
              · exact hd (.inl (by omega))
              · exact hd (.inr (.inl hx))
            · rintro rfl
              obtain ⟨rfl, rfl, rfl⟩ := fileLife_unique h l0
              exact hd (.inr (by simp))
          · simp [opensFor] at hx
    | spawn p =>
      have hh : u.runs p = false ∧ s = { u with kids := u.kids ++ [(p, u.fds)] } := by
        unfold inhStep at hs; dsimp only at hs
        split at hs
        · cases hs
        · rename_i hn; exact ⟨by simpa using hn, (Option.some.inj hs).symm⟩
      obtain ⟨hn, rfl⟩ := hh
      refine ⟨?_, fun j f => ?_, fun j f => ?_, fun f => ?_, fun q f => ?_, fun q => ?_⟩
      · rw [filesOpened_snoc]; simp [opensFor, I.next]
      · exact (I.cur j f).trans (inh_cur_keep (by simp) (by simp) (by simp [opensFor])).symm
      · exact (I.pend j f).trans (inh_pend_keep (by simp) (by simp) (by simp)).symm
      · rw [fileInUse_snoc]
        simp [doneWith_snoc, opensFor, I.fds, FileInUse]
      · rw [keptBy_snoc, ← I.kids, ← I.fds]
        constructor
        · rintro ⟨x, hx, e, hf⟩
          rcases List.mem_append.1 hx with hx | hx
          · exact .inl ⟨⟨x, hx, e, hf⟩, by simp⟩
          · obtain rfl := List.mem_singleton.1 hx
            exact .inr ⟨by rw [← e], hf⟩
        · rintro (⟨⟨x, hx, e, hf⟩, -⟩ | ⟨e, hf⟩)
          · exact ⟨x, List.mem_append_left _ hx, e, hf⟩
          · exact ⟨(p, u.fds), by simp, InhLabel.spawn.inj e, hf⟩
      · rw [progRuns_snoc, ← I.runs]
        simp [InhState.runs]
    | quit p =>
      have hh : s = { u with kids := u.kids.filter fun q => q.1 ≠ p } := by
        unfold inhStep at hs; dsimp only at hs
        split at hs
        · exact (Option.some.inj hs).symm
        · cases hs
      subst hh
      refine ⟨?_, fun j f => ?_, fun j f => ?_, fun f => ?_, fun q f => ?_, fun q => ?_⟩
      · rw [filesOpened_snoc]; simp [opensFor, I.next]
      · exact (I.cur j f).trans (inh_cur_keep (by simp) (by simp) (by simp [opensFor])).symm
      · exact (I.pend j f).trans (inh_pend_keep (by simp) (by simp) (by simp)).symm
      · rw [fileInUse_snoc]
        simp [doneWith_snoc, opensFor, I.fds, FileInUse]
      · rw [keptBy_snoc, ← I.kids]
        constructor
        · rintro ⟨x, hx, e, hf⟩
          obtain ⟨h1, h2⟩ := List.mem_filter.1 hx
          refine .inl ⟨⟨x, h1, e, hf⟩, fun hq => ?_⟩
          rw [InhLabel.quit.inj hq] at h2
          simp [e] at h2
        · rintro (⟨⟨x, hx, e, hf⟩, hq⟩ | ⟨e, -⟩)
          · exact ⟨x, List.mem_filter.2 ⟨hx, by simpa [e] using fun h : q = p => hq (by rw [h])⟩, e, hf⟩
          · cases e
      · rw [progRuns_snoc, ← I.runs]
        simp only [InhState.runs, List.any_eq_true, List.mem_filter, beq_iff_eq, decide_eq_true_eq]
        constructor
        · rintro ⟨x, ⟨h1, h2⟩, h3⟩
          exact .inl ⟨⟨x, h1, h3⟩, fun hq => h2 (h3.trans (InhLabel.quit.inj hq).symm)⟩
        · rintro (⟨⟨x, h1, h3⟩, h4⟩ | e)
          · exact ⟨x, ⟨h1, fun h2 => h4 (by rw [← h2, h3])⟩, h3⟩
          · cases e

theorem sinceThen_snoc {x y l : InhLabel} : SinceThen x y (ls ++ [l]) ↔ (SinceThen x y ls ∧ l ≠ y) ∨ l = x := by
  constructor
  · rintro ⟨a, b, e, hq⟩
    rcases List.eq_nil_or_concat b with rfl | ⟨b', l', rfl⟩
    · obtain ⟨rfl, hx⟩ := List.append_inj' e rfl
      exact .inr (by simpa using hx)
    · rw [List.concat_eq_append, ← List.cons_append, ← List.append_assoc] at e
      obtain ⟨rfl, hx⟩ := List.append_inj' e rfl
      obtain rfl : l = l' := by simpa using hx
      rw [List.concat_eq_append, List.mem_append, not_or] at hq
      exact .inl ⟨⟨a, b', rfl, hq.1⟩, fun hl => hq.2 (by simp [hl])⟩
  · rintro (⟨⟨a, b, rfl, hq⟩, hl⟩ | rfl)
    · exact ⟨a, b ++ [l], by simp, by simp [hq, hl.symm]⟩
    · exact ⟨ls, [], rfl, by simp⟩

/-- Which sinks there are and which of them are changing their files. -/
theorem inh_sinks (hr : inhRun InhState.start ls = some s) :
    (∀ k, (s.cur k).isSome ↔ SinceThen (.create k) (.destroy k) ls) ∧ (∀ k, (s.pend k).isSome ↔ SinceThen (.opens k) (.move k) ls) ∧
    ∀ k, (s.pend k).isSome → (s.cur k).isSome := by
  induction ls using List.reverseRecOn generalizing s with
  | nil =>
    obtain rfl := Option.some.inj hr
    exact ⟨fun k => by simp [InhState.start, SinceThen], fun k => by simp [InhState.start, SinceThen], fun k => by simp [InhState.start]⟩
  | append_singleton ls l ih =>
    obtain ⟨u, hu, hs⟩ := inhRun_snoc_some hr
    obtain ⟨I1, I2, I3⟩ := ih hu
    unfold inhStep at hs
    cases l with
    | create j =>
      dsimp only at hs
      split at hs
      · obtain rfl := Option.some.inj hs
        refine ⟨fun k => ?_, fun k => ?_, fun k => ?_⟩
        · rw [sinceThen_snoc, ← I1]
          by_cases hk : k = j
          · subst hk; simp
          · have hj : j ≠ k := fun e => hk e.symm
            simp [Function.update_of_ne hk, hj]
        · rw [sinceThen_snoc, ← I2]; simp
        · intro h
          by_cases hk : k = j
          · subst hk; simp
          · simpa [Function.update_of_ne hk] using I3 k h
      · cases hs
    | opens j =>
      dsimp only at hs
      split at hs
      · rename_i f h1 h2
        obtain rfl := Option.some.inj hs
        refine ⟨fun k => ?_, fun k => ?_, fun k => ?_⟩
        · rw [sinceThen_snoc, ← I1]; simp
        · rw [sinceThen_snoc, ← I2]
          by_cases hk : k = j
          · subst hk; simp
          · have hj : j ≠ k := fun e => hk e.symm
            simp [Function.update_of_ne hk, hj]
        · intro h
          by_cases hk : k = j
          · subst hk; simp [h1]
          · exact I3 k (by simpa [Function.update_of_ne hk] using h)
      · cases hs
    | move j =>
      dsimp only at hs
      split at hs
      · rename_i f g h1 h2
        obtain rfl := Option.some.inj hs
        refine ⟨fun k => ?_, fun k => ?_, fun k => ?_⟩
        · rw [sinceThen_snoc, ← I1]
          by_cases hk : k = j
          · subst hk; simp [h1]
          · simp [Function.update_of_ne hk]
        · rw [sinceThen_snoc, ← I2]
          by_cases hk : k = j
          · subst hk; simp
          · have hj : j ≠ k := fun e => hk e.symm
            simp [Function.update_of_ne hk, hj]
        · intro h
          by_cases hk : k = j
          · subst hk; simp
          · simpa [Function.update_of_ne hk] using I3 k (by simpa [Function.update_of_ne hk] using h)
      · cases hs
    | destroy j =>
      dsimp only at hs
      split at hs
      · rename_i f h1 h2
        obtain rfl := Option.some.inj hs
        refine ⟨fun k => ?_, fun k => ?_, fun k => ?_⟩
        · rw [sinceThen_snoc, ← I1]
          by_cases hk : k = j
          · subst hk; simp
          · have hj : j ≠ k := fun e => hk e.symm
            simp [Function.update_of_ne hk, hj]
        · rw [sinceThen_snoc, ← I2]; simp
        · intro h
          by_cases hk : k = j
          · subst hk
            have h : (u.pend k).isSome = true := h
            rw [h2] at h; cases h
          · simpa [Function.update_of_ne hk] using I3 k h
      · cases hs
    | spawn p =>
      dsimp only at hs
      split at hs
      · cases hs
      · obtain rfl := Option.some.inj hs
        exact ⟨fun k => by rw [sinceThen_snoc, ← I1]; simp, fun k => by rw [sinceThen_snoc, ← I2]; simp, I3⟩
    | quit p =>
      dsimp only at hs
      split at hs
      · obtain rfl := Option.some.inj hs
        exact ⟨fun k => by rw [sinceThen_snoc, ← I1]; simp, fun k => by rw [sinceThen_snoc, ← I2]; simp, I3⟩
      · cases hs

/-- Exactly which steps are possible. -/
theorem C132_can (hr : inhRun InhState.start ls = some s) (l : InhLabel) : (inhStep s l).isSome ↔ inhPossible ls l := by
  obtain ⟨I1, I2, I3⟩ := inh_sinks hr
  have R := (inhInv hr).runs
  unfold inhStep inhPossible
  cases l with
  | create k => dsimp only; rw [← I1]; cases s.cur k <;> simp
  | opens k => dsimp only; rw [← I1, ← I2]; cases s.cur k <;> cases s.pend k <;> simp
  | move k =>
    dsimp only; rw [← I2]
    have := I3 k
    cases h1 : s.cur k <;> cases h2 : s.pend k <;> simp
    rw [h1, h2] at this; simp at this
  | destroy k => dsimp only; rw [← I1, ← I2]; cases s.cur k <;> cases s.pend k <;> simp
  | spawn p => dsimp only; rw [← R]; cases s.runs p <;> simp
  | quit p => dsimp only; rw [← R]; cases s.runs p <;> simp

/-- Exactly who has a log file open: the process as long as the sink uses the file, and every program that was started meanwhile, as long as it runs. -/
theorem C132_exact (hr : inhRun InhState.start ls = some s) (f : Nat) :
    (f ∈ s.fds ↔ FileInUse ls f) ∧ (∀ p, (∃ q ∈ s.kids, q.1 = p ∧ f ∈ q.2) ↔ KeptBy ls f p) ∧
    (s.held f ↔ FileInUse ls f ∨ ∃ p, KeptBy ls f p) := by
  have I := inhInv hr
  refine ⟨I.fds f, fun p => I.kids p f, ?_⟩
  unfold InhState.held
  rw [I.fds]
  constructor
  · rintro (h | ⟨q, hq, hf⟩)
    · exact .inl h
    · exact .inr ⟨q.1, (I.kids q.1 f).1 ⟨q, hq, rfl, hf⟩⟩
  · rintro (h | ⟨p, h⟩)
    · exact .inl h
    · obtain ⟨q, hq, -, hf⟩ := (I.kids p f).2 h
      exact .inr ⟨q, hq, hf⟩

/-- The property, where it holds: no sink has left a file since the start of a program that still runs. -/
theorem C132_statement_partial (hr : inhRun InhState.start ls = some s)
    (hp : ∀ a p b, ls = a ++ .spawn p :: b → .quit p ∉ b → ∀ k, .move k ∉ b ∧ .destroy k ∉ b) : ReleasedWhenDone ls s := by
  intro f hf
  rcases (C132_exact hr f).2.2.1 hf with h | ⟨p, k, n, r, r', hl, hd, hq⟩
  · exact h
  · refine ⟨k, n, _, hl, ?_⟩
    obtain ⟨a, l, e, -⟩ := hl
    obtain ⟨h1, h2⟩ := hp (a ++ l :: r) p r' (by simp [e]) hq k
    simp only [DoneWith, not_or] at hd ⊢
    refine ⟨?_, by simp [hd.2, h2]⟩
    rw [List.count_append, List.count_cons, List.count_eq_zero.2 h1]
    simpa using hd.1

/-- A started program keeps the file open until it ends, whatever the sinks do. -/
theorem C132_kept {ls' : List InhLabel} (hr : inhRun InhState.start (ls ++ ls') = some s) {f p : Nat} (hk : KeptBy ls f p) (hq : .quit p ∉ ls') : s.held f := by
  refine (C132_exact hr f).2.2.2 (.inr ⟨p, ?_⟩)
  obtain ⟨k, n, r, r', ⟨a, l, rfl, h1, h2⟩, hd, hq'⟩ := hk
  exact ⟨k, n, r, r' ++ ls', ⟨a, l, by simp, h1, h2⟩, hd, by simp [hq', hq]⟩

/-- The property does not hold: a program is started, then the log file is changed; the old file stays open. -/
theorem C132_negation : ∃ ls s, inhRun InhState.start ls = some s ∧ s.held 0 ∧ ¬ ReleasedWhenDone ls s := by
  have hr : ∃ s, inhRun InhState.start [.create 0, .spawn 1, .opens 0, .move 0] = some s ∧ s.kids = [(1, [0])] := ⟨_, rfl, rfl⟩
  obtain ⟨s, hr, hk⟩ := hr
  have h0 : s.held 0 := .inr ⟨(1, [0]), by simp [hk], by simp⟩
  refine ⟨_, s, hr, h0, fun h => ?_⟩
  obtain ⟨k, n, r, hl, hd⟩ := h 0 h0
  have hl' : FileLife [.create 0, .spawn 1, .opens 0, .move 0] 0 0 0 [.spawn 1, .opens 0, .move 0] := ⟨[], .create 0, rfl, rfl, rfl⟩
  obtain ⟨rfl, rfl, rfl⟩ := fileLife_unique hl hl'
  exact hd (.inl (by decide))

/-- During a change even both files go to a program that is started. -/
theorem C132_both : ∃ s, inhRun InhState.start [.create 0, .opens 0, .spawn 1, .move 0, .destroy 0] = some s ∧ s.fds = [] ∧ s.kids = [(1, [0, 1])] :=
  ⟨_, rfl, rfl, rfl⟩

/-- The hypotheses of `C132_statement_partial` are met by a program that starts another one, which ends before the log file is changed. -/
example : let ls : List InhLabel := [.create 0, .spawn 1, .quit 1, .opens 0, .move 0]
    (∃ s, inhRun InhState.start ls = some s ∧ s.fds = [1] ∧ s.kids = []) ∧
    ∀ a p b, ls = a ++ .spawn p :: b → .quit p ∉ b → ∀ k, .move k ∉ b ∧ .destroy k ∉ b := by
  refine ⟨⟨_, rfl, rfl, rfl⟩, fun a p b e hq => ?_⟩
  rcases a with _ | ⟨x1, _ | ⟨x2, _ | ⟨x3, _ | ⟨x4, _ | ⟨x5, a⟩⟩⟩⟩⟩ <;> simp at e
  obtain ⟨-, rfl, rfl⟩ := e
  simp at hq

/-- Those of `C132_kept` too. -/
example : KeptBy [.create 0, .spawn 1] 0 1 ∧ .quit 1 ∉ [InhLabel.opens 0, .move 0, .destroy 0] ∧
    (inhRun InhState.start ([.create 0, .spawn 1] ++ [.opens 0, .move 0, .destroy 0])).isSome :=
  ⟨⟨0, 0, [], [], ⟨[], .create 0, rfl, rfl, rfl⟩, by simp [DoneWith], by simp⟩, by simp, rfl⟩

end G3.Props
