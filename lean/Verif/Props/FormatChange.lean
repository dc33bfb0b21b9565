import Verif.Spec.FormatChange
import Mathlib.Data.List.Induction
/-
C136: the format of entries when it is changed while messages are logged.
-/
namespace G3.Props
open G3 G3.Spec

variable {M F : Type}

theorem fmtRun_snoc (s : FmtState M F) (ls : List (FmtLabel M F)) (l : FmtLabel M F) :
    fmtRun s (ls ++ [l]) = (fmtRun s ls).bind (fmtStep · l) := by
  induction ls generalizing s with
  | nil => simp only [List.nil_append, fmtRun, Option.bind_some]; cases fmtStep s l <;> rfl
  | cons a ls ih =>
    simp only [List.cons_append, fmtRun, Option.bind_assoc]
    congr 1; funext s'; exact ih s'

/-- The entries that the tasks in a queue will give, from format f. -/
def fmtAhead (f : F) : List (M ⊕ F) → List (M × F)
  | [] => []
  | .inl m :: q => (m, f) :: fmtAhead f q
  | .inr g :: q => fmtAhead g q

/-- The format after the tasks in a queue. -/
def fmtCallAfter (f : F) : List (M ⊕ F) → F
  | [] => f
  | .inl _ :: q => fmtCallAfter f q
  | .inr g :: q => fmtCallAfter g q

theorem fmtAhead_inl (q : List (M ⊕ F)) (m : M) : ∀ f : F, fmtAhead f (q ++ [.inl m]) = fmtAhead f q ++ [(m, fmtCallAfter f q)] := by
  induction q with
  | nil => intro f; rfl
  | cons a q ih => intro f; cases a <;> simp [fmtAhead, fmtCallAfter, ih]

theorem fmtAhead_inr (q : List (M ⊕ F)) (g : F) : ∀ f : F, fmtAhead f (q ++ [.inr g]) = fmtAhead f q := by
  induction q with
  | nil => intro f; rfl
  | cons a q ih => intro f; cases a <;> simp [fmtAhead, ih]

theorem fmtCallAfter_inl (q : List (M ⊕ F)) (m : M) : ∀ f : F, fmtCallAfter f (q ++ [.inl m]) = fmtCallAfter f q := by
  induction q with
  | nil => intro f; rfl
  | cons a q ih => intro f; cases a <;> simp [fmtCallAfter, ih]

theorem fmtCallAfter_inr (q : List (M ⊕ F)) (g : F) : ∀ f : F, fmtCallAfter f (q ++ [.inr g]) = g := by
  induction q with
  | nil => intro f; rfl
  | cons a q ih => intro f; cases a <;> simp [fmtCallAfter, ih]

theorem formatThen_snoc (f0 : F) (ls : List (FmtLabel M F)) (l : FmtLabel M F) (n : Nat) (f : F) :
    FormatThen f0 (ls ++ [l]) n f ↔ FormatThen f0 ls n f ∨ (l = .forward ∧ ls.countP isFmtForward = n ∧ f = lastFormat f0 ls) := by
  constructor
  · rintro ⟨a, b, h, h1⟩
    rcases List.eq_nil_or_concat b with rfl | ⟨b', y, rfl⟩
    · obtain ⟨rfl, h4⟩ := List.append_inj' h rfl
      exact .inr ⟨by simpa using h4, h1⟩
    · rw [List.concat_eq_append, ← List.cons_append, ← List.append_assoc] at h
      exact .inl ⟨a, b', (List.append_inj' h rfl).1, h1⟩
  · rintro (⟨a, b, rfl, h1⟩ | ⟨rfl, h1⟩)
    · exact ⟨a, b ++ [l], by simp, h1⟩
    · exact ⟨ls, [], rfl, h1⟩

theorem formatThen_lt {f0 : F} {ls : List (FmtLabel M F)} {n : Nat} {f : F} (h : FormatThen f0 ls n f) : n < ls.countP isFmtForward := by
  obtain ⟨a, b, rfl, rfl, -⟩ := h
  rw [List.countP_append, List.countP_cons]
  simp [isFmtForward]

/-- What the schedule says about the state. -/
structure FmtInv (f0 : F) (ls : List (FmtLabel M F)) (s : FmtState M F) : Prop where
  wq : s.wq = (ls.filterMap fmtLogged).drop (ls.countP isFmtForward)
  le : ls.countP isFmtForward ≤ (ls.filterMap fmtLogged).length
  last : fmtCallAfter s.fmt s.sq = lastFormat f0 ls
  len : (s.out ++ fmtAhead s.fmt s.sq).length = ls.countP isFmtForward
  all : ∀ n m f, (s.out ++ fmtAhead s.fmt s.sq)[n]? = some (m, f) ↔
    n < ls.countP isFmtForward ∧ (ls.filterMap fmtLogged)[n]? = some m ∧ FormatThen f0 ls n f
  tasks : s.sq.map Sum.isLeft = ((ls.filter isFmtTask).drop (ls.countP isFmtHandle)).map isFmtForward
  hle : ls.countP isFmtHandle ≤ (ls.filter isFmtTask).length
  out : s.out.length = fmtWritten ls

theorem fmtInv_step {f0 : F} {ls : List (FmtLabel M F)} {s s' : FmtState M F} {l : FmtLabel M F} (hi : FmtInv f0 ls s)
    (h : fmtStep s l = some s') : FmtInv f0 (ls ++ [l]) s' := by
  cases l with
  | log m =>
    simp only [fmtStep, Option.some.injEq] at h
    subst h
    have hc : (ls ++ [FmtLabel.log m]).countP isFmtForward = ls.countP isFmtForward := by simp [isFmtForward]
    have hl : (ls ++ [FmtLabel.log m]).filterMap fmtLogged = ls.filterMap fmtLogged ++ [m] := by simp [fmtLogged]
    have ht : (ls ++ [FmtLabel.log m]).filter isFmtTask = ls.filter isFmtTask := by simp [isFmtTask]
    have hh : (ls ++ [FmtLabel.log m]).countP isFmtHandle = ls.countP isFmtHandle := by simp [isFmtHandle]
    refine ⟨?_, ?_, ?_, ?_, ?_, ?_, ?_, ?_⟩
    · rw [hc, hl, List.drop_append_of_le_length hi.le, ← hi.wq]
    · rw [hc, hl, List.length_append]; have := hi.le; omega
    · rw [show lastFormat f0 (ls ++ [FmtLabel.log m]) = lastFormat f0 ls by simp [lastFormat, fmtCalled]]; exact hi.last
    · rw [hc]; exact hi.len
    · intro n m' f
      simp only [hi.all, hc, hl, formatThen_snoc]
      constructor
      · rintro ⟨h1, h2, h3⟩
        refine ⟨h1, ?_, .inl h3⟩
        rw [List.getElem?_append_left (Nat.lt_of_lt_of_le h1 hi.le)]; exact h2
      · rintro ⟨h1, h2, h3 | ⟨h3, -⟩⟩
        · rw [List.getElem?_append_left (Nat.lt_of_lt_of_le h1 hi.le)] at h2
          exact ⟨h1, h2, h3⟩
        · simp at h3
    · rw [ht, hh]; exact hi.tasks
    · rw [ht, hh]; exact hi.hle
    · unfold fmtWritten; rw [ht, hh]; exact hi.out
  | call g =>
    simp only [fmtStep, Option.some.injEq] at h
    subst h
    have hc : (ls ++ [FmtLabel.call g]).countP isFmtForward = ls.countP isFmtForward := by simp [isFmtForward]
    have hl : (ls ++ [FmtLabel.call g]).filterMap fmtLogged = ls.filterMap fmtLogged := by simp [fmtLogged]
    have ht : (ls ++ [FmtLabel.call g]).filter isFmtTask = ls.filter isFmtTask ++ [.call g] := by simp [isFmtTask]
    have hh : (ls ++ [FmtLabel.call g]).countP isFmtHandle = ls.countP isFmtHandle := by simp [isFmtHandle]
    refine ⟨?_, ?_, ?_, ?_, ?_, ?_, ?_, ?_⟩
    · rw [hc, hl]; exact hi.wq
    · rw [hc, hl]; exact hi.le
    · rw [fmtCallAfter_inr]; simp [lastFormat, fmtCalled]
    · rw [hc, fmtAhead_inr]; exact hi.len
    · intro n m' f
      simp only [fmtAhead_inr, hi.all, hc, hl, formatThen_snoc]
      simp
    · rw [ht, hh, List.drop_append_of_le_length hi.hle, List.map_append, List.map_append, hi.tasks]; rfl
    · rw [ht, hh, List.length_append]; have := hi.hle; omega
    · unfold fmtWritten; rw [ht, hh, List.take_append_of_le_length hi.hle]; exact hi.out
  | forward =>
    simp only [fmtStep] at h
    split at h
    · rename_i m q hw
      simp only [Option.some.injEq] at h
      subst h
      have hc : (ls ++ [FmtLabel.forward]).countP isFmtForward = ls.countP isFmtForward + 1 := by simp [isFmtForward]
      have hl : (ls ++ [(FmtLabel.forward : FmtLabel M F)]).filterMap fmtLogged = ls.filterMap fmtLogged := by simp [fmtLogged]
      have ht : (ls ++ [(FmtLabel.forward : FmtLabel M F)]).filter isFmtTask = ls.filter isFmtTask ++ [.forward] := by simp [isFmtTask]
      have hh : (ls ++ [(FmtLabel.forward : FmtLabel M F)]).countP isFmtHandle = ls.countP isFmtHandle := by simp [isFmtHandle]
      have hwq := hi.wq
      rw [hw] at hwq
      have hlt : ls.countP isFmtForward < (ls.filterMap fmtLogged).length := by
        have := congrArg List.length hwq
        rw [List.length_drop, List.length_cons] at this
        omega
      have hm : (ls.filterMap fmtLogged)[ls.countP isFmtForward]? = some m := by
        have := congrArg List.head? hwq
        rw [List.head?_drop] at this
        exact this.symm
      refine ⟨?_, ?_, ?_, ?_, ?_, ?_, ?_, ?_⟩
      · rw [hc, hl, ← List.tail_drop, ← hwq]; rfl
      · rw [hc, hl]; omega
      · rw [fmtCallAfter_inl, show lastFormat f0 (ls ++ [(FmtLabel.forward : FmtLabel M F)]) = lastFormat f0 ls by simp [lastFormat, fmtCalled]]
        exact hi.last
      · rw [hc, fmtAhead_inl, ← List.append_assoc, List.length_append, hi.len]; rfl
      · intro n m' f
        simp only [fmtAhead_inl, ← List.append_assoc, hc, hl, formatThen_snoc, hi.last]
        rcases Nat.lt_trichotomy n (ls.countP isFmtForward) with hn | hn | hn
        · rw [List.getElem?_append_left (by rw [hi.len]; exact hn), hi.all]
          constructor
          · rintro ⟨h1, h2, h3⟩; exact ⟨by omega, h2, .inl h3⟩
          · rintro ⟨-, h2, h3 | ⟨-, h3, -⟩⟩
            · exact ⟨hn, h2, h3⟩
            · omega
        · subst hn
          rw [show (s.out ++ fmtAhead s.fmt s.sq ++ [(m, lastFormat f0 ls)])[ls.countP isFmtForward]? = some (m, lastFormat f0 ls) by
            rw [← hi.len]; exact List.getElem?_concat_length, hm]
          simp only [Option.some.injEq, Prod.mk.injEq]
          constructor
          · rintro ⟨rfl, rfl⟩; exact ⟨by omega, rfl, .inr (by simp)⟩
          · rintro ⟨-, rfl, h3 | ⟨-, -, rfl⟩⟩
            · have := formatThen_lt h3; omega
            · exact ⟨rfl, rfl⟩
        · rw [List.getElem?_eq_none (by rw [List.length_append, hi.len, List.length_singleton]; omega)]
          simp only [reduceCtorEq, false_iff]
          rintro ⟨h1, -⟩
          omega
      · rw [ht, hh, List.drop_append_of_le_length hi.hle, List.map_append, List.map_append, hi.tasks]; rfl
      · rw [ht, hh, List.length_append]; have := hi.hle; omega
      · unfold fmtWritten; rw [ht, hh, List.take_append_of_le_length hi.hle]; exact hi.out
    · simp at h
  | handle =>
    have hc : (ls ++ [(FmtLabel.handle : FmtLabel M F)]).countP isFmtForward = ls.countP isFmtForward := by simp [isFmtForward]
    have hl : (ls ++ [(FmtLabel.handle : FmtLabel M F)]).filterMap fmtLogged = ls.filterMap fmtLogged := by simp [fmtLogged]
    have ht : (ls ++ [(FmtLabel.handle : FmtLabel M F)]).filter isFmtTask = ls.filter isFmtTask := by simp [isFmtTask]
    have hh : (ls ++ [(FmtLabel.handle : FmtLabel M F)]).countP isFmtHandle = ls.countP isFmtHandle + 1 := by simp [isFmtHandle]
    have hlast : lastFormat f0 (ls ++ [(FmtLabel.handle : FmtLabel M F)]) = lastFormat f0 ls := by simp [lastFormat, fmtCalled]
    have hall : ∀ n f, FormatThen f0 (ls ++ [(FmtLabel.handle : FmtLabel M F)]) n f ↔ FormatThen f0 ls n f := by
      intro n f; rw [formatThen_snoc]; simp
    have key : ∀ x q, s.sq = x :: q → ls.countP isFmtHandle < (ls.filter isFmtTask).length ∧
        q.map Sum.isLeft = ((ls.filter isFmtTask).drop (ls.countP isFmtHandle + 1)).map isFmtForward ∧
        fmtWritten (ls ++ [(FmtLabel.handle : FmtLabel M F)]) = fmtWritten ls + if x.isLeft then 1 else 0 := by
      intro x q hx
      have h1 := hi.tasks
      rw [hx, List.map_cons] at h1
      have hlt : ls.countP isFmtHandle < (ls.filter isFmtTask).length := by
        have := congrArg List.length h1
        rw [List.length_map, List.length_drop, List.length_cons] at this
        omega
      rw [List.drop_eq_getElem_cons hlt, List.map_cons, List.cons.injEq] at h1
      refine ⟨hlt, h1.2, ?_⟩
      unfold fmtWritten
      rw [ht, hh, List.take_succ_eq_append_getElem hlt, List.countP_append, h1.1, List.countP_singleton]
    simp only [fmtStep] at h
    split at h
    · rename_i m q hq
      simp only [Option.some.injEq] at h
      subst h
      obtain ⟨k1, k2, k3⟩ := key _ q hq
      have he : s.out ++ [(m, s.fmt)] ++ fmtAhead s.fmt q = s.out ++ fmtAhead s.fmt s.sq := by rw [hq]; simp [fmtAhead]
      have ha : fmtCallAfter s.fmt q = fmtCallAfter s.fmt s.sq := by rw [hq]; rfl
      refine ⟨?_, ?_, ?_, ?_, ?_, ?_, ?_, ?_⟩
      · rw [hc, hl]; exact hi.wq
      · rw [hc, hl]; exact hi.le
      · rw [hlast, ← hi.last]; exact ha
      · simp only [he, hc]; exact hi.len
      · intro n m' f; simp only [he, hc, hl, hall]; exact hi.all n m' f
      · rw [ht, hh]; exact k2
      · rw [ht, hh]; omega
      · rw [k3, List.length_append, hi.out]; rfl
    · rename_i g q hq
      simp only [Option.some.injEq] at h
      subst h
      obtain ⟨k1, k2, k3⟩ := key _ q hq
      have he : s.out ++ fmtAhead g q = s.out ++ fmtAhead s.fmt s.sq := by rw [hq]; rfl
      have ha : fmtCallAfter g q = fmtCallAfter s.fmt s.sq := by rw [hq]; rfl
      refine ⟨?_, ?_, ?_, ?_, ?_, ?_, ?_, ?_⟩
      · rw [hc, hl]; exact hi.wq
      · rw [hc, hl]; exact hi.le
      · rw [hlast, ← hi.last]; exact ha
      · simp only [he, hc]; exact hi.len
      · intro n m' f; simp only [he, hc, hl, hall]; exact hi.all n m' f
      · rw [ht, hh]; exact k2
      · rw [ht, hh]; omega
      · rw [k3, hi.out]; rfl
    · simp at h

theorem fmtInv_run {f0 : F} (ls : List (FmtLabel M F)) : ∀ {s : FmtState M F}, fmtRun (.start f0) ls = some s → FmtInv f0 ls s := by
  induction ls using List.reverseRecOn with
  | nil =>
    intro s h
    simp only [fmtRun, Option.some.injEq] at h
    subst h
    refine ⟨rfl, Nat.le_refl _, rfl, rfl, ?_, rfl, Nat.le_refl _, rfl⟩
    intro n m f
    simp [FmtState.start, fmtAhead]
  | append_singleton ls l ih =>
    intro s h
    rw [fmtRun_snoc] at h
    obtain ⟨s1, h1, h2⟩ := Option.bind_eq_some_iff.1 h
    exact fmtInv_step (ih h1) h2

/-- C136: for every schedule exactly which entries are written and with which format: the n-th entry is the n-th message, with the format that had been called
for last when the message reached the sink. -/
theorem C136_exact {f0 : F} {ls : List (FmtLabel M F)} {s : FmtState M F} (h : fmtRun (.start f0) ls = some s) :
    s.out.length = fmtWritten ls ∧
    ∀ n m f, s.out[n]? = some (m, f) ↔ n < fmtWritten ls ∧ (ls.filterMap fmtLogged)[n]? = some m ∧ FormatThen f0 ls n f := by
  have hi := fmtInv_run ls h
  refine ⟨hi.out, ?_⟩
  intro n m f
  have hlen := hi.len
  rw [List.length_append, hi.out] at hlen
  by_cases hn : n < s.out.length
  · rw [← List.getElem?_append_left (l₂ := fmtAhead s.fmt s.sq) hn, hi.all]
    rw [hi.out] at hn
    constructor
    · rintro ⟨-, h1⟩; exact ⟨hn, h1⟩
    · rintro ⟨-, h1⟩; exact ⟨by omega, h1⟩
  · rw [List.getElem?_eq_none (by omega)]
    rw [hi.out] at hn
    simp [hn]

/-- C136: exactly which steps are possible. -/
theorem C136_can {f0 : F} {ls : List (FmtLabel M F)} {s : FmtState M F} (h : fmtRun (.start f0) ls = some s) (l : FmtLabel M F) :
    (fmtRun (.start f0) (ls ++ [l])).isSome ↔ fmtPossible ls l := by
  have hi := fmtInv_run ls h
  rw [fmtRun_snoc, h, Option.bind_some]
  cases l with
  | log m => simp [fmtStep, fmtPossible]
  | call f => simp [fmtStep, fmtPossible]
  | forward =>
    have h1 := congrArg List.length hi.wq
    rw [List.length_drop] at h1
    simp only [fmtStep, fmtPossible]
    have := hi.le
    cases hw : s.wq with
    | nil => rw [hw] at h1; simp at h1 ⊢; omega
    | cons m q => rw [hw] at h1; simp at h1 ⊢; omega
  | handle =>
    have h1 := congrArg List.length hi.tasks
    rw [List.length_map, List.length_map, List.length_drop] at h1
    simp only [fmtStep, fmtPossible, List.countP_eq_length_filter (p := isFmtTask)]
    have := hi.hle
    cases hq : s.sq with
    | nil => rw [hq] at h1; simp at h1 ⊢; omega
    | cons x q => rw [hq] at h1; cases x <;> · simp at h1 ⊢; omega

theorem fmt_split (ls : List (FmtLabel M F)) : ∀ {n : Nat}, n < (ls.filterMap fmtLogged).length →
    ∃ a m c, ls = a ++ .log m :: c ∧ (a.filterMap fmtLogged).length = n := by
  induction ls using List.reverseRecOn with
  | nil => intro n h; simp at h
  | append_singleton ls l ih =>
    intro n h
    by_cases hn : n < (ls.filterMap fmtLogged).length
    · obtain ⟨a, m, c, rfl, h1⟩ := ih hn
      exact ⟨a, m, c ++ [l], by simp, h1⟩
    · rw [List.filterMap_append, List.length_append] at h
      cases l with
      | log m =>
        refine ⟨ls, m, [], rfl, ?_⟩
        simp [fmtLogged] at h
        omega
      | call f => exact absurd h hn
      | forward => exact absurd h hn
      | handle => exact absurd h hn

theorem fmtRun_prefix {s s' : FmtState M F} {a b : List (FmtLabel M F)} (h : fmtRun s (a ++ b) = some s') :
    ∃ s1, fmtRun s a = some s1 := by
  induction b using List.reverseRecOn generalizing s' with
  | nil => exact ⟨s', by rw [List.append_nil] at h; exact h⟩
  | append_singleton b l ih =>
    rw [← List.append_assoc, fmtRun_snoc] at h
    obtain ⟨s1, h1, -⟩ := Option.bind_eq_some_iff.1 h
    exact ih h1

/-- C136: an entry never has a format older than its statement: it has the one that had been called for last at its statement, or, if there were calls
between the statement and the moment when the worker handed the message on, the last one of these. -/
theorem C136_later {f0 : F} {ls : List (FmtLabel M F)} {s : FmtState M F} (h : fmtRun (.start f0) ls = some s) {n : Nat} {m : M} {f : F}
    (hn : s.out[n]? = some (m, f)) :
    ∃ a c b, ls = a ++ .log m :: c ++ .forward :: b ∧ (a.filterMap fmtLogged).length = n ∧
      (a ++ .log m :: c).countP isFmtForward = n ∧ f = lastFormat (lastFormat f0 a) c := by
  obtain ⟨-, h1, a', b, h2, h3, h4⟩ := ((C136_exact h).2 n m f).1 hn
  have h5 : ls = (a' ++ [.forward]) ++ b := by rw [h2]; simp
  obtain ⟨s1, hs1⟩ := fmtRun_prefix (h5 ▸ h)
  obtain ⟨s2, hs2⟩ := fmtRun_prefix hs1
  have h6 := (C136_can hs2 .forward).1 (by rw [hs1]; rfl)
  simp only [fmtPossible, h3] at h6
  obtain ⟨a, m', c, rfl, h7⟩ := fmt_split a' h6
  have hm : m' = m := by
    rw [h2, List.filterMap_append, List.filterMap_append, List.append_assoc, List.getElem?_append_right (by omega), h7] at h1
    simpa [fmtLogged] using h1
  subst hm
  refine ⟨a, c, b, h2, h7, h3, ?_⟩
  rw [h4]
  unfold lastFormat
  rw [List.filterMap_append, List.filterMap_cons]
  simp only [fmtCalled]
  cases hx : (c.filterMap fmtCalled).getLast? with
  | none =>
    rw [List.getLast?_eq_none_iff] at hx
    rw [hx, List.append_nil]; rfl
  | some g =>
    rw [List.getLast?_append, hx]; rfl

/-- C136 if no message waits for the worker when a call is made: every entry has the format that had been called for last at its statement. Missing:
messages that wait, C136_negation. -/
theorem C136_statement_partial {f0 : F} {ls : List (FmtLabel M F)} {s : FmtState M F} (h : fmtRun (.start f0) ls = some s)
    (hc : ∀ a f b, ls = a ++ .call f :: b → a.countP isFmtForward = (a.filterMap fmtLogged).length) : FormatInOrder f0 ls s := by
  intro n m f hn
  obtain ⟨a, c, b, h1, h2, h3, h4⟩ := C136_later h hn
  refine ⟨a, m, c ++ .forward :: b, by rw [h1]; simp, h2, ?_⟩
  have hx : c.filterMap fmtCalled = [] := by
    rw [List.filterMap_eq_nil_iff]
    intro l hl
    cases l with
    | call g =>
      exfalso
      obtain ⟨c1, c2, rfl⟩ := List.append_of_mem hl
      have h5 := hc (a ++ .log m :: c1) g (c2 ++ .forward :: b) (by rw [h1]; simp)
      have h6 : (a ++ .log m :: c1).countP isFmtForward ≤ n := by
        rw [← h3]
        simp only [List.countP_append, List.countP_cons]
        omega
      rw [h5, List.filterMap_append, List.length_append, h2] at h6
      simp [fmtLogged] at h6
      omega
    | log m => rfl
    | forward => rfl
    | handle => rfl
  rw [h4]
  conv_lhs => unfold lastFormat
  rw [hx]; rfl

/-! ### Where the property fails -/

/-- A message waits for the worker when the format is changed. -/
def fmtOvertake : List (FmtLabel Nat Nat) := [.log 1, .call 5, .forward, .handle, .handle]

/-- C136 fails: the call overtakes a message that waits for the worker, and the entry of the earlier statement has the new format. -/
theorem C136_negation : ∃ s, fmtRun (.start 0) fmtOvertake = some s ∧ s.out = [(1, 5)] ∧ ¬ FormatInOrder 0 fmtOvertake s := by
  refine ⟨{ wq := [], sq := [], fmt := 5, out := [(1, 5)] }, rfl, rfl, fun hh => ?_⟩
  obtain ⟨a, m, b, h1, h2, h3⟩ := hh 0 1 5 rfl
  cases a with
  | nil => simp [lastFormat] at h3
  | cons x a =>
    simp only [fmtOvertake, List.cons_append, List.cons.injEq] at h1
    rw [← h1.1] at h2
    simp [fmtLogged] at h2

/-! ### Examples -/

/-- C136_exact, C136_can, C136_later, C136_statement_partial: a schedule that meets the hypotheses. -/
example : (fmtRun (.start 0) ([.log 1, .forward, .call 5, .log 2, .forward, .handle, .handle, .handle] : List (FmtLabel Nat Nat))).map
    FmtState.out = some [(1, 0), (2, 5)] := by decide +kernel

/-- A schedule that meets the hypotheses of C136_statement_partial: no message waits at the call. -/
def fmtQuiet : List (FmtLabel Nat Nat) := [.log 1, .forward, .call 5, .log 2, .forward, .handle, .handle, .handle]

example : ∃ s, fmtRun (.start 0) fmtQuiet = some s ∧ s.out = [(1, 0), (2, 5)] ∧ FormatInOrder 0 fmtQuiet s := by
  refine ⟨{ wq := [], sq := [], fmt := 5, out := [(1, 0), (2, 5)] }, rfl, rfl, C136_statement_partial rfl ?_⟩
  intro a f b h
  rcases a with _ | ⟨x, _ | ⟨y, _ | ⟨z, _ | ⟨u, _ | ⟨v, _ | ⟨w, _ | ⟨t, _ | ⟨r, a⟩⟩⟩⟩⟩⟩⟩⟩ <;>
    simp_all [fmtQuiet]
  obtain ⟨rfl, rfl, -⟩ := h
  simp [isFmtForward, fmtLogged, List.countP_cons]

end G3.Props
