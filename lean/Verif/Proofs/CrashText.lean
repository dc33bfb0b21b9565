import Verif.Model.CrashText
import Verif.Proofs.LogMessage
/- Helper lemmas for the crash texts. -/
namespace G3
open Spec

theorem findLastOf_none {set s : Str} (h : ∀ x ∈ s, x ∉ set) : findLastOf set s = none := by
  cases hf : findLastOf set s with
  | none => rfl
  | some i =>
    obtain ⟨a, c, b, e, _, hc, _⟩ := (findLastOf_spec set s).1 i hf
    exact absurd hc (h c (by rw [e]; simp))

theorem findLastOf_append {set a : Str} {c : Char} {b : Str} (hc : c ∈ set) (hb : ∀ x ∈ b, x ∉ set) :
    findLastOf set (a ++ c :: b) = some a.length := by
  induction a with
  | nil => simp [findLastOf, findLastOf_none hb, hc]
  | cons d a ih => simp [findLastOf, ih]

theorem findLastOf_lt {set s : Str} {i : Nat} (h : findLastOf set s = some i) : i < s.length := by
  obtain ⟨a, c, b, e, hl, _, _⟩ := (findLastOf_spec set s).1 i h
  rw [e]; simp; omega

theorem findLastOf_isSome {set s : Str} {c : Char} (h : c ∈ s) (hc : c ∈ set) : ∃ i, findLastOf set s = some i := by
  cases hf : findLastOf set s with
  | none => exact absurd hc ((findLastOf_spec set s).2 hf c h)
  | some i => exact ⟨i, rfl⟩

theorem findFirstOf_none {set s : Str} : findFirstOf set s = none ↔ ∀ x ∈ s, x ∉ set := by
  induction s with
  | nil => simp [findFirstOf]
  | cons d s ih =>
    unfold findFirstOf
    by_cases hd : d ∈ set
    · simp [hd]
    · simp [hd, ih]

theorem findFirstOf_append {set a : Str} {c : Char} {b : Str} (hc : c ∈ set) (ha : ∀ x ∈ a, x ∉ set) :
    findFirstOf set (a ++ c :: b) = some a.length := by
  induction a with
  | nil => simp [findFirstOf, hc]
  | cons d a ih =>
    have hd : d ∉ set := ha d (by simp)
    simp [findFirstOf, hd, ih (fun x hx => ha x (List.mem_cons_of_mem _ hx))]

theorem findFirstOf_some {set s : Str} {i : Nat} (h : findFirstOf set s = some i) :
    ∃ a c b, s = a ++ c :: b ∧ a.length = i ∧ c ∈ set ∧ ∀ x ∈ a, x ∉ set := by
  induction s generalizing i with
  | nil => simp [findFirstOf] at h
  | cons d s ih =>
    unfold findFirstOf at h
    by_cases hd : d ∈ set
    · simp only [hd, if_true, Option.some.injEq] at h
      exact ⟨[], d, s, rfl, h, hd, by simp⟩
    · simp only [hd, if_false, Option.map_eq_some_iff] at h
      obtain ⟨j, hj, e⟩ := h
      obtain ⟨a, c, b, e1, e2, e3, e4⟩ := ih hj
      refine ⟨d :: a, c, b, by rw [e1]; rfl, by simp [e2, e], e3, ?_⟩
      intro x hx
      rcases List.mem_cons.mp hx with rfl | hx
      · exact hd
      · exact e4 x hx

/-- `" _"` occurs in `s`. -/
def HasSpaceUnderscore (s : Str) : Prop := ∃ a b, s = a ++ ' ' :: '_' :: b

theorem rfind_none {s : Str} : rfindSpaceUnderscore s = none ↔ ¬ HasSpaceUnderscore s := by
  induction s with
  | nil => simp [rfindSpaceUnderscore, HasSpaceUnderscore]
  | cons c s ih =>
    unfold rfindSpaceUnderscore
    cases hr : rfindSpaceUnderscore s with
    | some i =>
      simp only [reduceCtorEq, false_iff, Classical.not_not]
      have : HasSpaceUnderscore s := by
        by_contra hn
        rw [ih.mpr hn] at hr; cases hr
      obtain ⟨a, b, e⟩ := this
      exact ⟨c :: a, b, by rw [e]; rfl⟩
    | none =>
      have hn := ih.mp hr
      by_cases hc : c = ' ' ∧ s.head? = some '_'
      · simp only [hc, and_self, if_true, reduceCtorEq, false_iff, Classical.not_not]
        obtain ⟨h1, h2⟩ := hc
        cases s with
        | nil => simp at h2
        | cons d s =>
          simp only [List.head?_cons, Option.some.injEq] at h2
          exact ⟨[], s, by rw [h2]; rfl⟩
      · simp only [hc, if_false, true_iff]
        rintro ⟨a, b, e⟩
        cases a with
        | nil =>
          simp only [List.nil_append, List.cons.injEq] at e
          exact hc ⟨e.1, by rw [e.2]; rfl⟩
        | cons x a =>
          simp only [List.cons_append, List.cons.injEq] at e
          exact hn ⟨a, b, e.2⟩

theorem rfind_lt {s : Str} {i : Nat} (h : rfindSpaceUnderscore s = some i) : i + 1 < s.length := by
  induction s generalizing i with
  | nil => simp [rfindSpaceUnderscore] at h
  | cons c s ih =>
    unfold rfindSpaceUnderscore at h
    cases hr : rfindSpaceUnderscore s with
    | some j =>
      rw [hr] at h
      simp only [Option.some.injEq] at h
      have := ih hr
      simp; omega
    | none =>
      rw [hr] at h
      simp only at h
      by_cases hc : c = ' ' ∧ s.head? = some '_'
      · rw [if_pos hc] at h
        simp only [Option.some.injEq] at h
        cases s with
        | nil => simp at hc
        | cons d s => simp; omega
      · rw [if_neg hc] at h; cases h

theorem rfind_append {a b : Str} (h : ¬ HasSpaceUnderscore ('_' :: b)) :
    rfindSpaceUnderscore (a ++ ' ' :: '_' :: b) = some a.length := by
  induction a with
  | nil => simp [rfindSpaceUnderscore]
           have := rfind_none.mpr h
           unfold rfindSpaceUnderscore at this
           cases hb : rfindSpaceUnderscore b with
           | some i => rw [hb] at this; simp at this
           | none => simp
  | cons d a ih => simp [rfindSpaceUnderscore, ih]

end G3
