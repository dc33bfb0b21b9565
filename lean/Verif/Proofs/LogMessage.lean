import Verif.Spec.LogMessage
import Verif.Proofs.Str
/- Helper lemmas for formatted entries. -/
namespace G3
open Spec

theorem cut_append (c : Char) (a b : Str) (h : c ∉ a) : cut c (a ++ c :: b) = (a, b) := by
  unfold cut
  induction a with
  | nil => simp
  | cons x a ih =>
    have hx : x ≠ c := fun e => h (by simp [e])
    have := ih (fun hm => h (List.mem_cons_of_mem _ hm))
    simp only [Prod.mk.injEq] at this
    simpa [hx] using this

theorem cutLast_append (c : Char) (a b : Str) (h : c ∉ b) : cutLast c (a ++ c :: b) = (a, b) := by
  unfold cutLast
  have e : (a ++ c :: b).reverse = b.reverse ++ c :: a.reverse := by simp
  rw [e, cut_append c _ _ (by simpa using h)]
  simp

theorem decInt_chars (i : Int) : ∀ c ∈ decInt i, c = '-' ∨ isDig c := by
  intro c hc
  unfold decInt at hc
  split at hc
  · rcases List.mem_cons.mp hc with e | e
    · exact Or.inl e
    · exact Or.inr (decNat_isDig _ c e)
  · exact Or.inr (decNat_isDig _ c hc)

theorem decInt_not_mem (i : Int) (c : Char) (h1 : c ≠ '-') (h2 : ¬ isDig c) : c ∉ decInt i := by
  intro hm
  rcases decInt_chars i c hm with e | e
  · exact h1 e
  · exact h2 e

theorem findLastOf_spec (set s : Str) :
    (∀ i, findLastOf set s = some i → ∃ a c b, s = a ++ c :: b ∧ a.length = i ∧ c ∈ set ∧ ∀ x ∈ b, x ∉ set) ∧
    (findLastOf set s = none → ∀ x ∈ s, x ∉ set) := by
  induction s with
  | nil => simp [findLastOf]
  | cons d s ih =>
    unfold findLastOf
    cases hf : findLastOf set s with
    | some j =>
      refine ⟨?_, by simp⟩
      intro i hi
      simp only [Option.some.injEq] at hi
      obtain ⟨a, c, b, e, hl, hc, hb⟩ := ih.1 j hf
      exact ⟨d :: a, c, b, by rw [e]; rfl, by simp [hl, hi], hc, hb⟩
    | none =>
      have hn := ih.2 hf
      by_cases hd : d ∈ set
      · simp only [hd, if_true]
        refine ⟨?_, by simp⟩
        intro i hi
        simp only [Option.some.injEq] at hi
        exact ⟨[], d, s, rfl, by simp [hi], hd, hn⟩
      · simp only [hd, if_false]
        refine ⟨by simp, ?_⟩
        intro _ x hx
        rcases List.mem_cons.mp hx with rfl | hx
        · exact hd
        · exact hn x hx

end G3
