import Verif.Spec.TimeEscape
import Verif.Props.Time
/- C61 for every format: exactly which escaped percent signs are torn apart. -/
namespace G3.Props
open G3 G3.Spec

/-! ### Reading a format -/

theorem read_plain (d3 d6 d9 : Str) (c : Char) (r : Str) (h : c ≠ '%') :
    readFractions d3 d6 d9 (c :: r) = c :: readFractions d3 d6 d9 r := by
  rw [readFractions] <;> intros <;> simp_all

theorem read_conv (d3 d6 d9 : Str) (c : Char) (r : Str) (h : c ≠ '%') (hf : c ≠ 'f') :
    readFractions d3 d6 d9 ('%' :: c :: r) = '%' :: c :: readFractions d3 d6 d9 r := by
  rw [readFractions, read_plain d3 d6 d9 c r h]
  all_goals (intros; simp_all)

theorem read_pf (d3 d6 d9 : Str) (Y : Str) :
    readFractions d3 d6 d9 ('%' :: 'f' :: Y) =
      (match (afterPf Y).1 with
       | .millisecond => d3 | .microsecond => d6 | .nanosecond => d9 | .nanosecondDefault => d9) ++
      readFractions d3 d6 d9 (afterPf Y).2 := by
  cases Y with
  | nil => simp [readFractions, afterPf]
  | cons c r =>
    by_cases e3 : c = '3'
    · subst e3; simp [readFractions, afterPf]
    by_cases e6 : c = '6'
    · subst e6; simp [readFractions, afterPf]
    by_cases e9 : c = '9'
    · subst e9; simp [readFractions, afterPf]
    have ha : afterPf (c :: r) = (.nanosecondDefault, c :: r) := by
      unfold afterPf
      split
      · rename_i e; cases e; exact absurd rfl e3
      · rename_i e; cases e; exact absurd rfl e6
      · rename_i e; cases e; exact absurd rfl e9
      · rfl
    rw [ha]
    rw [readFractions]
    · rintro r' e; cases e; exact e3 rfl
    · rintro r' e; cases e; exact e6 rfl
    · rintro r' e; cases e; exact e9 rfl

theorem escaped_plain {c : Char} {r : Str} (h : c ≠ '%') : EscapedBeforeF (c :: r) ↔ EscapedBeforeF r := by
  constructor
  · intro e
    cases e with
    | plain _ _ _ e => exact e
    | _ => exact absurd rfl h
  · exact .plain c r h

theorem escaped_conv {c : Char} {r : Str} (h : c ≠ '%') : EscapedBeforeF ('%' :: c :: r) ↔ EscapedBeforeF r := by
  constructor
  · intro e
    cases e with
    | conversion _ _ _ e => exact e
    | plain _ _ hp _ => exact absurd rfl hp
    | _ => exact absurd rfl h
  · exact .conversion c r h

theorem escaped_pf (Y : Str) : EscapedBeforeF ('%' :: 'f' :: Y) ↔ EscapedBeforeF (afterPf Y).2 := by
  rw [escaped_conv (by decide)]
  unfold afterPf
  split
  · exact escaped_plain (by decide)
  · exact escaped_plain (by decide)
  · exact escaped_plain (by decide)
  · exact Iff.rfl

theorem escaped_esc (r : Str) : EscapedBeforeF ('%' :: '%' :: r) ↔ (∃ s, r = 'f' :: s) ∨ EscapedBeforeF r := by
  constructor
  · intro e
    cases e with
    | here s => exact .inl ⟨s, rfl⟩
    | escape _ e => exact .inr e
    | conversion _ _ hp _ => exact absurd rfl hp
    | plain _ _ hp _ => exact absurd rfl hp
  · rintro (⟨s, e⟩ | e)
    · rw [e]; exact .here s
    · exact .escape r e

theorem afterPf_length (Y : Str) : (afterPf Y).2.length ≤ Y.length := by
  unfold afterPf
  split <;> simp

theorem subst_eq_read (d3 d6 d9 : Str) (h3 : ∃ x l, d3 = x :: l ∧ x ≠ '%') (h6 : ∃ x l, d6 = x :: l ∧ x ≠ '%')
    (h9 : ∃ x l, d9 = x :: l ∧ x ≠ '%') : ∀ (k : Nat) (fmt : Str), fmt.length ≤ k →
    (substFractions d3 d6 d9 fmt = readFractions d3 d6 d9 fmt ↔ ¬ EscapedBeforeF fmt) := by
  intro k
  induction k with
  | zero =>
    intro fmt hk
    cases fmt with
    | nil => exact ⟨fun _ e => (by cases e), fun _ => rfl⟩
    | cons c r => simp at hk
  | succ k ih =>
    intro fmt hk
    cases fmt with
    | nil => exact ⟨fun _ e => (by cases e), fun _ => rfl⟩
    | cons c r =>
      simp only [List.length_cons, Nat.add_le_add_iff_right] at hk
      by_cases hc : c = '%'
      · subst hc
        cases r with
        | nil =>
          refine ⟨fun _ e => ?_, fun _ => by rw [subst_cons _ _ _ _ _ (by decide), readFractions] <;> simp [substFractions, readFractions]⟩
          cases e with
          | plain _ _ hp _ => exact hp rfl
        | cons x xs =>
          simp only [List.length_cons] at hk
          by_cases hp : x = '%'
          · subst hp
            rw [escaped_esc, subst_cons _ _ _ _ _ (by simp [List.isPrefixOf])]
            have hr : readFractions d3 d6 d9 ('%' :: '%' :: xs) = '%' :: '%' :: readFractions d3 d6 d9 xs := by rw [readFractions]
            rw [hr]
            by_cases hf : ∃ s, xs = 'f' :: s
            · obtain ⟨s, rfl⟩ := hf
              refine ⟨fun e => ?_, fun h => absurd (.inl ⟨s, rfl⟩) h⟩
              have e1 := (List.cons.inj e).2
              rw [subst_pf] at e1
              exfalso
              obtain ⟨x3, l3, rfl, n3⟩ := h3
              obtain ⟨x6, l6, rfl, n6⟩ := h6
              obtain ⟨x9, l9, rfl, n9⟩ := h9
              cases hp : (afterPf s).1 with
              | millisecond => rw [hp] at e1; exact n3 (List.cons.inj e1).1
              | microsecond => rw [hp] at e1; exact n6 (List.cons.inj e1).1
              | nanosecond => rw [hp] at e1; exact n9 (List.cons.inj e1).1
              | nanosecondDefault => rw [hp] at e1; exact n9 (List.cons.inj e1).1
            · have hs : substFractions d3 d6 d9 ('%' :: xs) = '%' :: substFractions d3 d6 d9 xs := by
                apply subst_cons
                cases xs with
                | nil => simp [List.isPrefixOf]
                | cons y ys =>
                  have : y ≠ 'f' := fun e => hf ⟨ys, by rw [e]⟩
                  simp [List.isPrefixOf, Ne.symm this]
              rw [hs]
              simp only [List.cons.injEq, true_and]
              rw [ih xs (by omega)]
              exact ⟨fun h c => c.elim hf h, fun h c => h (.inr c)⟩
          · by_cases hf : x = 'f'
            · subst hf
              rw [subst_pf, read_pf, escaped_pf]
              exact Iff.trans ⟨List.append_cancel_left, fun e => congrArg _ e⟩ (ih _ (by have := afterPf_length xs; omega))
            · rw [subst_cons _ _ _ _ _ (by simp [List.isPrefixOf, Ne.symm hf]), read_conv _ _ _ _ _ hp hf, escaped_conv hp]
              rw [subst_cons _ _ _ _ _ (by simp [List.isPrefixOf, Ne.symm hp])]
              simp only [List.cons.injEq, true_and]
              exact ih xs (by omega)
      · rw [subst_cons _ _ _ _ _ (by simp [List.isPrefixOf, Ne.symm hc]), read_plain _ _ _ _ _ hc, escaped_plain hc]
        simp only [List.cons.injEq, true_and]
        exact ih r hk

theorem fixedWidth_head {w n : Nat} {s : Str} (h : IsFixedWidth (w + 1) n s) : ∃ x l, s = x :: l ∧ x ≠ '%' := by
  obtain ⟨h1, h2, _⟩ := h
  cases s with
  | nil => simp at h1
  | cons x l =>
    refine ⟨x, l, rfl, fun e => ?_⟩
    have := h2 x (List.mem_cons_self ..)
    subst e
    exact absurd this (by unfold isDig; decide)

/-! ### C61 -/

/-- C61, what happens exactly, for every time at or after the epoch and every format: what is given to `strftime` is what the format
is meant to become (escapes kept, fractions filled in) if and only if no escaped percent sign stands directly before the letter f. -/
theorem C61_exact (n : Nat) (fmt : Str) : ∃ d3 d6 d9 out,
    IsFixedWidth 3 (n % 1000000000 / 1000000) d3 ∧ IsFixedWidth 6 (n % 1000000000 / 1000) d6 ∧ IsFixedWidth 9 (n % 1000000000) d9 ∧
    formattedFractions (n : Int) fmt = some (.ok out) ∧ (out = readFractions d3 d6 d9 fmt ↔ ¬ EscapedBeforeF fmt) := by
  obtain ⟨d3, d6, d9, f3, f6, f9, h⟩ := C32_substitution n fmt
  exact ⟨d3, d6, d9, _, f3, f6, f9, h,
    subst_eq_read d3 d6 d9 (fixedWidth_head f3) (fixedWidth_head f6) (fixedWidth_head f9) fmt.length fmt (Nat.le_refl _)⟩

/-- Three percent signs before f are an escape and a conversion and are read as such; a format can have both kinds; `%%f` is the kind that is torn apart. -/
example : ¬ EscapedBeforeF "%%%f3 %% f".toList ∧ EscapedBeforeF "%H%%%%f".toList ∧ EscapedBeforeF "%%f".toList := by
  have e1 : "%%%f3 %% f".toList = '%' :: '%' :: '%' :: 'f' :: '3' :: ' ' :: '%' :: '%' :: ' ' :: 'f' :: [] := by decide
  have e2 : "%H%%%%f".toList = '%' :: 'H' :: '%' :: '%' :: '%' :: '%' :: 'f' :: [] := by decide
  refine ⟨?_, ?_, .here []⟩
  · rw [e1, escaped_esc, escaped_pf]
    simp [afterPf, escaped_plain, escaped_esc]
    intro e; cases e
  · rw [e2]
    exact .conversion 'H' _ (by decide) (.escape _ (.here []))

end G3.Props
