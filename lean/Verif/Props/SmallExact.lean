import Verif.Props.Time
import Verif.Props.Capture
import Verif.Props.FileName
/-
Properties that fail in some cases, each with the exact condition for that in one statement: C33 (fractions of a second), C35 (printf-style messages),
C37 (directory of the log file).
-/
namespace G3.Props
open G3 G3.Spec

/-! ### C33 -/

theorem neg_of_not_nonneg {ts : Int} (h : ¬ 0 ≤ ts) : ts = -(ts.natAbs : Int) := by omega

/-- C33, exactly when formatting a fraction succeeds: at and after the epoch, and before it if the (truncated) fraction needs fewer digits than there are. -/
theorem C33_iff (ts : Int) (f : Fractional) : (∃ s, fracToString ts f = .ok s) ↔
    0 ≤ ts ∨ ts.natAbs % 1000000000 / 10 ^ (9 - unitDigits f) < 10 ^ (unitDigits f - 1) := by
  by_cases h : 0 ≤ ts
  · have hx : ts = (ts.natAbs : Int) := by omega
    refine ⟨fun _ => Or.inl h, fun _ => ?_⟩
    rw [hx]
    exact C33_total_partial _ f
  · obtain ⟨h1, _, _⟩ := C33_before_epoch ts.natAbs f _ rfl
    rw [← neg_of_not_nonneg h] at h1
    constructor
    · rintro ⟨s, hs⟩
      right
      by_contra hc
      rw [h1.mpr (by omega)] at hs
      cases hs
    · rintro (h' | h')
      · exact absurd h' h
      · cases hf : fracToString ts f with
        | ok s => exact ⟨s, rfl⟩
        | error e =>
          cases e with
          | lengthError => exact absurd (h1.mp hf) (by omega)

/-- C33, exactly when the fraction is written as it should be, as a number of fixed width: at and after the epoch, and before it if it is zero. -/
theorem C33_right_iff (ts : Int) (f : Fractional) :
    (∃ s, fracToString ts f = .ok s ∧ IsFixedWidth (unitDigits f) (ts.natAbs % 1000000000 / 10 ^ (9 - unitDigits f)) s) ↔
    0 ≤ ts ∨ ts.natAbs % 1000000000 / 10 ^ (9 - unitDigits f) = 0 := by
  by_cases h : 0 ≤ ts
  · have hx : ts = (ts.natAbs : Int) := by omega
    refine ⟨fun _ => Or.inl h, fun _ => ?_⟩
    obtain ⟨s, a, b⟩ := C31_fraction_digits ts.natAbs f
    rw [← hx] at a
    exact ⟨s, a, b⟩
  · obtain ⟨h1, h2, h3⟩ := C33_before_epoch ts.natAbs f _ rfl
    rw [← neg_of_not_nonneg h] at h1 h2 h3
    constructor
    · rintro ⟨s, hs, hw⟩
      right
      by_contra hc
      rcases Nat.lt_or_ge (ts.natAbs % 1000000000 / 10 ^ (9 - unitDigits f)) (10 ^ (unitDigits f - 1)) with hl | hl
      · obtain ⟨z, hz, _⟩ := h2 (Nat.pos_of_ne_zero hc) hl
        rw [hz] at hs
        cases hs
        have := hw.2.1 '-' (by simp)
        revert this
        unfold isDig
        decide
      · rw [h1.mpr hl] at hs
        cases hs
    · rintro (h' | h')
      · exact absurd h' h
      · refine ⟨_, h3 h', by simp, ?_, ?_⟩
        · intro c hc
          rw [(List.mem_replicate.mp hc).2]
          unfold isDig
          decide
        · rw [h']
          generalize unitDigits f = u
          induction u with
          | zero => rfl
          | succ u ih => rw [List.replicate_succ', numVal_append_singleton, ih]; rfl

/-! ### C35 -/

/-- C35, exactly when a printf-style message is as it should be: always but for a text of exactly the size of the buffer. -/
theorem C35_iff (size : Nat) (hs : 1 ≤ size) (fmt t : Str) (hnul : Char.ofNat 0 ∉ t) :
    capturef size fmt (some t) = .ok (printfText size t) ↔ t.length ≠ size := by
  constructor
  · intro h he
    rw [C35_boundary size hs fmt t hnul he] at h
    simp only [Except.ok.injEq] at h
    have := congrArg List.length h
    unfold printfText at this
    rw [if_neg (by omega)] at this
    simp at this
    omega
  · exact fun h => (C35_capturef_partial size hs fmt t hnul h).1

/-- C35: the outcome of a printf-style statement for every size given to `setMaxMessageSize`, of which only the lowest 32 bits count: an exception if they are a negative `int`,
undefined behaviour if they are zero, otherwise the message with a buffer of that size. -/
theorem C35_sizes (n : Nat) (fmt t : Str) (hnul : Char.ofNat 0 ∉ t) :
    capturef (setMaxMessageSize n) fmt (some t) =
      (if 2147483648 ≤ n % 4294967296 then .error .lengthError
       else if n % 4294967296 = 0 then .error .undefined
       else if t.length = n % 4294967296 then .ok t.dropLast
       else .ok (printfText (n % 4294967296) t)) ∧
    capturef (setMaxMessageSize n) fmt none =
      (if 2147483648 ≤ n % 4294967296 then .error .lengthError else .ok (printfFailure fmt)) := by
  have hk : n % 4294967296 < 4294967296 := Nat.mod_lt _ (by omega)
  unfold setMaxMessageSize toInt32
  generalize n % 4294967296 = k at *
  by_cases h1 : 2147483648 ≤ k
  · rw [if_pos h1, if_pos h1, if_neg (by omega)]
    unfold capturef
    rw [if_pos (by omega), if_pos (by omega)]
    exact ⟨rfl, rfl⟩
  · rw [if_neg h1, if_neg h1, if_pos (by omega)]
    by_cases h2 : k = 0
    · subst h2
      refine ⟨rfl, ?_⟩
      rw [show capturef ((0 : Nat) : Int) fmt none = capturef ((1 : Nat) : Int) fmt none from rfl]
      exact (C35_capturef_partial 1 (le_refl 1) fmt [] (by simp) (by simp)).2
    · rw [if_neg h2]
      by_cases h3 : t.length = k
      · rw [if_pos h3]
        exact ⟨C35_boundary k (by omega) fmt t hnul h3, (C35_capturef_partial k (by omega) fmt [] (by simp) (by simp; omega)).2⟩
      · rw [if_neg h3]
        exact C35_capturef_partial k (by omega) fmt t hnul h3

example : setMaxMessageSize 4294967300 = 4 ∧ capturef (setMaxMessageSize 4294967300) [] (some "abcdef".toList) = .ok "abc[...truncated...]".toList := by decide

/-! ### C37 -/

/-- C37, exactly when the log file is placed in the directory asked for: when that is not just slashes, backslashes and blanks. (The empty directory stands for the working
directory: the file name alone is right.) -/
theorem C37_iff (dir name : Str) :
    (∃ d tail, unifySeparators dir = d ++ tail ∧ (∀ c ∈ tail, c = '/' ∨ c = ' ') ∧ (∀ c, d.getLast? = some c → ¬ (c = '/' ∨ c = ' ')) ∧
      pathSanityFix dir name = d ++ "/".toList ++ name) ↔ ∃ c ∈ dir, c ≠ '/' ∧ c ≠ '\\' ∧ c ≠ ' ' := by
  have hmem : (∃ c ∈ dir, c ≠ '/' ∧ c ≠ '\\' ∧ c ≠ ' ') ↔ ¬ ∀ c ∈ unifySeparators dir, c = '/' ∨ c = ' ' := by
    unfold unifySeparators
    simp only [List.mem_map, forall_exists_index, and_imp, forall_apply_eq_imp_iff₂]
    push Not
    constructor
    · rintro ⟨c, hc, h1, h2, h3⟩
      exact ⟨c, hc, by rw [if_neg h2]; exact ⟨h1, h3⟩⟩
    · rintro ⟨c, hc, h⟩
      by_cases h2 : c = '\\'
      · rw [if_pos h2] at h; exact absurd rfl h.1
      · rw [if_neg h2] at h; exact ⟨c, hc, h.1, h2, h.2⟩
  rw [hmem]
  constructor
  · rintro ⟨d, tail, _, _, _, h⟩ hb
    rw [C37_blank dir name hb] at h
    have := congrArg List.length h
    simp at this
    omega
  · intro hb
    rcases C37_cases dir with h | ⟨d, tail, h1, h2, h3, h4⟩
    · exact absurd h hb
    · exact ⟨d, tail, h1, h2, h4, C37_path_partial dir name d tail h1 h2 h3 h4⟩

example : ∃ c ∈ "C:\\logs".toList, c ≠ '/' ∧ c ≠ '\\' ∧ c ≠ ' ' := by decide
example : ¬ ∃ c ∈ "\\ /".toList, c ≠ '/' ∧ c ≠ '\\' ∧ c ≠ ' ' := by decide

end G3.Props
