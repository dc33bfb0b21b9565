import Verif.Model.Str
import Verif.Spec.Decimal
import Mathlib.Tactic.Ring
import Mathlib.Tactic.IntervalCases
import Mathlib.Data.List.Basic
import Mathlib.Data.List.TakeWhile
import Mathlib.Data.List.Induction
/- Helper lemmas about the string primitives. -/
namespace G3
open Spec

theorem digit_toNat (n : Nat) : (digit n).toNat = 48 + n % 10 := by
  unfold digit
  have h : n % 10 < 10 := Nat.mod_lt _ (by decide)
  generalize n % 10 = m at h
  interval_cases m <;> rfl

theorem digit_isDig (n : Nat) : isDig (digit n) := by
  unfold isDig; rw [digit_toNat]; omega

theorem digitVal_digit (n : Nat) : digitVal (digit n) = n % 10 := by
  unfold digitVal; rw [digit_toNat]; omega

theorem char_eq_of_toNat {a b : Char} (h : a.toNat = b.toNat) : a = b := by
  apply Char.ext; exact UInt32.toNat_inj.mp h

theorem digit_inj {m n : Nat} (hm : m < 10) (hn : n < 10) (h : digit m = digit n) : m = n := by
  have := congrArg Char.toNat h
  rw [digit_toNat, digit_toNat] at this; omega

theorem decNat_isDig (n : Nat) : ∀ c ∈ decNat n, isDig c := by
  induction n using Nat.strongRecOn with
  | ind n ih =>
    intro c hc
    rw [decNat] at hc
    split at hc
    · simp only [List.mem_singleton] at hc; subst hc; exact digit_isDig n
    · rw [List.mem_append] at hc
      rcases hc with hc | hc
      · exact ih (n / 10) (by omega) c hc
      · simp only [List.mem_singleton] at hc; subst hc; exact digit_isDig n

theorem numVal_append_singleton (s : Str) (c : Char) : numVal (s ++ [c]) = 10 * numVal s + digitVal c := by
  simp [numVal, List.foldl_append]

theorem numVal_decNat (n : Nat) : numVal (decNat n) = n := by
  induction n using Nat.strongRecOn with
  | ind n ih =>
    rw [decNat]
    split
    · simp [numVal, digitVal_digit]; omega
    · rw [numVal_append_singleton, ih (n / 10) (by omega), digitVal_digit]; omega

theorem decNat_ne_nil (n : Nat) : decNat n ≠ [] := by
  rw [decNat]; split <;> simp

theorem decNat_length_pos (n : Nat) : 0 < (decNat n).length :=
  List.length_pos_iff.mpr (decNat_ne_nil n)

theorem decNat_length_le (k : Nat) : ∀ n, (decNat n).length ≤ k + 1 ↔ n < 10 ^ (k + 1) := by
  induction k with
  | zero =>
    intro n
    rw [decNat]
    split
    · simp; omega
    · simp only [List.length_append, List.length_singleton]
      have := decNat_length_pos (n / 10)
      omega
  | succ k ih =>
    intro n
    rw [decNat]
    split
    · rename_i h
      simp only [List.length_singleton]
      constructor
      · intro _
        calc n < 10 := h
          _ = 10 ^ 1 := by norm_num
          _ ≤ 10 ^ (k + 1 + 1) := Nat.pow_le_pow_right (by decide) (by omega)
      · intro _; omega
    · simp only [List.length_append, List.length_singleton]
      have h1 := ih (n / 10)
      rw [Nat.pow_succ]
      constructor
      · intro h
        have := h1.mp (by omega)
        omega
      · intro h
        have := h1.mpr (by omega)
        omega

theorem decNat_inj {m n : Nat} (h : decNat m = decNat n) : m = n := by
  rw [← numVal_decNat m, ← numVal_decNat n, h]

theorem dash_not_dig : ¬ isDig '-' := by unfold isDig; decide

theorem decInt_inj {m n : Int} (h : decInt m = decInt n) : m = n := by
  unfold decInt at h
  have key : ∀ a b : Nat, '-' :: decNat a ≠ decNat b := by
    intro a b e
    exact dash_not_dig (decNat_isDig b '-' (by rw [← e]; simp))
  split at h <;> split at h
  · simp only [List.cons.injEq, true_and] at h
    have := decNat_inj h; omega
  · exact absurd h (key _ _)
  · exact absurd h.symm (key _ _)
  · have := decNat_inj h; omega

theorem numVal_cons (c : Char) (s : Str) : numVal (c :: s) = digitVal c * 10 ^ s.length + numVal s := by
  induction s using List.reverseRecOn with
  | nil => simp [numVal]
  | append_singleton s d ih =>
    rw [← List.cons_append, numVal_append_singleton, ih, numVal_append_singleton]
    simp [Nat.pow_succ]; ring

theorem numVal_replicate_zero (k : Nat) (s : Str) : numVal (List.replicate k '0' ++ s) = numVal s := by
  induction k with
  | zero => simp
  | succ k ih =>
    rw [List.replicate_succ, List.cons_append, numVal_cons, ih]
    have : digitVal '0' = 0 := by decide
    rw [this]; omega

/-! ### cstr -/

theorem cstr_idem (s : Str) : cstr (cstr s) = cstr s := by
  unfold cstr; simp [List.takeWhile_takeWhile]

theorem cstr_eq_self {s : Str} (h : Char.ofNat 0 ∉ s) : cstr s = s := by
  unfold cstr
  rw [List.takeWhile_eq_self_iff]
  intro c hc
  simp only [decide_not, Bool.not_eq_eq_eq_not, Bool.not_true, decide_eq_false_iff_not]
  rintro rfl; exact h hc

theorem cstr_nul_free (s : Str) : Char.ofNat 0 ∉ cstr s := by
  unfold cstr
  intro h
  have := List.mem_takeWhile_imp h
  simp at this

theorem cstr_append_nul (s t : Str) (h : Char.ofNat 0 ∉ s) : cstr (s ++ Char.ofNat 0 :: t) = s := by
  have h1 := cstr_eq_self h
  unfold cstr at *
  induction s with
  | nil => simp
  | cons a s ih =>
    rw [List.cons_append, List.takeWhile_cons]
    have : a ≠ Char.ofNat 0 := fun e => h (by simp [e])
    simp only [this, ne_eq, not_false_eq_true, decide_true, if_true, List.cons.injEq, true_and]
    apply ih (fun hh => h (List.mem_cons_of_mem _ hh))
    rw [List.takeWhile_cons] at h1
    simpa [this] using h1

end G3
