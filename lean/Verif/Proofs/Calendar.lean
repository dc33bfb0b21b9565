import Verif.Spec.Calendar
import Verif.Spec.Time
import Mathlib.Tactic.IntervalCases
import Mathlib.Tactic.Ring
import Mathlib.Tactic.ByContra
/- The calendar of Spec/Calendar: fields in range, order, and the formula of POSIX. -/
namespace G3.Proofs.Calendar
open G3 G3.Spec

/-- A date and time that exists. -/
structure Proper (t : TM) : Prop where
  y : 1970 ≤ t.year
  m1 : 1 ≤ t.mon
  m2 : t.mon ≤ 12
  d1 : 1 ≤ t.mday
  d2 : t.mday ≤ monthLength t.year t.mon
  h : t.hour ≤ 23
  mi : t.min ≤ 59
  s : t.sec ≤ 59

theorem monthLength_le (y m : Nat) : 28 ≤ monthLength y m ∧ monthLength y m ≤ 31 := by
  unfold monthLength
  split
  · split <;> omega
  · split <;> omega

theorem proper_next {t : TM} (p : Proper t) : Proper (nextSecond t) := by
  obtain ⟨p1, p2, p3, p4, p5, p6, p7, p8⟩ := p
  unfold nextSecond
  split
  · exact ⟨p1, p2, p3, p4, p5, p6, p7, by show t.sec + 1 ≤ 59; omega⟩
  · split
    · exact ⟨p1, p2, p3, p4, p5, p6, by show t.min + 1 ≤ 59; omega, by show 0 ≤ 59; omega⟩
    · split
      · exact ⟨p1, p2, p3, p4, p5, by show t.hour + 1 ≤ 23; omega, by show 0 ≤ 59; omega, by show 0 ≤ 59; omega⟩
      · unfold nextDay
        split
        · exact ⟨p1, p2, p3, by show 1 ≤ t.mday + 1; omega, by show t.mday + 1 ≤ _; assumption, Nat.zero_le _, Nat.zero_le _, Nat.zero_le _⟩
        · split
          · exact ⟨p1, by show 1 ≤ t.mon + 1; omega, by show t.mon + 1 ≤ 12; omega, Nat.le_refl _,
              by show 1 ≤ monthLength t.year (t.mon + 1); have := monthLength_le t.year (t.mon + 1); omega, Nat.zero_le _, Nat.zero_le _, Nat.zero_le _⟩
          · exact ⟨by show 1970 ≤ t.year + 1; omega, Nat.le_refl _, by show 1 ≤ 12; omega, Nat.le_refl _,
              by show 1 ≤ monthLength (t.year + 1) 1; have := monthLength_le (t.year + 1) 1; omega, Nat.zero_le _, Nat.zero_le _, Nat.zero_le _⟩

theorem proper_wall (n : Nat) : Proper (wallClock n) := by
  induction n with
  | zero => exact ⟨Nat.le_refl _, Nat.le_refl _, by show 1 ≤ 12; omega, Nat.le_refl _, by decide, Nat.zero_le _, Nat.zero_le _, Nat.zero_le _⟩
  | succ n ih => exact proper_next ih

/-- A number that orders the dates. -/
def key (t : TM) : Nat := ((((t.year * 13 + t.mon) * 32 + t.mday) * 24 + t.hour) * 60 + t.min) * 60 + t.sec

theorem key_next {t : TM} (p : Proper t) : key t < key (nextSecond t) := by
  obtain ⟨p1, p2, p3, p4, p5, p6, p7, p8⟩ := p
  have hl := monthLength_le t.year t.mon
  unfold nextSecond key
  split
  · show _ < ((((t.year * 13 + t.mon) * 32 + t.mday) * 24 + t.hour) * 60 + t.min) * 60 + (t.sec + 1)
    omega
  · split
    · show _ < ((((t.year * 13 + t.mon) * 32 + t.mday) * 24 + t.hour) * 60 + (t.min + 1)) * 60 + 0
      omega
    · split
      · show _ < ((((t.year * 13 + t.mon) * 32 + t.mday) * 24 + (t.hour + 1)) * 60 + 0) * 60 + 0
        omega
      · unfold nextDay
        split
        · show _ < ((((t.year * 13 + t.mon) * 32 + (t.mday + 1)) * 24 + 0) * 60 + 0) * 60 + 0
          omega
        · split
          · show _ < ((((t.year * 13 + (t.mon + 1)) * 32 + 1) * 24 + 0) * 60 + 0) * 60 + 0
            omega
          · show _ < (((((t.year + 1) * 13 + 1) * 32 + 1) * 24 + 0) * 60 + 0) * 60 + 0
            omega

theorem key_mono {m n : Nat} (h : m < n) : key (wallClock m) < key (wallClock n) := by
  induction n with
  | zero => omega
  | succ n ih =>
    have := key_next (proper_wall n)
    rcases Nat.lt_or_ge m n with h' | h'
    · exact Nat.lt_trans (ih h') this
    · rw [show m = n by omega]; exact this

theorem tmLt_key {a b : TM} (pa : Proper a) (pb : Proper b) (u v : Nat) : tmLt a u b v ↔ key a < key b ∨ (key a = key b ∧ u < v) := by
  obtain ⟨p1, p2, p3, p4, p5, p6, p7, p8⟩ := pa
  obtain ⟨q1, q2, q3, q4, q5, q6, q7, q8⟩ := pb
  have hl := monthLength_le a.year a.mon
  have hl' := monthLength_le b.year b.mon
  have a1 : a.mday ≤ 31 := by omega
  have b1 : b.mday ≤ 31 := by omega
  clear p5 q5 hl hl' p1 q1
  obtain ⟨y, m, d, h, i, s⟩ := a
  obtain ⟨y', m', d', h', i', s'⟩ := b
  unfold tmLt key
  simp only at *
  constructor
  · rintro (h1 | ⟨h1, h1 | ⟨h2, h1 | ⟨h3, h1 | ⟨h4, h1 | ⟨h5, h1 | ⟨h6, h1⟩⟩⟩⟩⟩⟩)
    all_goals omega
  · intro hk
    rcases Nat.lt_trichotomy y y' with h1 | h1 | h1
    · exact .inl h1
    · refine .inr ⟨h1, ?_⟩
      rcases Nat.lt_trichotomy m m' with h2 | h2 | h2
      · exact .inl h2
      · refine .inr ⟨h2, ?_⟩
        rcases Nat.lt_trichotomy d d' with h3 | h3 | h3
        · exact .inl h3
        · refine .inr ⟨h3, ?_⟩
          rcases Nat.lt_trichotomy h h' with h4 | h4 | h4
          · exact .inl h4
          · refine .inr ⟨h4, ?_⟩
            rcases Nat.lt_trichotomy i i' with h5 | h5 | h5
            · exact .inl h5
            · refine .inr ⟨h5, ?_⟩
              rcases Nat.lt_trichotomy s s' with h6 | h6 | h6
              · exact .inl h6
              · exact .inr ⟨h6, by omega⟩
              · omega
            · omega
          · omega
        · omega
      · omega
    · omega

/-- The order of what clocks show. -/
theorem tmLt_wall (m n u v : Nat) : tmLt (wallClock m) u (wallClock n) v ↔ m < n ∨ (m = n ∧ u < v) := by
  rw [tmLt_key (proper_wall m) (proper_wall n)]
  rcases Nat.lt_trichotomy m n with h | h | h
  · have := key_mono h
    constructor
    · intro _; exact .inl h
    · intro _; exact .inl this
  · subst h
    simp
  · have := key_mono h
    constructor
    · intro hk; omega
    · intro hk; omega

/-- Days since the beginning of 1970. -/
def dayNo (t : TM) : Int :=
  let before : Int := if t.mon = 1 then 0 else if t.mon = 2 then 31 else if t.mon = 3 then 59 else if t.mon = 4 then 90 else if t.mon = 5 then 120
    else if t.mon = 6 then 151 else if t.mon = 7 then 181 else if t.mon = 8 then 212 else if t.mon = 9 then 243 else if t.mon = 10 then 273
    else if t.mon = 11 then 304 else 334
  let tm_year : Int := (t.year : Int) - 1900
  before + (if leapYear t.year = true ∧ 2 < t.mon then 1 else 0) + t.mday - 1 + (tm_year - 70) * 365 + (tm_year - 69) / 4 - (tm_year - 1) / 100 +
    (tm_year + 299) / 400

theorem posix_day (t : TM) : posixSeconds t = t.sec + t.min * 60 + t.hour * 3600 + dayNo t * 86400 := by
  unfold posixSeconds dayNo
  ring

theorem day_congr {t u : TM} (h1 : t.year = u.year) (h2 : t.mon = u.mon) (h3 : t.mday = u.mday) : dayNo t = dayNo u := by
  unfold dayNo
  rw [h1, h2, h3]

theorem day_month (y m d : Nat) (hm1 : 1 ≤ m) (hm2 : m < 12) (hd : d = monthLength y m) (a b c a' b' c' : Nat) :
    dayNo ⟨y, m + 1, 1, a, b, c⟩ = dayNo ⟨y, m, d, a', b', c'⟩ + 1 := by
  subst hd
  unfold dayNo monthLength
  generalize ((y : Int) - 1900 - 70) * 365 = e1
  generalize ((y : Int) - 1900 - 69) / 4 = e2
  generalize ((y : Int) - 1900 - 1) / 100 = e3
  generalize ((y : Int) - 1900 + 299) / 400 = e4
  cases leapYear y <;> interval_cases m <;> simp <;> omega

theorem day_year (y d : Nat) (hd : d = monthLength y 12) (hy : 1970 ≤ y) (a b c a' b' c' : Nat) :
    dayNo ⟨y + 1, 1, 1, a, b, c⟩ = dayNo ⟨y, 12, d, a', b', c'⟩ + 1 := by
  subst hd
  unfold dayNo
  have e : monthLength y 12 = 31 := by unfold monthLength; simp
  rw [e]
  cases hl : leapYear y
  · simp only [leapYear, Bool.and_eq_false_iff, Bool.or_eq_false_iff, decide_eq_false_iff_not] at hl
    simp
    omega
  · simp only [leapYear, Bool.and_eq_true, Bool.or_eq_true, decide_eq_true_eq] at hl
    simp
    omega

theorem posix_next {t : TM} (p : Proper t) : posixSeconds (nextSecond t) = posixSeconds t + 1 := by
  obtain ⟨p1, p2, p3, p4, p5, p6, p7, p8⟩ := p
  obtain ⟨y, m, d, h, i, s⟩ := t
  simp only at *
  rw [posix_day, posix_day]
  unfold nextSecond
  simp only
  split
  · rw [day_congr (t := ⟨y, m, d, h, i, s + 1⟩) (u := ⟨y, m, d, h, i, s⟩) rfl rfl rfl]; simp only; omega
  · split
    · rw [day_congr (t := ⟨y, m, d, h, i + 1, 0⟩) (u := ⟨y, m, d, h, i, s⟩) rfl rfl rfl]; simp only; omega
    · split
      · rw [day_congr (t := ⟨y, m, d, h + 1, 0, 0⟩) (u := ⟨y, m, d, h, i, s⟩) rfl rfl rfl]; simp only; omega
      · have e1 : s = 59 := by omega
        have e2 : i = 59 := by omega
        have e3 : h = 23 := by omega
        subst e1 e2 e3
        unfold nextDay
        simp only
        split
        · have : dayNo ⟨y, m, d + 1, 0, 0, 0⟩ = dayNo ⟨y, m, d, 23, 59, 59⟩ + 1 := by unfold dayNo; simp only; omega
          rw [this]; simp only; omega
        · split
          · rename_i hd hm
            rw [day_month y m d p2 hm (by omega) 0 0 0 23 59 59]; simp only; omega
          · rename_i hd hm
            obtain rfl : m = 12 := by omega
            rw [day_year y d (by omega) p1 0 0 0 23 59 59]; simp only; omega

theorem posix_wall (n : Nat) : posixSeconds (wallClock n) = n := by
  induction n with
  | zero => decide
  | succ n ih =>
    show posixSeconds (nextSecond (wallClock n)) = _
    rw [posix_next (proper_wall n), ih]
    rfl

theorem ite_nonneg {c : Prop} [Decidable c] {a b : Int} (ha : 0 ≤ a) (hb : 0 ≤ b) : 0 ≤ if c then a else b := by
  split
  · exact ha
  · exact hb

theorem day_late (y m d a b c : Nat) (hd : 1 ≤ d) (hy : 10000 ≤ y) : 2932897 ≤ dayNo ⟨y, m, d, a, b, c⟩ := by
  unfold dayNo
  simp only
  have hx : 0 ≤ (if leapYear y = true ∧ 2 < m then (1 : Int) else 0) := by split <;> omega
  generalize (if leapYear y = true ∧ 2 < m then (1 : Int) else 0) = x at hx ⊢
  have hb : (0 : Int) ≤ (if m = 1 then 0 else if m = 2 then 31 else if m = 3 then 59 else if m = 4 then 90 else if m = 5 then 120
      else if m = 6 then 151 else if m = 7 then 181 else if m = 8 then 212 else if m = 9 then 243 else if m = 10 then 273
      else if m = 11 then 304 else 334) := by
    repeat' apply ite_nonneg
    all_goals omega
  generalize (if m = 1 then (0 : Int) else _) = b at hb ⊢
  omega

theorem year_bound {n : Nat} (h : n < 253402300800) : (wallClock n).year ≤ 9999 := by
  have p := proper_wall n
  have e := posix_wall n
  generalize wallClock n = t at *
  rw [posix_day] at e
  by_contra hy
  obtain ⟨y, m, d, a, b, c⟩ := t
  have := day_late y m d a b c p.d1 (by simp only at hy; omega)
  simp only at e
  omega

end G3.Proofs.Calendar
