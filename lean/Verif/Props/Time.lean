import Verif.Proofs.Time
/-
Properties of time formatting: C31, C32, C33, C34, C58, C61.
-/
namespace G3.Props
open G3 G3.Spec

/-! ### C31 -/

/-- C31: for every time at or after the epoch, each unit's conversion yields exactly its number of
decimal digits, and their value is the fraction of the second truncated to that unit. -/
theorem C31_fraction_digits (n : Nat) (f : Fractional) : ∃ s,
    fracToString (n : Int) f = .ok s ∧
    IsFixedWidth (unitDigits f) (n % 1000000000 / 10 ^ (9 - unitDigits f)) s := by
  refine ⟨_, fracToString_nonneg n f, fracDigits_spec _ _ ?_⟩
  exact (decNat_len_le_iff _ _ (by have := unitDigits_pos f; omega)).mpr (frac_lt n f)

/-- C31: the shorter fractions are prefixes of the longer ones. -/
theorem C31_prefix (n : Nat) : ∃ a b c,
    fracToString (n : Int) .millisecond = .ok a ∧ fracToString (n : Int) .microsecond = .ok (a ++ b) ∧
    fracToString (n : Int) .nanosecond = .ok (a ++ b ++ c) ∧
    fracToString (n : Int) .nanosecondDefault = .ok (a ++ b ++ c) := by
  obtain ⟨s9, e9, f9⟩ := C31_fraction_digits n .nanosecond
  obtain ⟨s9', e9', f9'⟩ := C31_fraction_digits n .nanosecondDefault
  obtain ⟨s6, e6, f6⟩ := C31_fraction_digits n .microsecond
  obtain ⟨s3, e3, f3⟩ := C31_fraction_digits n .millisecond
  -- dropping the last three digits divides by 1000
  have key : ∀ (w m : Nat) (s : Str), IsFixedWidth (w + 3) m s → IsFixedWidth w (m / 1000) (s.take w) := by
    intro w m s hs
    obtain ⟨h1, h2, h3⟩ := hs
    have hd : (s.drop w).length = 3 := by rw [List.length_drop]; omega
    refine ⟨by rw [List.length_take]; omega, fun c hc => h2 c (List.mem_of_mem_take hc), ?_⟩
    have hsplit := List.take_append_drop w s
    obtain ⟨a, b, c, e⟩ : ∃ a b c, s.drop w = [a, b, c] := by
      match hh : s.drop w, hd with
      | [a, b, c], _ => exact ⟨a, b, c, rfl⟩
    rw [← hsplit, e] at h3
    have e' : s.take w ++ [a, b, c] = s.take w ++ [a] ++ [b] ++ [c] := by simp
    rw [e', numVal_append_singleton, numVal_append_singleton, numVal_append_singleton] at h3
    have hda : isDig a := h2 a (List.mem_of_mem_drop (i := w) (by rw [e]; simp))
    have hdb : isDig b := h2 b (List.mem_of_mem_drop (i := w) (by rw [e]; simp))
    have hdc : isDig c := h2 c (List.mem_of_mem_drop (i := w) (by rw [e]; simp))
    unfold isDig at hda hdb hdc
    unfold digitVal at h3
    omega
  have u : ∀ x y : Nat, n % 1000000000 / 10 ^ (9 - unitDigits .nanosecond) = n % 1000000000 := by
    intros; simp [unitDigits]
  have k6 := key 6 _ s9 f9
  have k3 := key 3 _ s6 f6
  have q6 : s9.take 6 = s6 := by
    apply fixedWidth_unique k6
    have : n % 1000000000 / 10 ^ (9 - unitDigits .nanosecond) / 1000 = n % 1000000000 / 10 ^ (9 - unitDigits .microsecond) := by
      simp [unitDigits]
    rw [this]; exact f6
  have q3 : s6.take 3 = s3 := by
    apply fixedWidth_unique k3
    have : n % 1000000000 / 10 ^ (9 - unitDigits .microsecond) / 1000 = n % 1000000000 / 10 ^ (9 - unitDigits .millisecond) := by
      simp [unitDigits, Nat.div_div_eq_div_mul]
    rw [this]; exact f3
  have q9 : s9 = s9' := fixedWidth_unique f9 f9'
  refine ⟨s3, s6.drop 3, s9.drop 6, e3, ?_, ?_, ?_⟩
  · rw [e6, ← q3, List.take_append_drop]
  · rw [e9, ← q3, List.take_append_drop, ← q6, List.take_append_drop]
  · rw [e9', ← q9, ← q3, List.take_append_drop, ← q6, List.take_append_drop]

example : fracToString 1500000123007 .microsecond = .ok "000123".toList := by
  have e : decInt 123 = "123".toList := by simp [decInt, decNat, digit]
  simp [fracToString, Fractional.cut, Fractional.zeroes, e, List.replicate]

/-! ### C32 -/

/-- C32: the substitution loop terminates for every format and every time (before 1970 too). -/
theorem C32_terminates (ts : Int) (fmt : Str) : ∃ r, formattedFractions ts fmt = some r := by
  have h := (fractionsLoop_spec ts (fmt.length + 1) [] fmt
    (by have := List.count_le_length (a := '%') (l := fmt); omega)).1
  simpa [formattedFractions] using h

/-- C32: for every time at or after the epoch and every format, each `%f`, `%f3`, `%f6`, `%f9` is
replaced by the digits of C31 and everything else is kept. -/
theorem C32_substitution (n : Nat) (fmt : Str) : ∃ d3 d6 d9,
    IsFixedWidth 3 (n % 1000000000 / 1000000) d3 ∧ IsFixedWidth 6 (n % 1000000000 / 1000) d6 ∧
    IsFixedWidth 9 (n % 1000000000) d9 ∧
    formattedFractions (n : Int) fmt = some (.ok (substFractions d3 d6 d9 fmt)) := by
  obtain ⟨s9, e9, f9⟩ := C31_fraction_digits n .nanosecond
  obtain ⟨s9', e9', f9'⟩ := C31_fraction_digits n .nanosecondDefault
  obtain ⟨s6, e6, f6⟩ := C31_fraction_digits n .microsecond
  obtain ⟨s3, e3, f3⟩ := C31_fraction_digits n .millisecond
  have q9 : s9 = s9' := fixedWidth_unique f9 f9'
  subst q9
  simp only [unitDigits, Nat.sub_self, Nat.pow_zero, Nat.div_one] at f9
  refine ⟨s3, s6, s9, f3, f6, f9, ?_⟩
  have h := (fractionsLoop_spec (n : Int) (fmt.length + 1) [] fmt
    (by have := List.count_le_length (a := '%') (l := fmt); omega)).2 s3 s6 s9 e3 e6 e9 e9'
  simpa [formattedFractions] using h

/-- C32: a format without `%f` is left exactly as it is, for every time. -/
theorem C32_no_fraction (ts : Int) (fmt : Str) (h : ∀ X Y, fmt ≠ X ++ '%' :: 'f' :: Y) :
    formattedFractions ts fmt = some (.ok fmt) := by
  unfold formattedFractions fractionsLoop
  have := find_append [] fmt
  simp only [List.length_nil, List.nil_append] at this
  rw [this]
  cases hf : findAux ['%', 'f'] 0 fmt with
  | none => rfl
  | some p =>
    obtain ⟨X, Y, e, _, _⟩ := findAux_some fmt _ _ hf
    exact absurd e (h X Y)

example : ∀ d3 d6 d9, substFractions d3 d6 d9 "a%f3b%fc%f6%f".toList =
    'a' :: d3 ++ 'b' :: d9 ++ 'c' :: d6 ++ d9 := by
  intro d3 d6 d9
  have e : "a%f3b%fc%f6%f".toList = ['a'] ++ '%' :: 'f' :: '3' :: 'b' :: '%' :: 'f' :: 'c' :: '%' :: 'f' :: '6' :: '%' :: 'f' :: [] := by decide
  rw [e]
  simp [substFractions]

/-! ### C33 -/

/-- C33 (partial: times at or after the epoch): formatting a fraction never fails. -/
theorem C33_total_partial (n : Nat) (f : Fractional) : ∃ s, fracToString (n : Int) f = .ok s := by
  obtain ⟨s, h, _⟩ := C31_fraction_digits n f
  exact ⟨s, h⟩

/-- C33 is false before 1970: one nanosecond past 1969-12-31 23:59:59 throws `length_error`. -/
theorem C33_negation : ∃ ts : Int, ∃ f, fracToString ts f = .error .lengthError := by
  refine ⟨-999999999, .nanosecond, ?_⟩
  have e : decInt (-999999999) = "-999999999".toList := by
    simp [decInt, decNat, digit]
  simp [fracToString, Fractional.cut, Fractional.zeroes, e]

/-- C33, exact behaviour before the epoch (`n` nanoseconds before it): with `q` the truncated fraction,
formatting throws iff `q` needs all the unit's digits; otherwise, if `q` is not zero, the result has the
right width but contains a minus sign instead of being a numeral. -/
theorem C33_before_epoch (n : Nat) (f : Fractional) (q : Nat)
    (hq : q = n % 1000000000 / 10 ^ (9 - unitDigits f)) :
    (fracToString (-(n : Int)) f = .error .lengthError ↔ 10 ^ (unitDigits f - 1) ≤ q) ∧
    (0 < q → q < 10 ^ (unitDigits f - 1) → ∃ z, fracToString (-(n : Int)) f =
      .ok (List.replicate z '0' ++ '-' :: decNat q) ∧ z + 1 + (decNat q).length = unitDigits f) ∧
    (q = 0 → fracToString (-(n : Int)) f = .ok (List.replicate (unitDigits f) '0')) := by
  have hu := unitDigits_pos f
  have hval := frac_value_neg n f
  rw [← hq] at hval
  have hlen := decNat_len_le_iff (unitDigits f - 1) q (by omega)
  have e0 : decNat 0 = ['0'] := by rw [decNat]; rfl
  unfold fracToString
  simp only [hval, zeroes_eq]
  by_cases h0 : q = 0
  · have hp : 0 < 10 ^ (unitDigits f - 1) := Nat.pow_pos (by decide)
    have e : decInt (-((q : Nat) : Int)) = ['0'] := by rw [h0]; exact (decInt_ofNat 0).trans e0
    rw [e]
    have h1 : List.length ['0'] ≤ unitDigits f := by simp; omega
    rw [if_pos h1]
    refine ⟨by simp; omega, by omega, ?_⟩
    intro _
    have : unitDigits f = (unitDigits f - List.length ['0']) + 1 := by simp; omega
    rw [this, List.replicate_succ']
    simp
  · rw [decInt_neg q (by omega)]
    simp only [List.length_cons]
    by_cases hl : (decNat q).length + 1 ≤ unitDigits f
    · rw [if_pos hl]
      have : q < 10 ^ (unitDigits f - 1) := hlen.mp (by omega)
      refine ⟨by simp; omega, ?_, by omega⟩
      intro _ _
      exact ⟨_, rfl, by omega⟩
    · rw [if_neg hl]
      have : ¬ q < 10 ^ (unitDigits f - 1) := fun h => hl (by have := hlen.mpr h; omega)
      refine ⟨by simp; omega, by omega, by omega⟩

/-! ### C34 -/

/-- Convert a list of message timestamps, in any order, starting from a fresh process. `readings i` are
the two clocks during the i-th conversion. -/
def convertAll (tick : Int) (readings : Nat → Int × Int) : Nat → Option ClockBase → List Int → List Int
  | _, _, [] => []
  | i, b, ts :: r =>
    let p := toSystemTime tick (readings i).1 (readings i).2 b ts
    p.1 :: convertAll tick readings (i + 1) p.2 r

/-- C34 (system clock with nanosecond ticks): whatever the clocks read, all conversions of a process
shift the timestamps by one and the same amount, so differences and order are preserved. -/
theorem C34_constant_shift (readings : Nat → Int × Int) (tss : List Int) :
    ∃ shift : Int, convertAll 1 readings 0 none tss = tss.map (· + shift) := by
  have gen : ∀ (tss : List Int) (i : Nat) (b : ClockBase),
      convertAll 1 readings i (some b) tss = tss.map (· + (b.sys - b.hrs)) := by
    intro tss
    induction tss with
    | nil => intro i b; rfl
    | cons ts r ih =>
      intro i b
      simp only [convertAll, toSystemTime, List.map_cons]
      rw [ih]
      simp only [Int.tdiv_one, Int.mul_one, List.cons.injEq, and_true]
      ring
  cases tss with
  | nil => exact ⟨0, rfl⟩
  | cons ts r =>
    refine ⟨(readings 0).2 - (readings 0).1, ?_⟩
    simp only [convertAll, toSystemTime, List.map_cons]
    rw [gen]
    simp only [Int.tdiv_one, Int.mul_one, List.cons.injEq, and_true]
    ring

/-- C34 (coarser system clock, tick > 0): order is preserved and differences are off by less than
two ticks, for any two conversions after the base is fixed. -/
theorem C34_coarse_clock (tick : Int) (ht : 0 < tick) (b : ClockBase) (h1 s1 h2 s2 x y : Int) :
    let cx := (toSystemTime tick h1 s1 (some b) x).1
    let cy := (toSystemTime tick h2 s2 (some b) y).1
    (x ≤ y → cx ≤ cy) ∧ (y - x) - 2 * tick < cy - cx ∧ cy - cx < (y - x) + 2 * tick := by
  simp only [toSystemTime]
  generalize ha : b.sys + (x - b.hrs) = a
  generalize hc : b.sys + (y - b.hrs) = c
  have hxy : y - x = c - a := by omega
  rw [hxy]
  have ra := Int.tmod_add_mul_tdiv a tick
  have rc := Int.tmod_add_mul_tdiv c tick
  have la := Int.tmod_lt_of_pos a ht
  have lc := Int.tmod_lt_of_pos c ht
  have na : -tick < a.tmod tick := by
    have := Int.tmod_lt_of_pos (-a) ht
    rw [Int.neg_tmod] at this; omega
  have nc : -tick < c.tmod tick := by
    have := Int.tmod_lt_of_pos (-c) ht
    rw [Int.neg_tmod] at this; omega
  rw [Int.mul_comm (a.tdiv tick), Int.mul_comm (c.tdiv tick)]
  refine ⟨?_, by omega, by omega⟩
  intro hle
  have hac : a ≤ c := by omega
  apply Int.mul_le_mul_of_nonneg_left _ (by omega)
  -- truncated division is monotone
  by_contra hlt
  have hlt : c.tdiv tick + 1 ≤ a.tdiv tick := by omega
  have hm := Int.mul_le_mul_of_nonneg_left hlt (Int.le_of_lt ht)
  rw [Int.mul_add, Int.mul_one] at hm
  rcases lt_or_ge a 0 with ha0 | ha0
  · -- a < 0: tdiv a = -(|a| / tick)
    have hta : a.tmod tick ≤ 0 := by
      have := Int.tmod_nonneg tick (a := -a) (by omega)
      rw [Int.neg_tmod] at this; omega
    rcases lt_or_ge c 0 with hc0 | hc0
    · have htc : c.tmod tick ≤ 0 := by
        have := Int.tmod_nonneg tick (a := -c) (by omega)
        rw [Int.neg_tmod] at this; omega
      omega
    · have : 0 ≤ c.tmod tick := Int.tmod_nonneg tick hc0
      have h1 : 0 ≤ c.tdiv tick := Int.tdiv_nonneg hc0 (by omega)
      have h2 : a.tdiv tick ≤ 0 := by
        have := Int.tdiv_nonneg (a := -a) (b := tick) (by omega) (by omega)
        rw [Int.neg_tdiv] at this; omega
      omega
  · have h1 : 0 ≤ a.tmod tick := Int.tmod_nonneg tick ha0
    have h2 : 0 ≤ c.tmod tick := Int.tmod_nonneg tick (by omega)
    omega

example : convertAll 1 (fun i => (100 + i, 5000 + i)) 0 none [90, 95, 95] = [4990, 4995, 4995] := by decide

/-! ### C58 -/

/-- The fields of a timestamp, each of fixed width. -/
structure StampFields (t : TM) (us : Nat) where
  y : Str
  mo : Str
  d : Str
  h : Str
  mi : Str
  s : Str
  u : Str
  hy : IsFixedWidth 4 t.year y
  hmo : IsFixedWidth 2 t.mon mo
  hd : IsFixedWidth 2 t.mday d
  hh : IsFixedWidth 2 t.hour h
  hmi : IsFixedWidth 2 t.min mi
  hs : IsFixedWidth 2 t.sec s
  hu : IsFixedWidth 6 us u

/-- `yyyy/mm/dd hh:mm:ss uuuuuu` -/
def StampFields.text {t us} (f : StampFields t us) : Str :=
  f.y ++ '/' :: (f.mo ++ '/' :: (f.d ++ ' ' :: (f.h ++ ':' :: (f.mi ++ ':' :: (f.s ++ ' ' :: f.u)))))

theorem localtimeFormatted_of (other : Char → TM → Str) (lt : Int → TM) (ndebug : Bool) (n : Nat) (fmt buf : Str)
    (hs : formattedFractions (n : Int) fmt = some (.ok buf)) :
    localtimeFormatted other lt ndebug (n : Int) fmt =
      some (.ok (putTime (strftimeText other (lt ((n : Int) / 1000000000))) ndebug (cstr buf))) := by
  have hsec : (n : Int).tdiv 1000000000 = (n : Int) / 1000000000 :=
    Int.tdiv_eq_ediv_of_nonneg (by omega)
  unfold localtimeFormatted
  rw [hs, hsec]

theorem isFixedWidth_no_nul {w v : Nat} {s : Str} (h : IsFixedWidth w v s) : Char.ofNat 0 ∉ s := by
  intro hm
  exact absurd (h.2.1 _ hm) (by unfold isDig; decide)

theorem stamp_core (other : Char → TM → Str) (t : TM) (ndebug : Bool) (us : Nat) (d6 : Str)
    (hv : tmValid t) (f6 : IsFixedWidth 6 us d6) :
    ∃ f : StampFields t us,
      putTime (strftimeText other t) ndebug (cstr ("%Y/%m/%d %H:%M:%S ".toList ++ d6)) = .text f.text ∧
      f.text.length = 26 := by
  obtain ⟨v1, v2, v3, v4, v5, v6, v7, v8, v9⟩ := hv
  let f : StampFields t us :=
    { y := decNat t.year, mo := pad2 t.mon, d := pad2 t.mday, h := pad2 t.hour, mi := pad2 t.min,
      s := pad2 t.sec, u := d6,
      hy := decNat_year _ v1 v2, hmo := pad2_spec _ (by omega), hd := pad2_spec _ (by omega),
      hh := pad2_spec _ (by omega), hmi := pad2_spec _ (by omega), hs := pad2_spec _ (by omega), hu := f6 }
  have hlen : f.text.length = 26 := by
    have := f.hy.1; have := f.hmo.1; have := f.hd.1; have := f.hh.1; have := f.hmi.1; have := f.hs.1
    have := f.hu.1
    simp only [StampFields.text, List.length_append, List.length_cons]
    omega
  have hnp : '%' ∉ d6 := by
    intro hm
    exact absurd (f6.2.1 _ hm) (by unfold isDig; decide)
  have hfull : strftimeText other t ("%Y/%m/%d %H:%M:%S ".toList ++ d6) = f.text := by
    cases hd6 : d6 with
    | nil => rw [hd6] at f6; exact absurd f6.1 (by simp)
    | cons c r =>
      rw [hd6] at hnp
      have := strftimeText_plain other t (c :: r) hnp
      simp [strftimeText, this, StampFields.text, f, hd6]
  have hnul : Char.ofNat 0 ∉ f.text := by
    have a1 := isFixedWidth_no_nul f.hy
    have a2 := isFixedWidth_no_nul f.hmo
    have a3 := isFixedWidth_no_nul f.hd
    have a4 := isFixedWidth_no_nul f.hh
    have a5 := isFixedWidth_no_nul f.hmi
    have a6 := isFixedWidth_no_nul f.hs
    have a7 := isFixedWidth_no_nul f.hu
    simp only [StampFields.text, List.mem_append, List.mem_cons, a1, a2, a3, a4, a5, a6, a7, or_false, false_or]
    decide
  refine ⟨f, ?_, hlen⟩
  have hc : cstr ("%Y/%m/%d %H:%M:%S ".toList ++ d6) = "%Y/%m/%d %H:%M:%S ".toList ++ d6 := by
    apply cstr_eq_self
    have a := isFixedWidth_no_nul f6
    simp only [List.mem_append, a, or_false]
    decide
  rw [hc]
  unfold putTime
  simp only [hfull, hlen]
  rw [cstr_eq_self hnul]
  simp

/-- C58: the default timestamp of a time at or after the epoch (in a broken-down time with valid fields)
is `yyyy/mm/dd hh:mm:ss uuuuuu` with fixed-width fields, in debug and release builds. -/
theorem C58_default_stamp (other : Char → TM → Str) (lt : Int → TM) (ndebug : Bool) (n : Nat)
    (hv : tmValid (lt (n / 1000000000))) :
    ∃ f : StampFields (lt (n / 1000000000)) (n % 1000000000 / 1000),
      localtimeFormatted other lt ndebug (n : Int) defaultTimeFormat = some (.ok (.text f.text)) ∧
      f.text.length = 26 := by
  obtain ⟨d3, d6, d9, f3, f6, f9, hs⟩ := C32_substitution n defaultTimeFormat
  have hsub : substFractions d3 d6 d9 defaultTimeFormat = "%Y/%m/%d %H:%M:%S ".toList ++ d6 := by
    have e : defaultTimeFormat = "%Y/%m/%d %H:%M:%S ".toList ++ '%' :: 'f' :: "6".toList := by decide
    rw [e, subst_literal _ _ _ _ _ (by decide) (by decide), subst_pf]
    simp [afterPf, substFractions]
  obtain ⟨f, h1, h2⟩ := stamp_core other (lt (n / 1000000000)) ndebug _ d6 hv f6
  refine ⟨f, ?_, h2⟩
  rw [localtimeFormatted_of _ _ _ _ _ _ hs, hsub, h1]

/-- C58: the byte order of two default timestamps is the chronological order of their fields. -/
theorem C58_stamp_order {a b : TM} {ua ub : Nat} (f : StampFields a ua) (g : StampFields b ub) :
    lexLt f.text g.text ↔ tmLt a ua b ub := by
  unfold StampFields.text tmLt
  rw [lexLt_fixed f.hy g.hy, lexLt_cons_self, lexLt_fixed f.hmo g.hmo, lexLt_cons_self,
    lexLt_fixed f.hd g.hd, lexLt_cons_self, lexLt_fixed f.hh g.hh, lexLt_cons_self,
    lexLt_fixed f.hmi g.hmi, lexLt_cons_self, lexLt_fixed f.hs g.hs, lexLt_cons_self]
  have := @lexLt_fixed 6 ua ub f.u g.u [] [] f.hu g.hu
  simp only [List.append_nil] at this
  rw [this]
  simp [lexLt]

/-- C58: the log-file time stamp (`%Y%m%d-%H%M%S`, filesinkhelper.ipp:23) has 15 characters and sorts
chronologically too. -/
theorem C58_file_stamp (other : Char → TM → Str) (lt : Int → TM) (ndebug : Bool) (m n : Nat)
    (hm : tmValid (lt (m / 1000000000))) (hn : tmValid (lt (n / 1000000000))) :
    ∃ sm sn, localtimeFormatted other lt ndebug (m : Int) "%Y%m%d-%H%M%S".toList = some (.ok (.text sm)) ∧
      localtimeFormatted other lt ndebug (n : Int) "%Y%m%d-%H%M%S".toList = some (.ok (.text sn)) ∧
      sm.length = 15 ∧
      (lexLt sm sn ↔ tmLt (lt (m / 1000000000)) 0 (lt (n / 1000000000)) 0) := by
  have gen : ∀ k : Nat, tmValid (lt (k / 1000000000)) →
      localtimeFormatted other lt ndebug (k : Int) "%Y%m%d-%H%M%S".toList = some (.ok (.text
        (decNat (lt (k / 1000000000)).year ++ (pad2 (lt (k / 1000000000)).mon ++ (pad2 (lt (k / 1000000000)).mday ++
          '-' :: (pad2 (lt (k / 1000000000)).hour ++ (pad2 (lt (k / 1000000000)).min ++ pad2 (lt (k / 1000000000)).sec))))))) ∧
      (decNat (lt (k / 1000000000)).year ++ (pad2 (lt (k / 1000000000)).mon ++ (pad2 (lt (k / 1000000000)).mday ++
          '-' :: (pad2 (lt (k / 1000000000)).hour ++ (pad2 (lt (k / 1000000000)).min ++ pad2 (lt (k / 1000000000)).sec))))).length = 15 := by
    intro k hv
    obtain ⟨d3, d6, d9, f3, f6, f9, hs⟩ := C32_substitution k "%Y%m%d-%H%M%S".toList
    have hsub : substFractions d3 d6 d9 "%Y%m%d-%H%M%S".toList = "%Y%m%d-%H%M%S".toList :=
      findAux_none _ _ _ _ 0 (by decide)
    rw [hsub] at hs
    generalize hT : lt ((k : Int) / 1000000000) = t at *
    obtain ⟨v1, v2, v3, v4, v5, v6, v7, v8, v9⟩ := hv
    have a1 := decNat_year _ v1 v2
    have a2 := pad2_spec t.mon (by omega)
    have a3 := pad2_spec t.mday (by omega)
    have a4 := pad2_spec t.hour (by omega)
    have a5 := pad2_spec t.min (by omega)
    have a6 := pad2_spec t.sec (by omega)
    have hlen : (decNat t.year ++ (pad2 t.mon ++ (pad2 t.mday ++ '-' :: (pad2 t.hour ++ (pad2 t.min ++ pad2 t.sec))))).length = 15 := by
      simp only [List.length_append, List.length_cons, a1.1, a2.1, a3.1, a4.1, a5.1, a6.1]
    refine ⟨?_, hlen⟩
    have hfull : strftimeText other t "%Y%m%d-%H%M%S".toList =
        decNat t.year ++ (pad2 t.mon ++ (pad2 t.mday ++ '-' :: (pad2 t.hour ++ (pad2 t.min ++ pad2 t.sec)))) := by
      simp [strftimeText]
    have hnul : Char.ofNat 0 ∉ decNat t.year ++ (pad2 t.mon ++ (pad2 t.mday ++ '-' :: (pad2 t.hour ++ (pad2 t.min ++ pad2 t.sec)))) := by
      simp only [List.mem_append, List.mem_cons, isFixedWidth_no_nul a1, isFixedWidth_no_nul a2, isFixedWidth_no_nul a3, isFixedWidth_no_nul a4,
        isFixedWidth_no_nul a5, isFixedWidth_no_nul a6, or_false, false_or]
      decide
    rw [localtimeFormatted_of _ _ _ _ _ _ hs, hT]
    have hc : cstr "%Y%m%d-%H%M%S".toList = "%Y%m%d-%H%M%S".toList := by decide
    rw [hc]
    unfold putTime
    simp only [hfull, hlen]
    rw [cstr_eq_self hnul]
    simp
  refine ⟨_, _, (gen m hm).1, (gen n hn).1, (gen m hm).2, ?_⟩
  obtain ⟨u1, u2, u3, u4, u5, u6, u7, u8, u9⟩ := hm
  obtain ⟨v1, v2, v3, v4, v5, v6, v7, v8, v9⟩ := hn
  rw [lexLt_fixed (decNat_year _ u1 u2) (decNat_year _ v1 v2),
    lexLt_fixed (pad2_spec _ (by omega)) (pad2_spec _ (by omega)),
    lexLt_fixed (pad2_spec _ (by omega)) (pad2_spec _ (by omega)), lexLt_cons_self,
    lexLt_fixed (pad2_spec _ (by omega)) (pad2_spec _ (by omega)),
    lexLt_fixed (pad2_spec _ (by omega)) (pad2_spec _ (by omega))]
  have := @lexLt_fixed 2 _ _ _ _ [] [] (pad2_spec (lt (m / 1000000000)).sec (by omega)) (pad2_spec (lt (n / 1000000000)).sec (by omega))
  simp only [List.append_nil] at this
  rw [this]
  unfold tmLt
  simp [lexLt]

example : tmValid ⟨2026, 11, 16, 1, 6, 10⟩ := by unfold tmValid; decide
/-- The first and the last moment of the years that are covered, with a leap second, and what lies just outside. -/
example : tmValid ⟨1000, 1, 1, 0, 0, 0⟩ ∧ tmValid ⟨9999, 12, 31, 23, 59, 60⟩ ∧ ¬ tmValid ⟨999, 12, 31, 23, 59, 59⟩ ∧ ¬ tmValid ⟨10000, 1, 1, 0, 0, 0⟩ := by
  unfold tmValid; decide
example : ¬ tmValid ⟨2026, 0, 1, 0, 0, 0⟩ ∧ ¬ tmValid ⟨2026, 13, 1, 0, 0, 0⟩ ∧ ¬ tmValid ⟨2026, 1, 0, 0, 0, 0⟩ ∧ ¬ tmValid ⟨2026, 1, 32, 0, 0, 0⟩ ∧
    ¬ tmValid ⟨2026, 1, 1, 24, 0, 0⟩ ∧ ¬ tmValid ⟨2026, 1, 1, 0, 60, 0⟩ ∧ ¬ tmValid ⟨2026, 1, 1, 0, 0, 61⟩ := by
  refine ⟨?_, ?_, ?_, ?_, ?_, ?_, ?_⟩ <;> (unfold tmValid; decide)

/-! ### C61 -/

/-- C61 (partial: formats without the sequence `%%f`): a format whose only percent signs start plain
conversions is not disturbed ... see `C61_negation` for what happens to an escaped percent sign. -/
theorem C61_escaped_percent_partial (n : Nat) (A B : Str) (hA : '%' ∉ A) (hB : '%' ∉ B)
    (hb : ∀ r, B ≠ 'f' :: r) :
    formattedFractions (n : Int) (A ++ '%' :: '%' :: B) = some (.ok (A ++ '%' :: '%' :: B)) := by
  apply C32_no_fraction
  intro X Y e
  -- the only percent signs are the two adjacent ones
  have key : ∀ (A X : Str), '%' ∉ A → A ++ '%' :: '%' :: B = X ++ '%' :: 'f' :: Y → False := by
    intro A
    induction A with
    | nil =>
      intro X _ e
      cases X with
      | nil => simp at e
      | cons x X =>
        simp only [List.nil_append, List.cons_append, List.cons.injEq] at e
        obtain ⟨_, e⟩ := e
        cases X with
        | nil =>
          simp only [List.nil_append, List.cons.injEq, true_and] at e
          exact hb Y e
        | cons x X =>
          simp only [List.cons_append, List.cons.injEq] at e
          exact hB (by rw [e.2]; simp)
    | cons a A ih =>
      intro X hA e
      have ha : a ≠ '%' := fun e => hA (by simp [e])
      cases X with
      | nil => simp only [List.cons_append, List.nil_append, List.cons.injEq] at e; exact ha e.1
      | cons x X =>
        simp only [List.cons_append, List.cons.injEq] at e
        exact ih X (fun hm => hA (List.mem_cons_of_mem _ hm)) e.2
  exact key A X hA e

/-- C61 is false in general: in the format `100%%f` the escaped percent sign is torn apart: the text given
to `strftime` no longer contains the escape, for every time. -/
theorem C61_negation (n : Nat) : ∃ d9, IsFixedWidth 9 (n % 1000000000) d9 ∧
    formattedFractions (n : Int) "100%%f".toList = some (.ok ("100%".toList ++ d9)) := by
  obtain ⟨d3, d6, d9, _, _, f9, hs⟩ := C32_substitution n "100%%f".toList
  refine ⟨d9, f9, ?_⟩
  rw [hs]
  have e : "100%%f".toList = ['1', '0', '0'] ++ '%' :: '%' :: 'f' :: [] := by decide
  have h : substFractions d3 d6 d9 "100%%f".toList = "100%".toList ++ d9 := by
    rw [e, subst_append _ _ _ _ _ (by decide), subst_cons _ _ _ _ _ (by decide), subst_pf]
    simp [afterPf, substFractions]
  rw [h]

example : ∃ A B : Str, '%' ∉ A ∧ '%' ∉ B ∧ (∀ r, B ≠ 'f' :: r) ∧ A = "100".toList ∧ B = " done".toList :=
  ⟨_, _, by decide, by decide, by simp, rfl, rfl⟩

end G3.Props
