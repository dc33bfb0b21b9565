import Verif.Props.Time
/-
C76: time formats of any length.
-/
namespace G3.Props
open G3 G3.Spec

theorem strftimeText_expands {other : Char → TM → Str} {t : TM} (hv : tmValid t) {f o : Str} (h : Expands other t f o) :
    strftimeText other t f = o := by
  obtain ⟨v1, v2, v3, v4, v5, v6, v7, v8, v9⟩ := hv
  induction h with
  | done => rfl
  | plain c r o hc _ ih =>
    cases r with
    | nil => subst ih; rfl
    | cons d r => rw [strftimeText, if_neg hc, ih]
  | year w r o hw _ ih => rw [strftimeText, if_pos rfl, if_pos rfl, ih, fixedWidth_unique hw (decNat_year _ v1 v2)]
  | month w r o hw _ ih => rw [strftimeText, ih, fixedWidth_unique hw (pad2_spec t.mon (by omega))]; rfl
  | day w r o hw _ ih => rw [strftimeText, ih, fixedWidth_unique hw (pad2_spec t.mday (by omega))]; rfl
  | hour w r o hw _ ih => rw [strftimeText, ih, fixedWidth_unique hw (pad2_spec t.hour (by omega))]; rfl
  | minute w r o hw _ ih => rw [strftimeText, ih, fixedWidth_unique hw (pad2_spec t.min (by omega))]; rfl
  | second w r o hw _ ih => rw [strftimeText, ih, fixedWidth_unique hw (pad2_spec t.sec (by omega))]; rfl
  | percent r o _ ih => rw [strftimeText, ih]; rfl
  | rest c r o hc _ ih =>
    simp only [List.mem_cons, List.not_mem_nil, or_false, not_or] at hc
    obtain ⟨h1, h2, h3, h4, h5, h6, h7⟩ := hc
    rw [strftimeText, ih, if_pos rfl, if_neg h1, if_neg h2, if_neg h3, if_neg h4, if_neg h5, if_neg h6, if_neg h7]

theorem subst_no_nul {d3 d6 d9 : Str} (h3 : Char.ofNat 0 ∉ d3) (h6 : Char.ofNat 0 ∉ d6) (h9 : Char.ofNat 0 ∉ d9) (fmt : Str)
    (h : Char.ofNat 0 ∉ fmt) : Char.ofNat 0 ∉ substFractions d3 d6 d9 fmt := by
  fun_induction substFractions d3 d6 d9 fmt <;> simp_all

/-- What the caller of `localtime_formatted` gets. -/
inductive Stamp
  | complete        -- the expanded format
  | unexpanded      -- the format, its conversions (other than fractions) not expanded
  | abort           -- the process is ended by an assertion
deriving DecidableEq, Repr

/-- The outcome for an expansion of the given length. -/
def stampOf (ndebug : Bool) (len : Nat) : Stamp :=
  if 1 ≤ len ∧ len ≤ 1023 then .complete else if ndebug then .unexpanded else .abort

/-- C76, exact for every time from the epoch on, every format and both kinds of build: the complete expansion if it has 1 to 1023
characters; otherwise the format with only its fractions replaced (release) or the end of the process (debug). -/
theorem C76_exact (other : Char → TM → Str) (lt : Int → TM) (ndebug : Bool) (n : Nat) (fmt : Str) (hn : Char.ofNat 0 ∉ fmt)
    (hv : tmValid (lt (n / 1000000000))) :
    ∃ d3 d6 d9, IsFixedWidth 3 (n % 1000000000 / 1000000) d3 ∧ IsFixedWidth 6 (n % 1000000000 / 1000) d6 ∧
      IsFixedWidth 9 (n % 1000000000) d9 ∧
      ∀ full, Expands other (lt (n / 1000000000)) (substFractions d3 d6 d9 fmt) full → Char.ofNat 0 ∉ full →
        localtimeFormatted other lt ndebug (n : Int) fmt = some (.ok (match stampOf ndebug full.length with
          | .complete => .text full
          | .unexpanded => .text (substFractions d3 d6 d9 fmt)
          | .abort => .assertFailed)) := by
  obtain ⟨d3, d6, d9, f3, f6, f9, hs⟩ := C32_substitution n fmt
  refine ⟨d3, d6, d9, f3, f6, f9, ?_⟩
  intro full he hf
  have hb := subst_no_nul (isFixedWidth_no_nul f3) (isFixedWidth_no_nul f6) (isFixedWidth_no_nul f9) fmt hn
  rw [localtimeFormatted_of _ _ _ _ _ _ hs, cstr_eq_self hb]
  have hst := strftimeText_expands hv he
  unfold putTime stampOf
  simp only [hst, cstr_eq_self hf]
  by_cases h1 : full.length + 1 ≤ 1024
  · rw [if_pos h1]
    by_cases h0 : full.length = 0
    · rw [h0]
      cases ndebug <;> simp
    · have h2 : 1 ≤ full.length ∧ full.length ≤ 1023 := by omega
      rw [if_pos h2, if_neg (fun e => h0 e.symm)]
  · have h2 : ¬ (1 ≤ full.length ∧ full.length ≤ 1023) := by omega
    rw [if_neg h1, if_neg h2]
    cases ndebug <;> simp

/-- C76 for expansions of 1 to 1023 characters: complete in every build. -/
theorem C76_complete_partial (other : Char → TM → Str) (lt : Int → TM) (ndebug : Bool) (n : Nat) (fmt : Str) (hn : Char.ofNat 0 ∉ fmt)
    (hv : tmValid (lt (n / 1000000000))) :
    ∃ d3 d6 d9, IsFixedWidth 3 (n % 1000000000 / 1000000) d3 ∧ IsFixedWidth 6 (n % 1000000000 / 1000) d6 ∧
      IsFixedWidth 9 (n % 1000000000) d9 ∧
      ∀ full, Expands other (lt (n / 1000000000)) (substFractions d3 d6 d9 fmt) full → Char.ofNat 0 ∉ full → full ≠ [] → full.length < 1024 →
        localtimeFormatted other lt ndebug (n : Int) fmt = some (.ok (.text full)) := by
  obtain ⟨d3, d6, d9, f3, f6, f9, h⟩ := C76_exact other lt ndebug n fmt hn hv
  refine ⟨d3, d6, d9, f3, f6, f9, fun full he hf h0 h1 => ?_⟩
  rw [h full he hf]
  have : 1 ≤ full.length ∧ full.length ≤ 1023 := ⟨List.length_pos_iff.2 h0, by omega⟩
  unfold stampOf
  rw [if_pos this]

theorem expands_plain (other : Char → TM → Str) (t : TM) (s : Str) (h : '%' ∉ s) {f o : Str} (he : Expands other t f o) :
    Expands other t (s ++ f) (s ++ o) := by
  induction s with
  | nil => exact he
  | cons c s ih =>
    refine Expands.plain c _ _ (fun e => h (by rw [e]; simp)) (ih fun e => h (List.mem_cons_of_mem _ e))

/-- C76 fails: after 1020 or more ordinary characters a release build leaves `%Y` unexpanded, at every time, and a debug build ends the process. -/
theorem C76_long (other : Char → TM → Str) (lt : Int → TM) (n : Nat) (a : Str) (ha : '%' ∉ a) (hn : Char.ofNat 0 ∉ a) (hl : 1020 ≤ a.length)
    (hv : tmValid (lt (n / 1000000000))) :
    localtimeFormatted other lt true (n : Int) (a ++ "%Y".toList) = some (.ok (.text (a ++ "%Y".toList))) ∧
    localtimeFormatted other lt false (n : Int) (a ++ "%Y".toList) = some (.ok .assertFailed) := by
  have hnf : Char.ofNat 0 ∉ a ++ "%Y".toList := by
    simp only [List.mem_append, hn, false_or]; decide
  have hw := decNat_year _ hv.1 hv.2.1
  have hex : Expands other (lt (n / 1000000000)) (a ++ "%Y".toList) (a ++ (decNat (lt (n / 1000000000)).year ++ [])) :=
    expands_plain _ _ a ha (Expands.year _ _ _ hw Expands.done)
  have hfn : Char.ofNat 0 ∉ a ++ (decNat (lt (n / 1000000000)).year ++ []) := by
    simp only [List.append_nil, List.mem_append, hn, false_or]
    exact isFixedWidth_no_nul hw
  have hlen : ¬ (1 ≤ (a ++ (decNat (lt (n / 1000000000)).year ++ [])).length ∧ (a ++ (decNat (lt (n / 1000000000)).year ++ [])).length ≤ 1023) := by
    simp only [List.append_nil, List.length_append, hw.1]; omega
  have hsub : ∀ d3 d6 d9, substFractions d3 d6 d9 (a ++ "%Y".toList) = a ++ "%Y".toList := by
    intro d3 d6 d9
    clear hnf hw hex hfn hlen hl hn
    induction a with
    | nil => rfl
    | cons c a ih =>
      have hc : c ≠ '%' := fun e => ha (by rw [e]; simp)
      rw [List.cons_append, substFractions, ih fun e => ha (List.mem_cons_of_mem _ e)]
      all_goals (intro _ e; exact absurd e hc)
  constructor
  · obtain ⟨d3, d6, d9, _, _, _, h⟩ := C76_exact other lt true n _ hnf hv
    rw [hsub] at h
    rw [h _ hex hfn]; unfold stampOf; rw [if_neg hlen]; rfl
  · obtain ⟨d3, d6, d9, _, _, _, h⟩ := C76_exact other lt false n _ hnf hv
    rw [hsub] at h
    rw [h _ hex hfn]; unfold stampOf; rw [if_neg hlen]; rfl

/-- C76 fails: an empty time format ends a debug build. -/
theorem C76_negation (other : Char → TM → Str) (lt : Int → TM) (n : Nat) (hv : tmValid (lt (n / 1000000000))) :
    localtimeFormatted other lt false (n : Int) [] = some (.ok .assertFailed) ∧
    localtimeFormatted other lt true (n : Int) [] = some (.ok (.text [])) := by
  constructor
  · obtain ⟨d3, d6, d9, _, _, _, h⟩ := C76_exact other lt false n [] (by simp) hv
    exact h [] Expands.done (by simp)
  · obtain ⟨d3, d6, d9, _, _, _, h⟩ := C76_exact other lt true n [] (by simp) hv
    exact h [] Expands.done (by simp)

example : tmValid ⟨2026, 11, 16, 1, 6, 10⟩ ∧ Expands (fun _ _ => []) ⟨2026, 11, 16, 1, 6, 10⟩ "%H%%".toList "01%".toList :=
  ⟨by unfold tmValid; decide, Expands.hour "01".toList _ _ ⟨by decide, by unfold isDig; decide, by decide⟩ (Expands.percent _ _ Expands.done)⟩

example : '%' ∉ List.replicate 1020 'x' ∧ Char.ofNat 0 ∉ List.replicate 1020 'x' ∧ 1020 ≤ (List.replicate 1020 'x').length := by
  refine ⟨?_, ?_, by rw [List.length_replicate]⟩ <;> rw [List.mem_replicate] <;> decide

end G3.Props
