import Verif.Model.TimeWindows
import Verif.Spec.TimeWindows
import Verif.Props.TimeFormat
/-
C76 on Windows.
-/
namespace G3.Props
open G3 G3.Spec

variable {conv : Option Char → Char → TM → Option Str} {quals : List Char} {t : TM}

/-- The texts of the pieces, one after the other; nothing if one has none. -/
def joined (conv : Option Char → Char → TM → Option Str) (t : TM) : List Piece → Option Str
  | [] => some []
  | p :: ps => match p.out conv t with
    | some x => (joined conv t ps).map (x ++ ·)
    | none => none

/-- What the caller gets. -/
def winOutcome : Option Str → PutTimeWin
  | some s => .text s
  | none => .invalidParameter

theorem after_outcome (x : Str) (o : Option Str) : (winOutcome o).after x = winOutcome (o.map (x ++ ·)) := by cases o <;> rfl

theorem put_pieces (ps : List Piece) : ∀ fmt, FormatReads quals fmt ps → putTimeWin conv quals t fmt = winOutcome (joined conv t ps) := by
  induction ps with
  | nil => rintro _ ⟨rfl, _, _⟩; rfl
  | cons p ps ih =>
    rintro _ ⟨rfl, hp, hl⟩
    have hprop := hp p List.mem_cons_self
    have hrest : FormatReads quals (ps.map Piece.src).flatten ps := by
      refine ⟨rfl, fun q hq => hp q (List.mem_cons_of_mem _ hq), ?_⟩
      intro q hq
      refine hl q ?_
      cases ps with
      | nil => cases hq
      | cons a ps => exact List.mem_cons_of_mem _ hq
    have ih' := ih _ hrest
    have hne : ∀ q, p = .tail q → ps = [] := by
      rintro q rfl
      cases ps with
      | nil => rfl
      | cons a ps => exact absurd rfl (hl (.tail q) List.mem_cons_self q)
    rw [List.map_cons, List.flatten_cons]
    generalize hr : (ps.map Piece.src).flatten = r at ih' hrest
    cases p with
    | plain c =>
      have hc : c ≠ '%' := hprop
      show putTimeWin conv quals t (c :: r) = _
      rw [putTimeWin.eq_def]
      dsimp only
      rw [if_pos hc, ih', after_outcome]; rfl
    | conv q c =>
      cases q with
      | none =>
        have hc : c ∉ quals := hprop
        show putTimeWin conv quals t ('%' :: c :: r) = _
        rw [putTimeWin.eq_def]
        dsimp only
        rw [if_neg (by simp)]
        rw [if_neg hc, ih']
        simp only [joined, Piece.out]
        cases conv none c t with
        | none => rfl
        | some x => exact after_outcome _ _
      | some q =>
        have hc : q ∈ quals := hprop
        show putTimeWin conv quals t ('%' :: q :: c :: r) = _
        rw [putTimeWin.eq_def]
        dsimp only
        rw [if_neg (by simp)]
        rw [if_pos hc, ih']
        simp only [joined, Piece.out]
        cases conv (some q) c t with
        | none => rfl
        | some x => exact after_outcome _ _
    | tail q =>
      have hps := hne q rfl
      subst hps
      have hr0 : r = [] := hr.symm
      subst hr0
      cases q with
      | none => rfl
      | some q =>
        have hc : q ∈ quals := hprop
        show putTimeWin conv quals t ['%', q] = _
        rw [putTimeWin.eq_def]
        dsimp only
        rw [if_neg (by simp)]
        rw [if_pos hc]; rfl

theorem reads_cons {p : Piece} {fmt : Str} {ps : List Piece} (hp : p.proper quals) (ht : ∀ q, p ≠ .tail q) (h : FormatReads quals fmt ps) :
    FormatReads quals (p.src ++ fmt) (p :: ps) := by
  obtain ⟨rfl, h1, h2⟩ := h
  refine ⟨by rw [List.map_cons, List.flatten_cons], ?_, ?_⟩
  · intro x hx
    rcases List.mem_cons.1 hx with rfl | hx
    · exact hp
    · exact h1 x hx
  · intro x hx
    cases ps with
    | nil => cases hx
    | cons a ps =>
      rcases List.mem_cons.1 hx with rfl | hx
      · exact ht
      · exact h2 x hx

/-- Every format can be read in pieces. -/
theorem reads_all (quals : List Char) : ∀ (n : Nat) (fmt : Str), fmt.length ≤ n → ∃ ps, FormatReads quals fmt ps := by
  intro n
  induction n with
  | zero =>
    intro fmt h
    have : fmt = [] := List.length_eq_zero_iff.1 (by omega)
    exact ⟨[], by rw [this]; rfl, by simp, by simp⟩
  | succ n ih =>
    intro fmt h
    match fmt with
    | [] => exact ⟨[], rfl, by simp, by simp⟩
    | c :: r =>
      by_cases hc : c = '%'
      · subst hc
        match r with
        | [] => exact ⟨[.tail none], rfl, by simp [Piece.proper], by simp⟩
        | q :: r =>
          by_cases hq : q ∈ quals
          · match r with
            | [] => exact ⟨[.tail (some q)], rfl, by simp [Piece.proper, hq], by simp⟩
            | d :: r =>
              obtain ⟨ps, hps⟩ := ih r (by simp only [List.length_cons] at h; omega)
              exact ⟨_, reads_cons (p := .conv (some q) d) hq (by simp) hps⟩
          · obtain ⟨ps, hps⟩ := ih r (by simp only [List.length_cons] at h; omega)
            exact ⟨_, reads_cons (p := .conv none q) hq (by simp) hps⟩
      · obtain ⟨ps, hps⟩ := ih r (by simp only [List.length_cons] at h; omega)
        exact ⟨_, reads_cons (p := .plain c) hc (by simp) hps⟩

/-- C76 on Windows: for every format there is one way to read it, and the time stamp consists of the texts of its pieces, whatever
their length; the process ends only for a conversion the run-time system does not know. -/
theorem C76_windows (conv : Option Char → Char → TM → Option Str) (quals : List Char) (lt : Int → TM) (n : Nat) (fmt : Str)
    (hn : Char.ofNat 0 ∉ fmt) :
    ∃ d3 d6 d9, IsFixedWidth 3 (n % 1000000000 / 1000000) d3 ∧ IsFixedWidth 6 (n % 1000000000 / 1000) d6 ∧
      IsFixedWidth 9 (n % 1000000000) d9 ∧
      (∃ ps, FormatReads quals (substFractions d3 d6 d9 fmt) ps) ∧
      ∀ ps, FormatReads quals (substFractions d3 d6 d9 fmt) ps →
        (∀ xs : List Str, ps.map (Piece.out conv (lt (n / 1000000000))) = xs.map some →
          localtimeFormattedWin conv quals lt (n : Int) fmt = some (.ok (.text xs.flatten))) ∧
        ((∃ p ∈ ps, p.out conv (lt (n / 1000000000)) = none) →
          localtimeFormattedWin conv quals lt (n : Int) fmt = some (.ok .invalidParameter)) := by
  obtain ⟨d3, d6, d9, f3, f6, f9, hs⟩ := C32_substitution n fmt
  refine ⟨d3, d6, d9, f3, f6, f9, reads_all quals _ _ (Nat.le_refl _), ?_⟩
  intro ps hr
  have hb := subst_no_nul (isFixedWidth_no_nul f3) (isFixedWidth_no_nul f6) (isFixedWidth_no_nul f9) fmt hn
  have key : localtimeFormattedWin conv quals lt (n : Int) fmt = some (.ok (winOutcome (joined conv (lt (n / 1000000000)) ps))) := by
    unfold localtimeFormattedWin
    rw [hs]
    dsimp only
    rw [cstr_eq_self hb, put_pieces ps _ hr]
    rfl
  constructor
  · intro xs hx
    rw [key]
    have : joined conv (lt (n / 1000000000)) ps = some xs.flatten := by
      clear key hr
      induction ps generalizing xs with
      | nil =>
        cases xs with
        | nil => rfl
        | cons x xs => cases hx
      | cons p ps ih =>
        cases xs with
        | nil => cases hx
        | cons x xs =>
          rw [List.map_cons, List.map_cons, List.cons.injEq] at hx
          simp only [joined, hx.1, ih xs hx.2]; rfl
    rw [this]; rfl
  · rintro ⟨p, hp, h⟩
    rw [key]
    have : joined conv (lt (n / 1000000000)) ps = none := by
      clear key hr
      induction ps with
      | nil => cases hp
      | cons a ps ih =>
        simp only [joined]
        rcases List.mem_cons.1 hp with rfl | hp
        · rw [h]
        · rw [ih hp]
          cases a.out conv (lt (n / 1000000000)) <;> rfl
    rw [this]; rfl

/-- The run-time system's conversions are those of the standard, the others are given by `other`. -/
def StandardConv (conv : Option Char → Char → TM → Option Str) (other : Char → TM → Str) : Prop :=
  ∀ t, tmValid t → (∀ w, IsFixedWidth 4 t.year w → conv none 'Y' t = some w) ∧ (∀ w, IsFixedWidth 2 t.mon w → conv none 'm' t = some w) ∧
    (∀ w, IsFixedWidth 2 t.mday w → conv none 'd' t = some w) ∧ (∀ w, IsFixedWidth 2 t.hour w → conv none 'H' t = some w) ∧
    (∀ w, IsFixedWidth 2 t.min w → conv none 'M' t = some w) ∧ (∀ w, IsFixedWidth 2 t.sec w → conv none 'S' t = some w) ∧
    conv none '%' t = some ['%'] ∧ ∀ c ∉ ['Y', 'm', 'd', 'H', 'M', 'S', '%'], conv none c t = some (other c t)

theorem expands_reads {other : Char → TM → Str} (hc : StandardConv conv other) (hv : tmValid t) {f o : Str} (h : Expands other t f o)
    (hq : ∀ a c b, f = a ++ '%' :: c :: b → c ∉ quals) :
    putTimeWin conv quals t f = .text o := by
  obtain ⟨cY, cm, cd, cH, cM, cS, cp, co⟩ := hc t hv
  have conv1 : ∀ (c : Char) (r o w : Str), (∀ a d b, '%' :: c :: r = a ++ '%' :: d :: b → d ∉ quals) → conv none c t = some w →
      ((∀ a d b, r = a ++ '%' :: d :: b → d ∉ quals) → putTimeWin conv quals t r = .text o) →
      putTimeWin conv quals t ('%' :: c :: r) = .text (w ++ o) := by
    intro c r o w hq hw ih
    have h1 := hq [] c r rfl
    rw [putTimeWin.eq_def]
    dsimp only
    rw [if_neg (by simp), if_neg h1, hw, ih (fun a d b e => hq ('%' :: c :: a) d b (by rw [e]; rfl))]
    rfl
  induction h with
  | done => rfl
  | plain c r o hc _ ih =>
    rw [putTimeWin.eq_def]
    dsimp only
    rw [if_pos hc, ih (fun a d b e => hq (c :: a) d b (by rw [e]; rfl))]
    rfl
  | year w r o hw _ ih => exact conv1 _ _ _ _ hq (cY w hw) ih
  | month w r o hw _ ih => exact conv1 _ _ _ _ hq (cm w hw) ih
  | day w r o hw _ ih => exact conv1 _ _ _ _ hq (cd w hw) ih
  | hour w r o hw _ ih => exact conv1 _ _ _ _ hq (cH w hw) ih
  | minute w r o hw _ ih => exact conv1 _ _ _ _ hq (cM w hw) ih
  | second w r o hw _ ih => exact conv1 _ _ _ _ hq (cS w hw) ih
  | percent r o _ ih => exact conv1 _ _ _ _ hq cp ih
  | rest c r o hc _ ih => exact conv1 _ _ _ _ hq (co c hc) ih

/-- C76, the platforms compared: where conversions mean the same and no qualifier is used, the time stamp on Windows is the complete
expansion, of any length; elsewhere it is the same text if that has 1 to 1023 characters. -/
theorem C76_platforms (conv : Option Char → Char → TM → Option Str) (quals : List Char) (other : Char → TM → Str) (lt : Int → TM) (n : Nat)
    (fmt : Str) (hn : Char.ofNat 0 ∉ fmt) (hv : tmValid (lt (n / 1000000000))) (hc : StandardConv conv other) :
    ∃ d3 d6 d9, IsFixedWidth 3 (n % 1000000000 / 1000000) d3 ∧ IsFixedWidth 6 (n % 1000000000 / 1000) d6 ∧
      IsFixedWidth 9 (n % 1000000000) d9 ∧
      ∀ full, Expands other (lt (n / 1000000000)) (substFractions d3 d6 d9 fmt) full → Char.ofNat 0 ∉ full →
        (∀ a c b, substFractions d3 d6 d9 fmt = a ++ '%' :: c :: b → c ∉ quals) →
        localtimeFormattedWin conv quals lt (n : Int) fmt = some (.ok (.text full)) ∧
        ∀ ndebug, 1 ≤ full.length → full.length ≤ 1023 → localtimeFormatted other lt ndebug (n : Int) fmt = some (.ok (.text full)) := by
  obtain ⟨d3, d6, d9, f3, f6, f9, hs⟩ := C32_substitution n fmt
  refine ⟨d3, d6, d9, f3, f6, f9, ?_⟩
  intro full he hf hq
  have hb := subst_no_nul (isFixedWidth_no_nul f3) (isFixedWidth_no_nul f6) (isFixedWidth_no_nul f9) fmt hn
  constructor
  · unfold localtimeFormattedWin
    rw [hs]
    dsimp only
    rw [cstr_eq_self hb]
    exact congrArg (fun x => some (Except.ok x)) (expands_reads hc hv he hq)
  · intro ndebug h0 h1
    obtain ⟨e3, e6, e9, g3, g6, g9, h⟩ := C76_complete_partial other lt ndebug n fmt hn hv
    rw [fixedWidth_unique g3 f3, fixedWidth_unique g6 f6, fixedWidth_unique g9 f9] at h
    exact h full he hf (List.length_pos_iff.1 h0) (by omega)

/-- Microsoft's qualifiers. -/
def msQuals : List Char := ['E', 'O', 'Q', '#']

/-- A run-time system that knows only two conversions. -/
def smallConv : Option Char → Char → TM → Option Str
  | none, 'Y', t => some (decNat t.year)
  | none, 'H', t => some (pad2 t.hour)
  | _, _, _ => none

example : FormatReads msQuals "at %H%#".toList [.plain 'a', .plain 't', .plain ' ', .conv none 'H', .tail (some '#')] :=
  ⟨rfl, by simp [Piece.proper, msQuals], by simp⟩

/-- A qualifier with nothing to convert is copied; an unknown conversion ends the process. -/
example : putTimeWin smallConv msQuals ⟨2026, 11, 16, 1, 6, 10⟩ "at %H%#".toList = .text "at 01%#".toList ∧
    putTimeWin smallConv msQuals ⟨2026, 11, 16, 1, 6, 10⟩ "%k".toList = .invalidParameter := by decide +kernel

example : StandardConv (fun _ c t =>
    if c = 'Y' then some (decNat t.year) else if c = 'm' then some (pad2 t.mon) else if c = 'd' then some (pad2 t.mday)
    else if c = 'H' then some (pad2 t.hour) else if c = 'M' then some (pad2 t.min) else if c = 'S' then some (pad2 t.sec)
    else if c = '%' then some ['%'] else some []) (fun _ _ => []) := by
  intro t hv
  obtain ⟨v1, v2, v3, v4, v5, v6, v7, v8, v9⟩ := hv
  refine ⟨fun w h => ?_, fun w h => ?_, fun w h => ?_, fun w h => ?_, fun w h => ?_, fun w h => ?_, rfl, fun c h => ?_⟩
  · exact congrArg some (fixedWidth_unique (decNat_year _ v1 v2) h)
  · exact congrArg some (fixedWidth_unique (pad2_spec t.mon (by omega)) h)
  · exact congrArg some (fixedWidth_unique (pad2_spec t.mday (by omega)) h)
  · exact congrArg some (fixedWidth_unique (pad2_spec t.hour (by omega)) h)
  · exact congrArg some (fixedWidth_unique (pad2_spec t.min (by omega)) h)
  · exact congrArg some (fixedWidth_unique (pad2_spec t.sec (by omega)) h)
  · simp only [List.mem_cons, List.not_mem_nil, or_false, not_or] at h
    obtain ⟨h1, h2, h3, h4, h5, h6, h7⟩ := h
    dsimp only
    rw [if_neg h1, if_neg h2, if_neg h3, if_neg h4, if_neg h5, if_neg h6, if_neg h7]

end G3.Props
