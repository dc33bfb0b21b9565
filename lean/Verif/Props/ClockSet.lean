import Verif.Spec.ClockSet
import Mathlib.Data.List.Induction
/-
C131: time stamps while the system clock is set.
-/
namespace G3.Props
open G3 G3.Spec

variable {system : Bool} {tick h c : Int} {ls : List ClkLabel} {s : ClkState}

theorem clkRun_snoc_some {s v : ClkState} {l : ClkLabel} (hr : clkRun system tick s (ls ++ [l]) = some v) :
    ∃ u, clkRun system tick s ls = some u ∧ clkStep system tick u l = some v := by
  induction ls generalizing s with
  | nil =>
    refine ⟨s, rfl, ?_⟩
    obtain ⟨w, h1, h2⟩ := Option.bind_eq_some_iff.1 (show (clkStep system tick s l).bind (clkRun system tick · []) = some v from hr)
    rw [h1]; exact h2
  | cons a ls ih =>
    obtain ⟨w, h1, h2⟩ := Option.bind_eq_some_iff.1 (show (clkStep system tick s a).bind (clkRun system tick · (ls ++ [l])) = some v from hr)
    obtain ⟨u, h3, h4⟩ := ih h2
    exact ⟨u, show (clkStep system tick s a).bind (clkRun system tick · ls) = some u by rw [h1]; exact h3, h4⟩

theorem timePassed_append (a b : List ClkLabel) : timePassed (a ++ b) = timePassed a + timePassed b := by
  induction a with
  | nil => simp [timePassed]
  | cons l a ih => cases l <;> simp only [List.cons_append, timePassed, ih] <;> omega

theorem clockSet_append (a b : List ClkLabel) : clockSet (a ++ b) = clockSet a + clockSet b := by
  induction a with
  | nil => simp [clockSet]
  | cons l a ih => cases l <;> simp only [List.cons_append, clockSet, ih] <;> omega

/-- The clocks, the statics and the messages, from the schedule. -/
structure ClkInv (system : Bool) (h c : Int) (ls : List ClkLabel) (s : ClkState) : Prop where
  steady : s.steady = h + timePassed ls
  sys : s.sys = sysAt c ls
  len : s.made.length = ls.count .log
  made : ∀ i t, s.made[i]? = some t → ∃ p, MadeAfter ls p i ∧ t = hrcAt system h c p
  hrs : (s.hrs = none ∧ s.base = none ∧ .readH ∉ ls ∧ .readS ∉ ls) ∨
    (∃ a m, ls = a ++ .readH :: m ∧ .readH ∉ a ∧ .readH ∉ m ∧ .readS ∉ ls ∧ s.hrs = some (hrcAt system h c a) ∧ s.base = none) ∨
    (∃ a m, BaseRead ls a m ∧ OneBase ls ∧ s.hrs = some (hrcAt system h c a) ∧
      s.base = some { hrs := hrcAt system h c a, sys := sysAt c (a ++ .readH :: m) })

theorem clk_hrc (I : ClkInv system h c ls s) : s.hrc system = hrcAt system h c ls := by
  unfold ClkState.hrc hrcAt
  rw [I.sys, I.steady]

theorem madeAfter_snoc {p : List ClkLabel} {i : Nat} (l : ClkLabel) (hm : MadeAfter ls p i) : MadeAfter (ls ++ [l]) p i := by
  obtain ⟨⟨r, rfl⟩, hi⟩ := hm
  exact ⟨⟨r ++ [l], by simp⟩, hi⟩

theorem clkInv (hr : clkRun system tick (ClkState.start h c) ls = some s) : ClkInv system h c ls s := by
  induction ls using List.reverseRecOn generalizing s with
  | nil =>
    obtain rfl := Option.some.inj hr
    exact ⟨by simp [ClkState.start, timePassed], by simp [ClkState.start, sysAt, timePassed, clockSet], rfl, by simp [ClkState.start],
      .inl ⟨rfl, rfl, by simp, by simp⟩⟩
  | append_singleton ls l ih =>
    obtain ⟨u, hu, hs⟩ := clkRun_snoc_some hr
    have I := ih hu
    have keep : l ≠ .readH → l ≠ .readS → s.hrs = u.hrs → s.base = u.base → 
        (s.hrs = none ∧ s.base = none ∧ .readH ∉ ls ++ [l] ∧ .readS ∉ ls ++ [l]) ∨
        (∃ a m, ls ++ [l] = a ++ .readH :: m ∧ .readH ∉ a ∧ .readH ∉ m ∧ .readS ∉ ls ++ [l] ∧ s.hrs = some (hrcAt system h c a) ∧ s.base = none) ∨
        (∃ a m, BaseRead (ls ++ [l]) a m ∧ OneBase (ls ++ [l]) ∧ s.hrs = some (hrcAt system h c a) ∧
          s.base = some { hrs := hrcAt system h c a, sys := sysAt c (a ++ .readH :: m) }) := by
      intro n1 n2 e1 e2
      rw [e1, e2]
      rcases I.hrs with ⟨a1, a2, a3, a4⟩ | ⟨a, m, rfl, a1, a2, a3, a4, a5⟩ | ⟨a, m, ⟨r, e⟩, ⟨o1, o2⟩, a4, a5⟩
      · exact .inl ⟨a1, a2, by simp [a3, n1.symm], by simp [a4, n2.symm]⟩
      · refine .inr (.inl ⟨a, m ++ [l], by simp, a1, by simp [a2, n1.symm], ?_, a4, a5⟩)
        intro hx
        rcases List.mem_append.1 hx with hx | hx
        · exact a3 hx
        · exact n2 (List.mem_singleton.1 hx).symm
      · refine .inr (.inr ⟨a, m, ⟨r ++ [l], by simp [e]⟩, ⟨?_, ?_⟩, a4, a5⟩)
        · simpa [List.count_append, n1] using o1
        · simpa [List.count_append, n2] using o2
    cases l with
    | pass d =>
      obtain rfl := Option.some.inj hs
      refine ⟨?_, ?_, ?_, ?_, keep (by simp) (by simp) rfl rfl⟩
      · rw [timePassed_append]
        have := I.steady
        simp only [timePassed]; omega
      · have := I.sys
        unfold sysAt at this ⊢
        rw [timePassed_append, clockSet_append]
        simp only [timePassed, clockSet]; omega
      · simpa using I.len
      · intro i t hi
        obtain ⟨p, h1, h2⟩ := I.made i t hi
        exact ⟨p, madeAfter_snoc _ h1, h2⟩
    | set a =>
      obtain rfl := Option.some.inj hs
      refine ⟨?_, ?_, ?_, ?_, keep (by simp) (by simp) rfl rfl⟩
      · rw [timePassed_append]
        have := I.steady
        simp only [timePassed]; omega
      · have := I.sys
        unfold sysAt at this ⊢
        rw [timePassed_append, clockSet_append]
        simp only [timePassed, clockSet]; omega
      · simpa using I.len
      · intro i t hi
        obtain ⟨p, h1, h2⟩ := I.made i t hi
        exact ⟨p, madeAfter_snoc _ h1, h2⟩
    | log =>
      obtain rfl := Option.some.inj hs
      refine ⟨?_, ?_, ?_, ?_, keep (by simp) (by simp) rfl rfl⟩
      · rw [timePassed_append]
        simpa [timePassed] using I.steady
      · have := I.sys
        unfold sysAt at this ⊢
        rw [timePassed_append, clockSet_append]
        simpa [timePassed, clockSet] using this
      · simpa using I.len
      · intro i t hi
        have hi : (u.made ++ [u.hrc system])[i]? = some t := hi
        by_cases hl : i < u.made.length
        · rw [List.getElem?_append_left hl] at hi
          obtain ⟨p, h1, h2⟩ := I.made i t hi
          exact ⟨p, madeAfter_snoc _ h1, h2⟩
        · rw [List.getElem?_append_right (Nat.not_lt.1 hl)] at hi
          have h0 : i - u.made.length = 0 := by
            have := (List.getElem?_eq_some_iff.1 hi).1
            simpa using this
          rw [h0] at hi
          obtain rfl : u.hrc system = t := by simpa using hi
          exact ⟨ls, ⟨⟨[], rfl⟩, by rw [← I.len]; omega⟩, clk_hrc I⟩
    | readH =>
      unfold clkStep at hs
      dsimp only at hs
      split at hs
      · rename_i hn
        obtain rfl := Option.some.inj hs
        refine ⟨?_, ?_, ?_, ?_, ?_⟩
        · rw [timePassed_append]
          simpa [timePassed] using I.steady
        · have := I.sys
          unfold sysAt at this ⊢
          rw [timePassed_append, clockSet_append]
          simpa [timePassed, clockSet] using this
        · simpa using I.len
        · intro i t hi
          obtain ⟨p, h1, h2⟩ := I.made i t hi
          exact ⟨p, madeAfter_snoc _ h1, h2⟩
        · rcases I.hrs with ⟨a1, a2, a3, a4⟩ | ⟨a, m, -, -, -, -, a4, -⟩ | ⟨a, m, -, -, a4, -⟩
          · exact .inr (.inl ⟨ls, [], rfl, a3, by simp, by simp [a4], congrArg some (clk_hrc I), a2⟩)
          · rw [hn.1] at a4; cases a4
          · rw [hn.1] at a4; cases a4
      · cases hs
    | readS =>
      have hh : ∃ x, u.hrs = some x ∧ u.base = none ∧ s = { u with base := some { hrs := x, sys := u.sys } } := by
        unfold clkStep at hs
        dsimp only at hs
        split at hs
        · rename_i x h1 h2; exact ⟨x, h1, h2, (Option.some.inj hs).symm⟩
        · cases hs
      obtain ⟨x, h1, h2, rfl⟩ := hh
      refine ⟨?_, ?_, ?_, ?_, ?_⟩
      · rw [timePassed_append]
        simpa [timePassed] using I.steady
      · have := I.sys
        unfold sysAt at this ⊢
        rw [timePassed_append, clockSet_append]
        simpa [timePassed, clockSet] using this
      · simpa using I.len
      · intro i t hi
        obtain ⟨p, h1, h2⟩ := I.made i t hi
        exact ⟨p, madeAfter_snoc _ h1, h2⟩
      · rcases I.hrs with ⟨a1, -⟩ | ⟨a, m, e, n1, n2, n3, a4, -⟩ | ⟨a, m, -, -, -, a5⟩
        · rw [h1] at a1; cases a1
        · rw [h1] at a4
          obtain rfl := Option.some.inj a4
          refine .inr (.inr ⟨a, m, ⟨[], by simp [e]⟩, ⟨?_, ?_⟩, h1, ?_⟩)
          · rw [e]; simp [List.count_append, List.count_eq_zero.2 n1, List.count_eq_zero.2 n2]
          · simp [List.count_append, List.count_eq_zero.2 n3]
          · rw [← e]; exact congrArg (fun v => some (ClockBase.mk _ v)) I.sys
        · rw [h2] at a5; cases a5
    | format i =>
      have hh : ∃ x, s = { u with shown := x } := by
        unfold clkStep at hs
        dsimp only at hs
        split at hs
        · exact ⟨_, (Option.some.inj hs).symm⟩
        · cases hs
      obtain ⟨x, rfl⟩ := hh
      refine ⟨?_, ?_, ?_, ?_, keep (by simp) (by simp) rfl rfl⟩
      · rw [timePassed_append]
        simpa [timePassed] using I.steady
      · have := I.sys
        unfold sysAt at this ⊢
        rw [timePassed_append, clockSet_append]
        simpa [timePassed, clockSet] using this
      · simpa using I.len
      · intro i t hi
        obtain ⟨p, h1, h2⟩ := I.made i t hi
        exact ⟨p, madeAfter_snoc _ h1, h2⟩

theorem wholeTicks_tdiv (ht : 0 < tick) (x : Int) : WholeTicks tick x (x.tdiv tick * tick) := by
  refine ⟨⟨x.tdiv tick, Int.mul_comm _ _⟩, fun hx => ?_, fun hx => ?_⟩
  · rw [Int.tdiv_eq_ediv_of_nonneg hx]
    have h1 := Int.emod_nonneg x (Int.ne_of_gt ht)
    have h2 := Int.emod_lt_of_pos x ht
    have h3 := Int.mul_ediv_add_emod x tick
    have h4 : 0 ≤ x / tick * tick := Int.mul_nonneg (Int.ediv_nonneg hx (Int.le_of_lt ht)) (Int.le_of_lt ht)
    rw [Int.mul_comm] at h3
    omega
  · obtain ⟨y, rfl⟩ : ∃ y, x = -y := ⟨-x, by omega⟩
    have hy : 0 ≤ y := by omega
    rw [Int.neg_tdiv, Int.tdiv_eq_ediv_of_nonneg hy, Int.neg_mul]
    have h1 := Int.emod_nonneg y (Int.ne_of_gt ht)
    have h2 := Int.emod_lt_of_pos y ht
    have h3 := Int.mul_ediv_add_emod y tick
    have h4 : 0 ≤ y / tick * tick := Int.mul_nonneg (Int.ediv_nonneg hy (Int.le_of_lt ht)) (Int.le_of_lt ht)
    rw [Int.mul_comm] at h3
    omega

theorem wholeTicks_one {x v : Int} (hw : WholeTicks 1 x v) : v = x := by
  obtain ⟨-, h1, h2⟩ := hw
  rcases Int.le_total 0 x with hx | hx
  · have := h1 hx; omega
  · have := h2 hx; omega

/-- Exactly which steps are possible. -/
theorem C131_can (hr : clkRun system tick (ClkState.start h c) ls = some s) (l : ClkLabel) :
    (clkStep system tick s l).isSome ↔ clkPossible ls l := by
  have I := clkInv hr
  have hmem : .log ∈ ls ↔ s.made ≠ [] := by
    rw [← List.length_pos_iff, I.len]; exact List.count_pos_iff.symm
  have hH : s.hrs = none ↔ .readH ∉ ls := by
    rcases I.hrs with ⟨a1, a2, a3, a4⟩ | ⟨a, m, e, -, -, -, a4, -⟩ | ⟨a, m, ⟨r, e⟩, -, a4, -⟩
    · simp [a1, a3]
    · simp [a4, e]
    · simp [a4, e]
  have hS : s.base = none ↔ .readS ∉ ls := by
    rcases I.hrs with ⟨a1, a2, a3, a4⟩ | ⟨a, m, -, -, -, a3, -, a5⟩ | ⟨a, m, ⟨r, e⟩, -, -, a5⟩
    · simp [a2, a4]
    · simp [a5, a3]
    · simp [a5, e]
  cases l with
  | pass d => exact ⟨fun _ => trivial, fun _ => rfl⟩
  | set a => exact ⟨fun _ => trivial, fun _ => rfl⟩
  | log => exact ⟨fun _ => trivial, fun _ => rfl⟩
  | readH =>
    unfold clkStep clkPossible
    dsimp only
    rw [← hH, hmem]
    split <;> simp_all
  | readS =>
    unfold clkStep clkPossible
    dsimp only
    rw [← hS]
    have hH' : .readH ∈ ls ↔ s.hrs ≠ none := by rw [ne_eq, hH, not_not]
    rw [hH']
    cases s.hrs <;> cases s.base <;> simp
  | format i =>
    unfold clkStep clkPossible
    dsimp only
    have hS' : .readS ∈ ls ↔ s.base ≠ none := by rw [ne_eq, hS, not_not]
    rw [hS', ← I.len]
    cases hb : s.base with
    | none => simp
    | some b =>
      cases hm : s.made[i]? with
      | none => simpa using hm
      | some t => simpa using (List.getElem?_eq_some_iff.1 hm).1

/-- Exactly: every stamp of a process is what the system clock showed at the second reading of the statics, plus what the clock of the messages
showed at the statement, less what that showed at the first reading; in whole ticks. -/
theorem C131_exact (ht : 0 < tick) (hr : clkRun system tick (ClkState.start h c) ls = some s) :
    s.shown.length = stampsMade ls ∧
    ∀ p i r, ls = p ++ .format i :: r → ∃ a m q v, BaseRead p a m ∧ OneBase ls ∧ MadeAfter p q i ∧
      WholeTicks tick (sysAt c (a ++ .readH :: m) + (hrcAt system h c q - hrcAt system h c a)) v ∧ s.shown[stampsMade p]? = some (i, v) := by
  induction ls using List.reverseRecOn generalizing s with
  | nil =>
    obtain rfl := Option.some.inj hr
    exact ⟨rfl, fun p i r e => by simp at e⟩
  | append_singleton ls l ih =>
    obtain ⟨u, hu, hs⟩ := clkRun_snoc_some hr
    obtain ⟨hl, he⟩ := ih hu
    have I := clkInv hu
    have one : OneBase (ls ++ [l]) := by
      rcases (clkInv hr).hrs with ⟨-, -, a3, a4⟩ | ⟨a, m, e, a1, a2, a3, -, -⟩ | ⟨a, m, -, o, -, -⟩
      · exact ⟨by rw [List.count_eq_zero.2 a3]; omega, by rw [List.count_eq_zero.2 a4]; omega⟩
      · refine ⟨?_, by rw [List.count_eq_zero.2 a3]; omega⟩
        rw [e]; simp [List.count_append, List.count_eq_zero.2 a1, List.count_eq_zero.2 a2]
      · exact o
    have fmt : ∀ i, l = .format i → ∃ b t, u.base = some b ∧ u.made[i]? = some t ∧
        s.shown = u.shown ++ [(i, (b.sys + (t - b.hrs)).tdiv tick * tick)] := by
      rintro i rfl
      unfold clkStep at hs
      dsimp only at hs
      split at hs
      · rename_i b t hb hm
        obtain rfl := Option.some.inj hs
        exact ⟨b, t, hb, hm, rfl⟩
      · cases hs
    have other : (∀ i, l ≠ .format i) → s.shown = u.shown := by
      intro hn
      cases l with
      | pass d => obtain rfl := Option.some.inj hs; rfl
      | set a => obtain rfl := Option.some.inj hs; rfl
      | log => obtain rfl := Option.some.inj hs; rfl
      | readH =>
        unfold clkStep at hs
        dsimp only at hs
        split at hs
        · obtain rfl := Option.some.inj hs; rfl
        · cases hs
      | readS =>
        unfold clkStep at hs
        dsimp only at hs
        split at hs
        · obtain rfl := Option.some.inj hs; rfl
        · cases hs
      | format i => exact absurd rfl (hn i)
    constructor
    · cases l with
      | format i =>
        obtain ⟨b, t, -, -, e⟩ := fmt i rfl
        rw [e]; simp [hl, stampsMade, List.countP_append]
      | _ => rw [other (by simp)]; simpa [stampsMade, List.countP_append] using hl
    · intro p i r e
      rcases List.eq_nil_or_concat r with rfl | ⟨r', l', rfl⟩
      · obtain ⟨rfl, hl'⟩ := List.append_inj' e rfl
        obtain rfl : l = .format i := by simpa using hl'
        obtain ⟨b, t, hb, hm, e'⟩ := fmt i rfl
        obtain ⟨q, hq, rfl⟩ := I.made i t hm
        rcases I.hrs with ⟨-, a2, -⟩ | ⟨a, m, -, -, -, -, -, a5⟩ | ⟨a, m, hbr, -, -, a5⟩
        · rw [hb] at a2; cases a2
        · rw [hb] at a5; cases a5
        · rw [hb] at a5
          obtain rfl := Option.some.inj a5
          refine ⟨a, m, q, _, hbr, one, hq, wholeTicks_tdiv ht _, ?_⟩
          rw [e', ← hl]; simp
      · rw [List.concat_eq_append, ← List.cons_append, ← List.append_assoc] at e
        obtain ⟨rfl, -⟩ := List.append_inj' e rfl
        obtain ⟨a, m, q, v, h1, h2, h3, h4, h5⟩ := he p i r' rfl
        refine ⟨a, m, q, v, h1, one, h3, h4, ?_⟩
        by_cases hf : ∃ j, l = .format j
        · obtain ⟨j, rfl⟩ := hf
          obtain ⟨b, t, -, -, e'⟩ := fmt j rfl
          rw [e', List.getElem?_append_left (List.getElem?_eq_some_iff.1 h5).1]; exact h5
        · rw [other fun j hj => hf ⟨j, hj⟩]; exact h5

theorem format_at {ls : List ClkLabel} {n : Nat} (hn : n < stampsMade ls) : ∃ p i r, ls = p ++ .format i :: r ∧ stampsMade p = n := by
  induction ls using List.reverseRecOn with
  | nil => simp [stampsMade] at hn
  | append_singleton ls l ih =>
    by_cases h1 : n < stampsMade ls
    · obtain ⟨p, i, r, rfl, e⟩ := ih h1
      exact ⟨p, i, r ++ [l], by simp, e⟩
    · cases l with
      | format i =>
        refine ⟨ls, i, [], rfl, ?_⟩
        simp [stampsMade] at hn h1 ⊢
        omega
      | _ => simp [stampsMade] at hn h1; omega

/-- Every stamp, with the statement that it is of and the readings of the statics. -/
theorem C131_stamps (ht : 0 < tick) (hr : clkRun system tick (ClkState.start h c) ls = some s) {x : Nat × Int} (hx : x ∈ s.shown) :
    ∃ a m q, BaseRead ls a m ∧ OneBase ls ∧ MadeAfter ls q x.1 ∧
      WholeTicks tick (sysAt c (a ++ .readH :: m) + (hrcAt system h c q - hrcAt system h c a)) x.2 := by
  obtain ⟨n, hn, rfl⟩ := List.getElem_of_mem hx
  obtain ⟨hc, he⟩ := C131_exact ht hr
  obtain ⟨p, i, r, rfl, rfl⟩ := format_at (hc ▸ hn)
  obtain ⟨a, m, q, v, ⟨r1, h1⟩, h2, ⟨⟨r3, h3⟩, h3'⟩, h4, h5⟩ := he p i r rfl
  rw [(List.getElem?_eq_some_iff.1 h5).2]
  exact ⟨a, m, q, ⟨r1 ++ .format i :: r, by simp [h1]⟩, h2, ⟨⟨r3 ++ .format i :: r, by simp [h3]⟩, h3'⟩, h4⟩

/-- Where the messages take their time from the system clock itself: all stamps are wrong by one and the same amount, the time that passed between the
two readings and what the clock was set by between them. They follow the clock when it is set otherwise. -/
theorem C131_system (hr : clkRun true 1 (ClkState.start h c) ls = some s) :
    ∀ x ∈ s.shown, ∃ a m q, BaseRead ls a m ∧ OneBase ls ∧ MadeAfter ls q x.1 ∧ x.2 = sysAt c q + (timePassed m + clockSet m) := by
  intro x hx
  obtain ⟨a, m, q, h1, h2, h3, h4⟩ := C131_stamps (by decide) hr hx
  refine ⟨a, m, q, h1, h2, h3, ?_⟩
  rw [wholeTicks_one h4]
  simp only [hrcAt, if_true, sysAt, timePassed_append, clockSet_append, timePassed, clockSet]
  omega

/-- Where they take it from a steady clock: a stamp is wrong by the time between the two readings, and by what the system clock was set by from the
statement to the readings (or, the other way, from the readings to the statement). -/
theorem C131_steady (hr : clkRun false 1 (ClkState.start h c) ls = some s) :
    ∀ x ∈ s.shown, ∃ a m q, BaseRead ls a m ∧ OneBase ls ∧ MadeAfter ls q x.1 ∧
      x.2 = sysAt c q + (timePassed m + (clockSet (a ++ .readH :: m) - clockSet q)) := by
  intro x hx
  obtain ⟨a, m, q, h1, h2, h3, h4⟩ := C131_stamps (by decide) hr hx
  refine ⟨a, m, q, h1, h2, h3, ?_⟩
  rw [wholeTicks_one h4]
  simp only [hrcAt, Bool.false_eq_true, if_false, sysAt, timePassed_append, clockSet_append, timePassed, clockSet]
  omega

theorem clockSet_none {p : List ClkLabel} (hn : ∀ a, .set a ∉ p) : clockSet p = 0 := by
  induction p with
  | nil => rfl
  | cons l p ih =>
    have := ih fun a ha => hn a (List.mem_cons_of_mem _ ha)
    cases l with
    | set a => exact absurd (List.mem_cons_self ..) (hn a)
    | _ => exact this

/-- The property, where it holds: no time passes between the two readings of the statics, and the system clock is not set; where messages use the system
clock it may be set, but not between the readings. -/
theorem C131_statement_partial (hr : clkRun system 1 (ClkState.start h c) ls = some s)
    (hp : ∀ a m, BaseRead ls a m → timePassed m = 0 ∧ ∀ d, .set d ∉ m) (hs : system = false → ∀ d, .set d ∉ ls) :
    StampsShowClock c ls s.shown := by
  intro x hx
  cases system with
  | true =>
    obtain ⟨a, m, q, h1, -, h3, h4⟩ := C131_system hr x hx
    refine ⟨q, h3, ?_⟩
    have := hp a m h1
    rw [h4, this.1, clockSet_none this.2]; omega
  | false =>
    obtain ⟨a, m, q, ⟨r, h1⟩, -, h3, h4⟩ := C131_steady hr x hx
    refine ⟨q, h3, ?_⟩
    have hn := hs rfl
    obtain ⟨r', hr'⟩ := h3.1
    rw [h4, (hp a m ⟨r, h1⟩).1, clockSet_none fun d hd => hn d (h1 ▸ List.mem_append_left _ hd),
      clockSet_none fun d hd => hn d (hr' ▸ List.mem_append_left _ hd)]
    omega

/-- Without that, but while the clock is not set, all stamps are late by the time between the readings. -/
theorem C131_unset (hr : clkRun system 1 (ClkState.start h c) ls = some s) (hn : ∀ d, .set d ∉ ls) :
    ∀ x ∈ s.shown, ∃ a m q, BaseRead ls a m ∧ OneBase ls ∧ MadeAfter ls q x.1 ∧ x.2 = sysAt c q + timePassed m := by
  intro x hx
  cases system with
  | true =>
    obtain ⟨a, m, q, ⟨r, h1⟩, h2, h3, h4⟩ := C131_system hr x hx
    refine ⟨a, m, q, ⟨r, h1⟩, h2, h3, ?_⟩
    rw [h4, clockSet_none fun d hd => hn d (by rw [h1]; simp [hd])]; omega
  | false =>
    obtain ⟨a, m, q, ⟨r, h1⟩, h2, h3, h4⟩ := C131_steady hr x hx
    refine ⟨a, m, q, ⟨r, h1⟩, h2, h3, ?_⟩
    obtain ⟨r', hr'⟩ := h3.1
    rw [h4, clockSet_none fun d hd => hn d (h1 ▸ List.mem_append_left _ hd),
      clockSet_none fun d hd => hn d (hr' ▸ List.mem_append_left _ hd)]
    omega

theorem wholeTicks_mono (ht : 0 < tick) {x y v w : Int} (hx : WholeTicks tick x v) (hy : WholeTicks tick y w) (hxy : x ≤ y) : v ≤ w := by
  obtain ⟨⟨n, rfl⟩, x1, x2⟩ := hx
  obtain ⟨⟨k, rfl⟩, y1, y2⟩ := hy
  refine Int.not_lt.1 fun hlt => ?_
  have hk : k + 1 ≤ n := Int.lt_of_mul_lt_mul_left hlt (Int.le_of_lt ht)
  have hm : tick * (k + 1) ≤ tick * n := Int.mul_le_mul_of_nonneg_left hk (Int.le_of_lt ht)
  rw [Int.mul_add, Int.mul_one] at hm
  rcases Int.le_total 0 x with h0 | h0
  · have := x1 h0; have := y1 (by omega); omega
  · rcases Int.le_total 0 y with h0' | h0'
    · have := x2 h0; have := y1 h0'; omega
    · have := x2 h0; have := y2 h0'; omega

theorem split_unique {l : ClkLabel} {a b a' b' : List ClkLabel} (hc : (a ++ l :: b).count l ≤ 1) (e : a ++ l :: b = a' ++ l :: b') : a = a' ∧ b = b' := by
  have n1 : l ∉ a ∧ l ∉ b := by
    simp [List.count_append] at hc
    exact ⟨List.count_eq_zero.1 (by omega), List.count_eq_zero.1 (by omega)⟩
  rcases List.append_eq_append_iff.1 e with ⟨d, rfl, hd⟩ | ⟨d, rfl, hd⟩
  · cases d with
    | nil => simpa using hd
    | cons x d => obtain ⟨rfl, rfl⟩ := List.cons.inj hd; exact absurd (by simp) n1.2
  · cases d with
    | nil => simpa using hd.symm
    | cons x d => obtain ⟨rfl, rfl⟩ := List.cons.inj hd; exact absurd (by simp) n1.1

/-- There is one place where the statics are read. -/
theorem baseRead_unique {a m a' m' : List ClkLabel} (h1 : BaseRead ls a m) (h2 : BaseRead ls a' m') (ho : OneBase ls) : a = a' ∧ m = m' := by
  obtain ⟨r, rfl⟩ := h1
  obtain ⟨r', e⟩ := h2
  obtain ⟨e1, -⟩ := split_unique ho.2 e
  have hc : (a ++ .readH :: m).count ClkLabel.readH ≤ 1 := by
    have := ho.1
    rw [List.count_append] at this
    omega
  exact split_unique hc e1

theorem timePassed_nonneg (p : List ClkLabel) : 0 ≤ timePassed p := by
  induction p with
  | nil => exact Int.le_refl _
  | cons l p ih => cases l <;> simp only [timePassed] <;> omega

/-- The statement of a later message comes later. -/
theorem madeAfter_later {q q' : List ClkLabel} {i j : Nat} (h1 : MadeAfter ls q i) (h2 : MadeAfter ls q' j) (hij : i ≤ j) : q <+: q' := by
  obtain ⟨⟨r, e1⟩, rfl⟩ := h1
  obtain ⟨⟨r', e2⟩, rfl⟩ := h2
  rw [e1] at e2
  rcases List.append_eq_append_iff.1 e2 with ⟨d, rfl, -⟩ | ⟨d, rfl, hd⟩
  · exact List.prefix_append _ _
  · cases d with
    | nil => simp
    | cons x d =>
      obtain ⟨rfl, -⟩ := List.cons.inj hd
      simp [List.count_append] at hij
      omega

/-- What a steady clock is good for: whatever happens to the system clock, stamps are in the order of the statements. -/
theorem C131_steady_order (ht : 0 < tick) (hr : clkRun false tick (ClkState.start h c) ls = some s) {x y : Nat × Int} (hx : x ∈ s.shown) (hy : y ∈ s.shown)
    (hxy : x.1 ≤ y.1) : x.2 ≤ y.2 := by
  obtain ⟨a, m, q, b1, o, m1, w1⟩ := C131_stamps ht hr hx
  obtain ⟨a', m', q', b2, -, m2, w2⟩ := C131_stamps ht hr hy
  obtain ⟨rfl, rfl⟩ := baseRead_unique b1 b2 o
  refine wholeTicks_mono ht w1 w2 ?_
  obtain ⟨d, rfl⟩ := madeAfter_later m1 m2 hxy
  have := timePassed_nonneg d
  simp only [hrcAt, Bool.false_eq_true, if_false, timePassed_append]
  omega

/-- With the system clock they are not, when it is set back. -/
theorem C131_order_negation : ∃ ls s, clkRun true 1 (ClkState.start 0 7200) ls = some s ∧ s.shown = [(0, 7200), (1, 3600)] :=
  ⟨[.log, .readH, .readS, .format 0, .set (-3600), .log, .format 1], _, rfl, rfl⟩

/-- The property does not hold with a steady clock: the system clock is set after the first stamp, and all later stamps are wrong, here by an hour. -/
theorem C131_negation : ∃ ls s, clkRun false 1 (ClkState.start 0 0) ls = some s ∧ s.shown = [(1, 0)] ∧ ¬ StampsShowClock 0 ls s.shown := by
  refine ⟨[.log, .readH, .readS, .set 3600, .log, .format 1], _, rfl, rfl, fun hh => ?_⟩
  obtain ⟨p, ⟨⟨r, hr⟩, hi⟩, hx⟩ := hh (1, 0) (List.mem_singleton.2 rfl)
  rcases p with _ | ⟨a, _ | ⟨b, _ | ⟨d, _ | ⟨e, _ | ⟨f, _ | ⟨g, p⟩⟩⟩⟩⟩⟩ <;> simp at hr hi
  obtain ⟨rfl, rfl, rfl, rfl, -⟩ := hr
  simp [sysAt, timePassed, clockSet] at hx

/-- Nor with the system clock: it is set between the two readings, and all stamps of the process are wrong by that. -/
theorem C131_between_negation : ∃ ls s, clkRun true 1 (ClkState.start 0 0) ls = some s ∧ s.shown = [(0, 3600)] ∧ ¬ StampsShowClock 0 ls s.shown := by
  refine ⟨[.log, .readH, .set 3600, .readS, .format 0], _, rfl, rfl, fun hh => ?_⟩
  obtain ⟨p, ⟨⟨r, hr⟩, hi⟩, hx⟩ := hh (0, 3600) (List.mem_singleton.2 rfl)
  rcases p with _ | ⟨a, _ | ⟨b, _ | ⟨d, _ | ⟨e, _ | ⟨f, p⟩⟩⟩⟩⟩ <;> simp at hr hi
  · simp [sysAt, timePassed, clockSet] at hx
  all_goals simp_all

/-- The hypotheses of `C131_statement_partial` are met by a program whose clock is set, where messages use the system clock. -/
example : let ls : List ClkLabel := [.pass 5, .log, .readH, .readS, .set 3600, .log, .format 1, .format 0]
    (∃ s, clkRun true 1 (ClkState.start 0 0) ls = some s ∧ s.shown = [(1, 3605), (0, 5)]) ∧
    ∀ a m, BaseRead ls a m → timePassed m = 0 ∧ ∀ d, .set d ∉ m := by
  refine ⟨⟨_, rfl, rfl⟩, ?_⟩
  rintro a m ⟨r, e⟩
  rcases a with _ | ⟨x1, _ | ⟨x2, _ | ⟨x3, a⟩⟩⟩ <;> simp at e
  · rcases m with _ | ⟨y, m⟩
    · exact ⟨rfl, by simp⟩
    · simp at e
      obtain ⟨-, -, -, e⟩ := e
      have := congrArg (List.count ClkLabel.readS) e
      simp [List.count_append] at this
  · obtain ⟨-, -, -, e⟩ := e
    have := congrArg (List.count ClkLabel.readH) e
    simp [List.count_append] at this

end G3.Props
