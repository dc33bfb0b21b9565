import Verif.Spec.SignalHistory
import Verif.Props.Signals
import Mathlib.Tactic.ByContra
/-
C43 and C44 for every order and number of the calls concerning signals: which signals g3log holds, and how a
fatal event ends.
-/
namespace G3.Props
open G3 G3.Spec

theorem watching_chosen (n : Int) : ∀ h : List SetUp, watching n h = true → n ∈ chosen h
  | [], hw => by cases hw
  | .init :: older, hw => of_decide_eq_true hw
  | .choose l :: older, hw => of_decide_eq_true hw
  | .toDefault :: older, hw => of_decide_eq_true hw
  | .giveBack m :: older, hw => by
    have : watching n older = true := by
      unfold watching at hw
      split at hw
      · cases hw
      · exact hw
    exact watching_chosen n older this

/-! ### What the loops do to one signal -/

theorem installOne_at (e : SigEnv) (s : SigState) (n : Int) (ha : e.accepts n = true) :
    (installOne e s n).disp n = .g3log ∧ (installOne e s n).saved n = some (s.disp n) := by
  unfold installOne
  rw [if_pos ha]
  exact ⟨setAt_same _ _ _, setAt_same _ _ _⟩

theorem installOne_other (e : SigEnv) (s : SigState) (m n : Int) (h : n ≠ m) :
    (installOne e s m).disp n = s.disp n ∧ (installOne e s m).saved n = s.saved n := by
  unfold installOne
  split
  · exact ⟨setAt_other _ _ h, setAt_other _ _ h⟩
  · exact ⟨rfl, rfl⟩

theorem installOne_set (e : SigEnv) (s : SigState) (m : Int) : (installOne e s m).gSignals = s.gSignals := by
  unfold installOne
  split <;> rfl

theorem installLoop_set (e : SigEnv) (l : List Int) (s : SigState) : (l.foldl (installOne e) s).gSignals = s.gSignals := by
  induction l generalizing s with
  | nil => rfl
  | cons m l ih => rw [List.foldl_cons, ih, installOne_set]

theorem installLoop_out (e : SigEnv) (n : Int) (l : List Int) (s : SigState) (h : n ∉ l) :
    (l.foldl (installOne e) s).disp n = s.disp n ∧ (l.foldl (installOne e) s).saved n = s.saved n := by
  induction l generalizing s with
  | nil => exact ⟨rfl, rfl⟩
  | cons m l ih =>
    obtain ⟨h1, h2⟩ := installOne_other e s m n (fun he => h (he ▸ List.mem_cons_self))
    obtain ⟨i1, i2⟩ := ih (installOne e s m) (fun hm => h (List.mem_cons_of_mem _ hm))
    exact ⟨i1.trans h1, i2.trans h2⟩

theorem installLoop_in (e : SigEnv) (n : Int) (ha : e.accepts n = true) (l : List Int) (hl : l.Nodup) (s : SigState) (h : n ∈ l) :
    (l.foldl (installOne e) s).disp n = .g3log ∧ (l.foldl (installOne e) s).saved n = some (s.disp n) := by
  induction l generalizing s with
  | nil => cases h
  | cons m l ih =>
    rw [List.foldl_cons]
    obtain ⟨hm, hl'⟩ := List.nodup_cons.mp hl
    by_cases hc : n = m
    · subst hc
      obtain ⟨h1, h2⟩ := installOne_at e s n ha
      obtain ⟨i1, i2⟩ := installLoop_out e n l (installOne e s n) hm
      exact ⟨i1.trans h1, i2.trans h2⟩
    · obtain ⟨h1, _⟩ := installOne_other e s m n hc
      have hin : n ∈ l := by
        rcases List.mem_cons.mp h with h | h
        · exact absurd h hc
        · exact h
      obtain ⟨i1, i2⟩ := ih hl' (installOne e s m) hin
      exact ⟨i1, i2.trans (by rw [h1])⟩

theorem installOne_refused (e : SigEnv) (s : SigState) (m n : Int) (ha : e.accepts n = false) :
    (installOne e s m).disp n = s.disp n ∧ (installOne e s m).saved n = s.saved n := by
  by_cases h : n = m
  · subst h
    unfold installOne
    rw [if_neg (by rw [ha]; simp)]
    exact ⟨rfl, rfl⟩
  · exact installOne_other e s m n h

theorem installLoop_refused (e : SigEnv) (n : Int) (ha : e.accepts n = false) (l : List Int) (s : SigState) :
    (l.foldl (installOne e) s).disp n = s.disp n ∧ (l.foldl (installOne e) s).saved n = s.saved n := by
  induction l generalizing s with
  | nil => exact ⟨rfl, rfl⟩
  | cons m l ih =>
    obtain ⟨h1, h2⟩ := installOne_refused e s m n ha
    obtain ⟨i1, i2⟩ := ih (installOne e s m)
    exact ⟨i1.trans h1, i2.trans h2⟩

theorem giveBack_set (e : SigEnv) (s : SigState) (m : Int) : (restoreSignalHandler e s m).gSignals = s.gSignals := by
  unfold restoreSignalHandler
  split
  · rfl
  · split <;> rfl

theorem giveBack_none (e : SigEnv) (s : SigState) (n m : Int) (h : s.saved n = none) :
    (restoreSignalHandler e s m).disp n = s.disp n ∧ (restoreSignalHandler e s m).saved n = none := by
  unfold restoreSignalHandler
  split
  · exact ⟨rfl, h⟩
  · cases hs : s.saved m with
    | none => exact ⟨rfl, h⟩
    | some old =>
      have hx : n ≠ m := by intro he; subst he; rw [h] at hs; cases hs
      dsimp only
      refine ⟨?_, by rw [setAt_other _ _ hx]; exact h⟩
      split
      · exact setAt_other _ _ hx
      · rfl

theorem giveBack_some (e : SigEnv) (s : SigState) (n : Int) (old : Disp) (ho : e.off = false) (ha : e.accepts n = true)
    (h : s.saved n = some old) :
    (restoreSignalHandler e s n).disp n = old ∧ (restoreSignalHandler e s n).saved n = none := by
  unfold restoreSignalHandler
  rw [ho, h]
  simp only [Bool.false_eq_true, if_false, ha, if_true]
  exact ⟨setAt_same _ _ _, setAt_same _ _ _⟩

theorem giveBack_other (e : SigEnv) (s : SigState) (m n : Int) (hx : n ≠ m) :
    (restoreSignalHandler e s m).disp n = s.disp n ∧ (restoreSignalHandler e s m).saved n = s.saved n := by
  unfold restoreSignalHandler
  split
  · exact ⟨rfl, rfl⟩
  · cases hs : s.saved m with
    | none => exact ⟨rfl, rfl⟩
    | some old =>
      dsimp only
      refine ⟨?_, setAt_other _ _ hx⟩
      split
      · exact setAt_other _ _ hx
      · rfl

theorem giveLoop_set (e : SigEnv) (l : List Int) (s : SigState) :
    (l.foldl (restoreSignalHandler e) s).gSignals = s.gSignals := by
  induction l generalizing s with
  | nil => rfl
  | cons m l ih => rw [List.foldl_cons, ih, giveBack_set]

theorem giveLoop_none (e : SigEnv) (n : Int) (l : List Int) (s : SigState) (h : s.saved n = none) :
    (l.foldl (restoreSignalHandler e) s).disp n = s.disp n ∧ (l.foldl (restoreSignalHandler e) s).saved n = none := by
  induction l generalizing s with
  | nil => exact ⟨rfl, h⟩
  | cons m l ih =>
    obtain ⟨h1, h2⟩ := giveBack_none e s n m h
    obtain ⟨i1, i2⟩ := ih (restoreSignalHandler e s m) h2
    exact ⟨i1.trans h1, i2⟩

theorem giveLoop_some (e : SigEnv) (n : Int) (old : Disp) (ho : e.off = false) (ha : e.accepts n = true) (l : List Int)
    (s : SigState) (hin : n ∈ l) (h : s.saved n = some old) :
    (l.foldl (restoreSignalHandler e) s).disp n = old ∧ (l.foldl (restoreSignalHandler e) s).saved n = none := by
  induction l generalizing s with
  | nil => cases hin
  | cons m l ih =>
    rw [List.foldl_cons]
    by_cases hc : n = m
    · subst hc
      obtain ⟨h1, h2⟩ := giveBack_some e s n old ho ha h
      obtain ⟨i1, i2⟩ := giveLoop_none e n l _ h2
      exact ⟨i1.trans h1, i2⟩
    · obtain ⟨_, h2⟩ := giveBack_other e s m n hc
      have hin' : n ∈ l := by
        rcases List.mem_cons.mp hin with h | h
        · exact absurd h hc
        · exact h
      exact ih (restoreSignalHandler e s m) hin' (h2.trans h)

/-- Giving back never brings a signal's own disposition in when only g3log's handler was saved. -/
theorem giveLoop_lost (e : SigEnv) (n : Int) (l : List Int) (s : SigState) (hd : s.disp n = .g3log)
    (h : s.saved n = none ∨ s.saved n = some .g3log) :
    (l.foldl (restoreSignalHandler e) s).disp n = .g3log ∧
      ((l.foldl (restoreSignalHandler e) s).saved n = none ∨ (l.foldl (restoreSignalHandler e) s).saved n = some .g3log) := by
  induction l generalizing s with
  | nil => exact ⟨hd, h⟩
  | cons m l ih =>
    rw [List.foldl_cons]
    have key : (restoreSignalHandler e s m).disp n = .g3log ∧
        ((restoreSignalHandler e s m).saved n = none ∨ (restoreSignalHandler e s m).saved n = some .g3log) := by
      by_cases hc : n = m
      · subst hc
        unfold restoreSignalHandler
        split
        · exact ⟨hd, h⟩
        · rcases h with h | h
          · rw [h]; exact ⟨hd, Or.inl h⟩
          · rw [h]
            dsimp only
            refine ⟨?_, Or.inl (setAt_same _ _ _)⟩
            split
            · exact setAt_same _ _ _
            · exact hd
      · obtain ⟨h1, h2⟩ := giveBack_other e s m n hc
        rw [h1, h2]; exact ⟨hd, h⟩
    exact ih _ key.1 key.2

/-! ### The state after any history -/

/-- What the calls made so far mean for signal `n`. -/
structure Holds (d0 : Int → Disp) (n : Int) (h : List SetUp) (s : SigState) : Prop where
  set : s.gSignals = chosen h
  free : spoilt n h = false → watching n h = false → s.disp n = d0 n ∧ s.saved n = none
  held : spoilt n h = false → watching n h = true → s.disp n = .g3log ∧ s.saved n = some (d0 n)
  lost : spoilt n h = true → s.disp n = .g3log ∧ (s.saved n = none ∨ s.saved n = some .g3log)

theorem chosen_nodup : ∀ h : List SetUp, (∀ c ∈ h, c.proper) → (chosen h).Nodup
  | [], _ => by decide
  | .init :: older, hp => chosen_nodup older (fun c hc => hp c (List.mem_cons_of_mem _ hc))
  | .choose l :: older, hp => hp (.choose l) List.mem_cons_self
  | .toDefault :: older, _ => by show ([4, 6, 8, 11, 15] : List Int).Nodup; decide
  | .giveBack m :: older, hp => chosen_nodup older (fun c hc => hp c (List.mem_cons_of_mem _ hc))

/-- After giving all back, a signal is its own again unless it is spoilt. -/
theorem holds_restored {e : SigEnv} {d0 : Int → Disp} {n : Int} {h : List SetUp} {s : SigState} (ho : e.off = false)
    (ha : e.accepts n = true) (hs : Holds d0 n h s) :
    (spoilt n h = false → (restoreAll e s).disp n = d0 n ∧ (restoreAll e s).saved n = none) ∧
    (spoilt n h = true → (restoreAll e s).disp n = .g3log ∧
      ((restoreAll e s).saved n = none ∨ (restoreAll e s).saved n = some .g3log)) := by
  unfold restoreAll
  constructor
  · intro hsp
    cases hw : watching n h with
    | false =>
      obtain ⟨f1, f2⟩ := hs.free hsp hw
      obtain ⟨i1, i2⟩ := giveLoop_none e n s.gSignals s f2
      exact ⟨i1.trans f1, i2⟩
    | true =>
      obtain ⟨f1, f2⟩ := hs.held hsp hw
      exact giveLoop_some e n (d0 n) ho ha s.gSignals s (hs.set ▸ watching_chosen n h hw) f2
  · intro hsp
    obtain ⟨f1, f2⟩ := hs.lost hsp
    exact giveLoop_lost e n s.gSignals s f1 f2

theorem holds_choose {e : SigEnv} {d0 : Int → Disp} {n : Int} {h : List SetUp} {s : SigState} (ho : e.off = false)
    (ha : e.accepts n = true) (hs : Holds d0 n h s) (l : List Int) (hl : l.Nodup) :
    Holds d0 n (.choose l :: h) (overrideSetupSignals e s l) := by
  obtain ⟨r1, r2⟩ := holds_restored ho ha hs
  have hsp : spoilt n (.choose l :: h) = spoilt n h := rfl
  have hw : watching n (.choose l :: h) = decide (n ∈ l) := rfl
  have hst : overrideSetupSignals e s l = l.foldl (installOne e) { restoreAll e s with gSignals := l } := by
    unfold overrideSetupSignals installSignalHandler
    rw [if_neg (by rw [ho]; simp)]
  rw [hst]
  by_cases hin : n ∈ l
  · obtain ⟨i1, i2⟩ := installLoop_in e n ha l hl { restoreAll e s with gSignals := l } hin
    refine ⟨installLoop_set e l _, ?_, ?_, ?_⟩
    · intro _ hw'; rw [hw] at hw'; simp [hin] at hw'
    · intro hsp' _
      exact ⟨i1, i2.trans (congrArg some (r1 (hsp ▸ hsp')).1)⟩
    · intro hsp'
      exact ⟨i1, Or.inr (i2.trans (congrArg some (r2 (hsp ▸ hsp')).1))⟩
  · obtain ⟨i1, i2⟩ := installLoop_out e n l { restoreAll e s with gSignals := l } hin
    refine ⟨installLoop_set e l _, ?_, ?_, ?_⟩
    · intro hsp' _
      exact ⟨i1.trans (r1 (hsp ▸ hsp')).1, i2.trans (r1 (hsp ▸ hsp')).2⟩
    · intro _ hw'; rw [hw] at hw'; simp [hin] at hw'
    · intro hsp'
      obtain ⟨a, b⟩ := r2 (hsp ▸ hsp')
      refine ⟨i1.trans a, ?_⟩
      rw [i2]; exact b

theorem holds_calls (e : SigEnv) (d0 : Int → Disp) (n : Int) (ho : e.off = false) (ha : e.accepts n = true) :
    ∀ h : List SetUp, (∀ c ∈ h, c.proper) → Holds d0 n h (afterSetUp e d0 h)
  | [], _ => ⟨rfl, fun _ _ => ⟨rfl, rfl⟩, fun _ hw => (nomatch hw), fun hsp => (nomatch hsp)⟩
  | .choose l :: older, hp =>
    holds_choose ho ha (holds_calls e d0 n ho ha older (fun c hc => hp c (List.mem_cons_of_mem _ hc))) l
      (hp (.choose l) List.mem_cons_self)
  | .toDefault :: older, hp => by
    have hk := holds_choose ho ha (holds_calls e d0 n ho ha older (fun c hc => hp c (List.mem_cons_of_mem _ hc)))
      [4, 6, 8, 11, 15] (by decide)
    have hst : afterSetUp e d0 (.toDefault :: older) = overrideSetupSignals e (afterSetUp e d0 older) [4, 6, 8, 11, 15] := by
      show restoreFatalHandlingToDefault e _ = _
      unfold restoreFatalHandlingToDefault
      rw [if_neg (by rw [ho]; simp)]
      rfl
    rw [hst]
    exact ⟨hk.set, hk.free, hk.held, hk.lost⟩
  | .giveBack m :: older, hp => by
    have hk := holds_calls e d0 n ho ha older (fun c hc => hp c (List.mem_cons_of_mem _ hc))
    have hsp : spoilt n (.giveBack m :: older) = spoilt n older := rfl
    have hw : watching n (.giveBack m :: older) = if m = n then false else watching n older := rfl
    show Holds d0 n _ (restoreSignalHandler e (afterSetUp e d0 older) m)
    refine ⟨(giveBack_set e _ m).trans hk.set, ?_, ?_, ?_⟩
    · intro hsp' hw'
      cases hwo : watching n older with
      | false =>
        obtain ⟨f1, f2⟩ := hk.free hsp' hwo
        obtain ⟨i1, i2⟩ := giveBack_none e (afterSetUp e d0 older) n m f2
        exact ⟨i1.trans f1, i2⟩
      | true =>
        rw [hw, hwo] at hw'
        have hm : m = n := by
          by_contra hc
          rw [if_neg hc] at hw'; cases hw'
        subst hm
        exact giveBack_some e _ m _ ho ha (hk.held hsp' hwo).2
    · intro hsp' hw'
      rw [hw] at hw'
      have hm : m ≠ n := by
        intro hc
        rw [if_pos hc] at hw'; cases hw'
      rw [if_neg hm] at hw'
      obtain ⟨f1, f2⟩ := hk.held hsp' hw'
      obtain ⟨i1, i2⟩ := giveBack_other e (afterSetUp e d0 older) m n (Ne.symm hm)
      exact ⟨i1.trans f1, i2.trans f2⟩
    · intro hsp'
      obtain ⟨f1, f2⟩ := hk.lost hsp'
      exact giveLoop_lost e n [m] _ f1 f2
  | .init :: older, hp => by
    have hp' : ∀ c ∈ older, c.proper := fun c hc => hp c (List.mem_cons_of_mem _ hc)
    have hk := holds_calls e d0 n ho ha older hp'
    have hsp : spoilt n (.init :: older) = (watching n older || spoilt n older) := rfl
    have hw : watching n (.init :: older) = decide (n ∈ chosen older) := rfl
    have hst : afterSetUp e d0 (.init :: older) = (chosen older).foldl (installOne e) (afterSetUp e d0 older) := by
      show installSignalHandler e _ = _
      unfold installSignalHandler
      rw [if_neg (by rw [ho]; simp), hk.set]
    rw [hst]
    refine ⟨(installLoop_set e _ _).trans hk.set, ?_, ?_, ?_⟩
    · intro hsp' hw'
      rw [hsp, Bool.or_eq_false_iff] at hsp'
      have hin : n ∉ chosen older := by rw [hw] at hw'; simpa using hw'
      obtain ⟨f1, f2⟩ := hk.free hsp'.2 hsp'.1
      obtain ⟨i1, i2⟩ := installLoop_out e n (chosen older) (afterSetUp e d0 older) hin
      exact ⟨i1.trans f1, i2.trans f2⟩
    · intro hsp' hw'
      rw [hsp, Bool.or_eq_false_iff] at hsp'
      have hin : n ∈ chosen older := by rw [hw] at hw'; simpa using hw'
      obtain ⟨f1, f2⟩ := hk.free hsp'.2 hsp'.1
      obtain ⟨i1, i2⟩ := installLoop_in e n ha (chosen older) (chosen_nodup older hp') (afterSetUp e d0 older) hin
      exact ⟨i1, i2.trans (congrArg some f1)⟩
    · intro hsp'
      rw [hsp, Bool.or_eq_true] at hsp'
      have hd : (afterSetUp e d0 older).disp n = .g3log := by
        cases hso : spoilt n older with
        | true => exact (hk.lost hso).1
        | false =>
          rcases hsp' with hwo | hso'
          · exact (hk.held hso hwo).1
          · rw [hso] at hso'; cases hso'
      by_cases hin : n ∈ chosen older
      · obtain ⟨i1, i2⟩ := installLoop_in e n ha (chosen older) (chosen_nodup older hp') (afterSetUp e d0 older) hin
        exact ⟨i1, Or.inr (i2.trans (congrArg some hd))⟩
      · obtain ⟨i1, i2⟩ := installLoop_out e n (chosen older) (afterSetUp e d0 older) hin
        have hso : spoilt n older = true := by
          rcases hsp' with hwo | hso
          · exact absurd (watching_chosen n older hwo) hin
          · exact hso
        refine ⟨i1.trans hd, ?_⟩
        rw [i2]; exact (hk.lost hso).2

/-- Signals the system lets nobody catch, and builds without signal handling: never touched. -/
theorem untouched_calls (e : SigEnv) (d0 : Int → Disp) (n : Int) (hoff : e.off = true ∨ e.accepts n = false) :
    ∀ h : List SetUp, (afterSetUp e d0 h).disp n = d0 n ∧ (afterSetUp e d0 h).saved n = none
  | [] => ⟨rfl, rfl⟩
  | c :: older => by
    obtain ⟨h1, h2⟩ := untouched_calls e d0 n hoff older
    have inst : ∀ s : SigState, s.disp n = d0 n → s.saved n = none →
        (installSignalHandler e s).disp n = d0 n ∧ (installSignalHandler e s).saved n = none := by
      intro s g1 g2
      unfold installSignalHandler
      split
      · exact ⟨g1, g2⟩
      · rename_i hno
        obtain ⟨i1, i2⟩ := installLoop_refused e n (hoff.resolve_left hno) s.gSignals s
        exact ⟨i1.trans g1, i2.trans g2⟩
    have over : ∀ l, (overrideSetupSignals e (afterSetUp e d0 older) l).disp n = d0 n ∧
        (overrideSetupSignals e (afterSetUp e d0 older) l).saved n = none := by
      intro l
      obtain ⟨g1, g2⟩ := giveLoop_none e n (afterSetUp e d0 older).gSignals _ h2
      exact inst _ (g1.trans h1) g2
    cases c with
    | init => exact inst _ h1 h2
    | choose l => exact over l
    | giveBack m =>
      obtain ⟨g1, g2⟩ := giveBack_none e _ n m h2
      exact ⟨g1.trans h1, g2⟩
    | toDefault =>
      show (restoreFatalHandlingToDefault e _).disp n = _ ∧ (restoreFatalHandlingToDefault e _).saved n = _
      unfold restoreFatalHandlingToDefault
      split
      · exact ⟨h1, h2⟩
      · exact over _

/-! ### C43, C44 -/

/-- C43, for every order and number of calls: g3log has a signal exactly if the last call concerning it asked
for that, or if the handlers were ever installed over themselves; otherwise the signal has the disposition the
program gave it. -/
theorem C43_any_order (e : SigEnv) (d0 : Int → Disp) (h : List SetUp) (hp : ∀ c ∈ h, c.proper) (n : Int) :
    (afterSetUp e d0 h).disp n =
      if e.off = false ∧ e.accepts n = true ∧ (watching n h = true ∨ spoilt n h = true) then .g3log else d0 n := by
  by_cases hu : e.off = true ∨ e.accepts n = false
  · rw [if_neg, (untouched_calls e d0 n hu h).1]
    rintro ⟨a, b, _⟩
    rcases hu with hu | hu
    · rw [a] at hu; cases hu
    · rw [b] at hu; cases hu
  · have ho : e.off = false := by cases hh : e.off <;> simp_all
    have ha : e.accepts n = true := by cases hh : e.accepts n <;> simp_all
    have hk := holds_calls e d0 n ho ha h hp
    cases hsp : spoilt n h with
    | true => rw [if_pos ⟨ho, ha, Or.inr rfl⟩]; exact (hk.lost hsp).1
    | false =>
      cases hw : watching n h with
      | true => rw [if_pos ⟨ho, ha, Or.inl rfl⟩]; exact (hk.held hsp hw).1
      | false => rw [if_neg (by simp)]; exact (hk.free hsp hw).1

/-- C43, for every order and number of calls: giving all chosen signals back returns a signal to the program
exactly if the handlers were never installed over themselves. -/
theorem C43_any_order_back (e : SigEnv) (d0 : Int → Disp) (hd : ∀ k, d0 k ≠ .g3log) (h : List SetUp) (hp : ∀ c ∈ h, c.proper)
    (ho : e.off = false) (n : Int) (ha : e.accepts n = true) :
    ((restoreAll e (afterSetUp e d0 h)).disp n = d0 n ↔ spoilt n h = false) ∧
    (spoilt n h = true → (restoreAll e (afterSetUp e d0 h)).disp n = .g3log) := by
  obtain ⟨r1, r2⟩ := holds_restored ho ha (holds_calls e d0 n ho ha h hp)
  refine ⟨⟨fun hh => ?_, fun hsp => (r1 hsp).1⟩, fun hsp => (r2 hsp).1⟩
  cases hsp : spoilt n h with
  | false => rfl
  | true => rw [(r2 hsp).1] at hh; exact absurd hh.symm (hd n)

/-- C44, exactly: after any calls in any order, the end of a fatal event for signal `n` is the one the program's
own disposition prescribes, unless the handlers were ever installed over themselves for `n`. In that case the
process sleeps for ever if the event came through a signal handler (`k` runs of it so far, gate closed), and
exits with code `n` if it came from LOG(FATAL) or CHECK. -/
theorem C44_exact (e : SigEnv) (r : RaiseEnv) (d0 : Int → Disp) (hd : ∀ k, d0 k ≠ .g3log) (h : List SetUp)
    (hp : ∀ c ∈ h, c.proper) (k : Nat) (b : Bool) (n : Int) :
    (exitWithDefaultSignalHandler e r ⟨afterSetUp e d0 h, k, b⟩ n).1 =
      if e.off = false ∧ e.accepts n = true ∧ spoilt n h = true then (if 1 ≤ k ∧ b = true then .hang else .exited n)
      else ending r (d0 n) n := by
  have own : (restoreAll e (afterSetUp e d0 h)).disp n = d0 n →
      (exitWithDefaultSignalHandler e r ⟨afterSetUp e d0 h, k, b⟩ n).1 = ending r (d0 n) n := by
    intro hh
    unfold exitWithDefaultSignalHandler ending
    simp only [hh]
    have := hd n
    cases hdn : d0 n with
    | dfl => dsimp only; split <;> rfl
    | ign => rfl
    | user x => dsimp only; split <;> rfl
    | g3log => exact absurd hdn this
  by_cases hu : e.off = true ∨ e.accepts n = false
  · rw [if_neg]
    · apply own
      obtain ⟨h1, h2⟩ := untouched_calls e d0 n hu h
      exact (giveLoop_none e n _ _ h2).1.trans h1
    · rintro ⟨a, b, _⟩
      rcases hu with hu | hu
      · rw [a] at hu; cases hu
      · rw [b] at hu; cases hu
  · have ho : e.off = false := by cases hh : e.off <;> simp_all
    have ha : e.accepts n = true := by cases hh : e.accepts n <;> simp_all
    obtain ⟨r1, r2⟩ := holds_restored ho ha (holds_calls e d0 n ho ha h hp)
    cases hsp : spoilt n h with
    | false => rw [if_neg (by simp)]; exact own (r1 hsp).1
    | true =>
      rw [if_pos ⟨ho, ha, rfl⟩]
      unfold exitWithDefaultSignalHandler
      simp only [(r2 hsp).1]
      unfold signalHandlerAtExit exitInsideHandler
      by_cases hc : 1 ≤ k ∧ b = true
      · rw [if_pos hc, if_pos ⟨(by show k ≠ 0; omega), hc.2⟩]
      · rw [if_neg hc, if_neg]
        intro hh
        exact hc ⟨(by have : k ≠ 0 := hh.1; omega), hh.2⟩

/-- C44: with one installation, as the first `initializeLogging` makes it, what matters is only whether the signal
was watched at that moment. Calls made afterwards neither cause the defect nor cure it. -/
theorem C44_one_init (n : Int) (later earlier : List SetUp) (h1 : SetUp.init ∉ later) (h2 : SetUp.init ∉ earlier) :
    spoilt n (later ++ .init :: earlier) = watching n earlier := by
  have none : ∀ h : List SetUp, SetUp.init ∉ h → ∀ rest, spoilt n (h ++ rest) = spoilt n rest := by
    intro h
    induction h with
    | nil => intro _ _; rfl
    | cons c h ih =>
      intro hc rest
      have := ih (fun hh => hc (List.mem_cons_of_mem _ hh)) rest
      cases c with
      | init => exact absurd List.mem_cons_self hc
      | choose l => exact this
      | giveBack m => exact this
      | toDefault => exact this
  rw [none later h1]
  show (watching n earlier || spoilt n earlier) = _
  have he := none earlier h2 []
  rw [List.append_nil] at he
  rw [he]
  show (_ || false) = _
  rw [Bool.or_false]

/-- Chosen, given back, initialised, chosen again: signal 11 is fine, signal 2 (not given back) is spoilt. -/
example : spoilt 11 [.choose [11], .init, .giveBack 11, .choose [11, 2]] = false ∧
    spoilt 2 [.choose [11], .init, .giveBack 11, .choose [11, 2]] = true ∧
    (∀ c ∈ [SetUp.choose [11], .init, .giveBack 11, .choose [11, 2]], c.proper) := by
  refine ⟨by decide, by decide, ?_⟩
  intro c hc
  simp only [List.mem_cons, List.not_mem_nil, or_false] at hc
  rcases hc with rfl | rfl | rfl | rfl
  · show List.Nodup _; decide
  · trivial
  · trivial
  · show List.Nodup _; decide

end G3.Props
