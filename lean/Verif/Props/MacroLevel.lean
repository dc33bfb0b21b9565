import Verif.Props.MacroText
import Verif.Props.Levels
/-
C100: the level of a message is the level that was tested.
-/
namespace G3.Props
open G3 G3.Spec

variable {L X W : Type}

instance (l : Level) (s : MState W) : Decidable (isOn l s) := inferInstanceAs (Decidable (_ = _))

/-- C100 where it holds: a level that has a fixed value and no side effect, like the levels of the library. Then the statements are those of C24 and
C25. -/
theorem C100_partial (μ : Meaning L X W) (l : L) (v : Level) (h : ∀ s, μ.level l s = (v, s)) (c x : X) (s : MState W) :
    MacroCall.does μ (.log l x) s = LOG v (μ.text x) s ∧ MacroCall.does μ (.logF l x) s = LOG v (μ.text x) s ∧
    MacroCall.does μ (.logIf l c x) s = LOG_IF v (μ.cond c) (μ.text x) s ∧ MacroCall.does μ (.logIfF l c x) s = LOG_IF v (μ.cond c) (μ.text x) s ∧
    MacroCall.does μ (.check c x) s = CHECK (μ.spell c) (μ.cond c) (μ.text x) s ∧
    MacroCall.does μ (.checkF c x) s = CHECK (μ.spell c) (μ.cond c) (μ.text x) s ∧
    MacroCall.does μ (.check_F c x) s = CHECK (μ.spell c) (μ.cond c) (μ.text x) s := by
  have h1 : MacroCall.does μ (.log l x) s = LOG v (μ.text x) s := by
    simp only [MacroCall.does, LOG, h]
    by_cases ht : (testLevel v s).1 = true <;> simp [ht]
  have h2 : MacroCall.does μ (.logIf l c x) s = LOG_IF v (μ.cond c) (μ.text x) s := by
    simp only [MacroCall.does, LOG_IF, h]
    by_cases ht : (testLevel v s).1 = true
    · by_cases hb : (μ.cond c (testLevel v s).2).1 = 0
      · simp [ht, hb]
      · simp [ht, hb, Ne.symm hb]
    · simp [ht]
  have h3 : MacroCall.does μ (.check c x) s = CHECK (μ.spell c) (μ.cond c) (μ.text x) s := by
    simp only [MacroCall.does, CHECK]
    by_cases hb : (μ.cond c s).1 = 1
    · simp [hb]
    · simp [hb, Ne.symm hb]
  exact ⟨h1, h1, h2, h2, h3, h3, h3⟩

/-- The level expression counts its evaluations, nothing else of the program changes the count. -/
structure Counted (μ : Meaning L X (Nat × W)) : Prop where
  level : ∀ l s, (μ.level l s).2.world.1 = s.world.1 + 1
  cond : ∀ c s, (μ.cond c s).2.world.1 = s.world.1
  text : ∀ x s, (μ.text x s).2.world.1 = s.world.1

/-- C100, exact: LOG and LOGF evaluate their level once if the message is not logged, and twice if it is; LOG_IF and LOGF_IF as well; CHECK has
no level. The condition of `CHECK` and `LOG_IF` is looked at once. -/
theorem C100_count {μ : Meaning L X (Nat × W)} (h : Counted μ) (l : L) (c x : X) (s : MState (Nat × W)) :
    (MacroCall.does μ (.log l x) s).world.1 = s.world.1 + (if isOn (μ.level l s).1 (μ.level l s).2 then 2 else 1) ∧
    (MacroCall.does μ (.logIf l c x) s).world.1 =
      s.world.1 + (if isOn (μ.level l s).1 (μ.level l s).2 ∧ (μ.cond c (μ.level l s).2).1 ≠ 0 then 2 else 1) ∧
    (MacroCall.does μ (.check c x) s).world.1 = s.world.1 := by
  obtain ⟨t1, t2, t3, t4⟩ := testLevel_spec (μ.level l s).1 (μ.level l s).2
  refine ⟨?_, ?_, ?_⟩
  · simp only [MacroCall.does]
    by_cases ht : (testLevel (μ.level l s).1 (μ.level l s).2).1 = true
    · rw [if_pos ht, if_pos (t1.1 ht)]
      simp only [emit, h.text, h.level, t3]
    · rw [if_neg ht, if_neg (fun e => ht (t1.2 e)), t3, h.level]
  · simp only [MacroCall.does]
    by_cases ht : (testLevel (μ.level l s).1 (μ.level l s).2).1 = true
    · have hs : (testLevel (μ.level l s).1 (μ.level l s).2).2 = (μ.level l s).2 :=
        t4 (by have := t1.1 ht; rw [isOn] at this; rw [this]; decide)
      rw [if_pos ht, hs]
      by_cases hb : (μ.cond c (μ.level l s).2).1 = 0
      · rw [if_neg (by simpa using hb), if_neg (fun e => e.2 hb), h.cond, h.level]
      · rw [if_pos hb, if_pos ⟨t1.1 ht, hb⟩]
        simp only [emit, h.text, h.level, h.cond]
    · rw [if_neg ht, if_neg (fun e => ht (t1.2 e.1)), t3, h.level]
  · simp only [MacroCall.does]
    split
    · exact h.cond _ _
    · simp only [emit, h.text, h.cond]

/-- C100, exact: whether a message is logged depends on the status of the level at the first evaluation, the message has the level of the second. -/
theorem C100_second (μ : Meaning L X W) (l : L) (x : X) (s : MState W) :
    (¬ isOn (μ.level l s).1 (μ.level l s).2 → (MacroCall.does μ (.log l x) s).out = (μ.level l s).2.out) ∧
    (isOn (μ.level l s).1 (μ.level l s).2 → ∀ v s1 t s2, μ.level l (μ.level l s).2 = (v, s1) → μ.text x s1 = (t, s2) →
      (MacroCall.does μ (.log l x) s).out = s2.out ++ [⟨v, [], t⟩]) := by
  obtain ⟨t1, t2, t3, t4⟩ := testLevel_spec (μ.level l s).1 (μ.level l s).2
  simp only [MacroCall.does]
  constructor
  · intro h
    rw [if_neg (fun e => h (t1.1 e)), t2]
  · intro h v s1 t s2 e1 e2
    have hs : (testLevel (μ.level l s).1 (μ.level l s).2).2 = (μ.level l s).2 := t4 (by rw [isOn] at h; rw [h]; decide)
    rw [if_pos (t1.2 h), hs, e1]
    simp only [emit, e2]

/-- A program with a level that another thread or a call switches between two values: `LOG(verbose ? DEBUG : INFO)`; the world is `verbose`, which
every evaluation finds changed. -/
def switching : Meaning Unit Unit Bool where
  level _ s := (if s.world then DEBUG else INFO, { s with world := !s.world })
  cond _ s := (1, s)
  act _ s := s
  text _ s := ("x".toList, s)
  spell _ := []

/-- C100 fails: DEBUG is disabled all the time, but a message of level DEBUG is logged; and a message of level INFO, which is enabled all the time,
is not. -/
theorem C100_negation :
    let s : MState Bool := ⟨disable DEBUG defaultLevels, [], false⟩
    let s' := MacroCall.does switching (.log () ()) s
    s'.out = [⟨DEBUG, [], "x".toList⟩] ∧ ¬ isOn DEBUG s ∧ ¬ isOn DEBUG s' ∧
    (MacroCall.does switching (.log () ()) { s with world := true }).out = [] := by
  decide +kernel

example : ∀ s : MState Unit, (⟨fun l s => (l, s), fun _ s => (1, s), fun _ s => s, fun _ s => ([], s), fun _ => []⟩ : Meaning Level Unit Unit).level INFO s =
    (INFO, s) := fun _ => rfl

example : Counted (⟨fun _ s => (INFO, { s with world := (s.world.1 + 1, ()) }), fun _ s => (1, s), fun _ s => s, fun _ s => ([], s), fun _ => []⟩ :
    Meaning Unit Unit (Nat × Unit)) := ⟨fun _ _ => rfl, fun _ _ => rfl, fun _ _ => rfl⟩

end G3.Props
