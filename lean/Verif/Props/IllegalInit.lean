import Verif.Proofs.IllegalInit
/- C104: illegal initialisations. -/
namespace G3.Props
open G3 G3.Spec

variable {s : JState}

/-- **C104**, who wins: whatever the threads do at the same time, an initialisation succeeds exactly if no worker is in use and it is given one; the others are illegal. -/
theorem C104_rule (h : JReach s) : inUse s.hist none = some s.active := (jInv_reach h).rule

theorem inUse_split (l m : List JEvent) (x a : Option Nat) (h : inUse (l ++ m) x = some a) : ∃ b, inUse l x = some b ∧ inUse m b = some a := by
  induction l generalizing x with
  | nil => exact ⟨x, rfl, h⟩
  | cons e l ih =>
    rw [List.cons_append] at h
    cases e with
    | on w => cases x with
      | none => exact ih _ h
      | some v => cases h
    | off => exact ih _ (by cases x <;> exact h)
    | illegal w => cases w with
      | none => cases x <;> exact ih _ h
      | some v => cases x with
        | none => cases h
        | some u => exact ih _ h

/-- C104: a worker is put in use only when none is in use, and an attempt to put one in use fails only when one is. -/
theorem C104_never_replaced (h : JReach s) (l m : List JEvent) (w : Nat) :
    (s.hist = l ++ .on w :: m → inUse l none = some none) ∧ (s.hist = l ++ .illegal (some w) :: m → ∃ v, inUse l none = some (some v)) := by
  have hr := C104_rule h
  refine ⟨fun e => ?_, fun e => ?_⟩ <;> rw [e] at hr <;> obtain ⟨b, h1, h2⟩ := inUse_split _ _ _ _ hr
  · cases b with
    | none => exact h1
    | some v => cases h2
  · cases b with
    | none => cases h2
    | some v => exact ⟨v, h1⟩

/-- **C104**, the number with which the process ends is that of failure, and everything handed to a worker with static storage duration is with its sinks. -/
theorem C104_status (h : JReach s) (ho : s.over ≠ none) : s.over = some 1 ∧ ∀ i, i < s.n → (s.ws i).static = true → (s.ws i).got = (s.ws i).sent := by
  have hI := jInv_reach h
  obtain ⟨h1, t, ht⟩ := hI.over ho
  refine ⟨h1, fun i hn hs => ?_⟩
  rcases hI.inExit t [] (by rw [ht]; rfl) i hn hs with a | ⟨_, b | b⟩
  · cases a
  · rw [hI.sent i, b, List.append_nil]
  · rw [ht] at b; cases b

/-- **C104**, the process hangs: if a static worker is in use, or if there is a static worker and none is in use, an illegal initialisation never ends the process; and nobody gets the mutex any more. -/
theorem C104_hangs {t : Nat} {w : Option Nat} (h : JReach s) (hi : IllegalAt s t w) (hf : ¬ Free s) (ls : List JLabel) (s' : JState) (e : s.run ls = some s') :
    s'.over = none ∧ s'.lock = some t := by
  have hI := jInv_reach h
  have hd := jDoomed_run ls hI (Or.inr ⟨w, hi, hf⟩) e
  obtain ⟨a, b⟩ := jDoomed_holds hd
  exact ⟨a, (jInv_run ls hI e).held t b⟩

/-- **C104** as far as it holds: if each static worker is one that is not in use, and another worker is, or if there is none at all, the process ends: the number of steps it needs is never increased by anybody, and there is always
a step that decreases it, of the thread itself or of the worker it waits for. (What is missing is false: `C104_negation`.) -/
theorem C104_ends_partial {t : Nat} {w : Option Nat} (h : JReach s) (hi : IllegalAt s t w) (hf : Free s) : ∃ left : JState → Nat,
    ∀ ls s', s.run ls = some s' → s'.over = some 1 ∨
      ((∀ l s'', s'.step l = some s'' → left s'' ≤ left s') ∧ ∃ l s'', (l = .step t ∨ ∃ i, l = .work i) ∧ s'.step l = some s'' ∧ left s'' < left s') := by
  refine ⟨jTotal t, ?_⟩
  have main : ∀ (ls : List JLabel) (s s' : JState), JInv s → (JGood s t ∨ s.over = some 1) → s.run ls = some s' → JInv s' ∧ (JGood s' t ∨ s'.over = some 1) := by
    intro ls
    induction ls with
    | nil => intro s s' hI hg e; cases e; exact ⟨hI, hg⟩
    | cons l ls ih =>
      intro s s' hI hg e
      unfold JState.run at e
      cases hl : s.step l with
      | none => rw [hl] at e; cases e
      | some s1 =>
        rw [hl] at e
        rcases hg with hg | hg
        · exact ih s1 s' (jInv_step hI l hl) (jGood_any hI hg l hl).1 e
        · unfold JState.step at hl; rw [if_neg (by rw [hg]; simp)] at hl; cases hl
  intro ls s' e
  obtain ⟨hI', hg | hg⟩ := main ls s s' (jInv_reach h) (Or.inl (Or.inr ⟨w, hi, hf⟩)) e
  · refine Or.inr ⟨fun l s'' e' => (jGood_any hI' hg l e').2, ?_⟩
    rcases hg with hg | ⟨w', hi', hf'⟩
    · obtain ⟨l, hl, s'', e', hlt, hg'⟩ := jFree_step hg
      have hl' : l = .step t ∨ ∃ i, l = .work i := by
        rcases hl with hl | ⟨hl, _⟩
        · exact Or.inl hl
        · exact Or.inr hl
      refine ⟨l, s'', hl', e', ?_⟩
      rcases hg' with hg' | hg'
      · rw [jTotal_free hg', jTotal_free hg]; exact hlt
      · have h0 : jLeft s'' t = 0 := by unfold jLeft; rw [if_neg (by rw [hg']; simp)]
        have hI'' := jInv_step hI' l e'
        obtain ⟨_, u, hu⟩ := hI''.over (by rw [hg']; simp)
        have hnot : ∀ x, s''.pcs t ≠ .initIn x := by
          intro x hx
          have a := hI''.held t (by rw [hx]; rfl)
          have b := hI''.held u (by rw [hu]; rfl)
          rw [a] at b; injection b with b; subst b
          rw [hx] at hu; cases hu
        have : jTotal t s'' = jLeft s'' t := by
          unfold jTotal
          split
          · next x hx => exact absurd hx (hnot x)
          · rfl
        rw [this, jTotal_free hg]; exact hlt
    · exact ⟨.step t, _, Or.inl rfl, jIllegal_step hi', jGood_after hi' hf'⟩
  · exact Or.inl hg

/-- **C104**, exactly: an illegal initialisation can end the process if and only if each static worker is one that is not in use while another is. -/
theorem C104_exact {t : Nat} {w : Option Nat} (h : JReach s) (hi : IllegalAt s t w) : (∃ ls s', s.run ls = some s' ∧ s'.over ≠ none) ↔ Free s := by
  constructor
  · rintro ⟨ls, s', e, ho⟩
    exact Classical.byContradiction fun hf => ho (C104_hangs h hi hf ls s' e).1
  · intro hf
    obtain ⟨ls, s', e, ho⟩ := jFree_ends _ (Nat.le_refl _) (jIllegal_free hi hf)
    exact ⟨.step t :: ls, s', by unfold JState.run; rw [jIllegal_step hi]; exact e, by rw [ho]; simp⟩

/-- **C104**, in particular: a worker that is in use and static, and somebody initialises again: the process hangs. -/
theorem C104_static {t v : Nat} {w : Option Nat} (h : JReach s) (hi : IllegalAt s t w) (hv : s.active = some v) (hn : v < s.n) (hs : (s.ws v).static = true) (ls : List JLabel) (s' : JState)
    (e : s.run ls = some s') : s'.over = none := by
  have hI := jInv_reach h
  refine (C104_hangs h hi (fun hf => ?_) ls s' e).1
  have hal : (s.ws v).alive = true := by
    refine hI.before (fun u => ?_) v hs
    cases hu : jTodo (s.pcs u) with
    | none => rfl
    | some r =>
      have a := hI.held u (jTodo_holds hu)
      have b := hI.held t (by rw [hi.2.1]; rfl)
      rw [a] at b; injection b with b; subst b
      rw [hi.2.1] at hu; cases hu
  obtain ⟨v', a, b⟩ := hf v hn hs hal
  rw [hv] at a; injection a with a; exact b a.symm

/-- A static worker is put in use, something is logged, the program initialises once more. -/
def twice : List JLabel := [.call 0 (.init (some 0)), .step 0, .step 0, .call 0 (.log 7), .call 0 (.init (some 0)), .step 0]

/-- Somebody initialises without a worker. -/
def without : List JLabel := [.call 0 (.init none), .step 0]

/-- The same as `twice`, until the end. -/
def twiceEnd : List JLabel := twice ++ [.step 0, .step 0]

/-- **C104** is false: with one static worker the second initialisation hangs for ever, and so does one without a worker; with a worker that is not static the process ends, but what was logged before is lost. -/
theorem C104_negation :
    (∃ s, (JState.start 1 fun _ => true).run twice = some s ∧ IllegalAt s 0 (some 0) ∧ ∀ ls s', s.run ls = some s' → s'.over = none) ∧
    (∃ s, (JState.start 1 fun _ => true).run without = some s ∧ IllegalAt s 0 none ∧ ∀ ls s', s.run ls = some s' → s'.over = none) ∧
    (∃ s, (JState.start 1 fun _ => false).run twiceEnd = some s ∧ s.over = some 1 ∧ (s.ws 0).sent = [.msg 7] ∧ (s.ws 0).got = []) := by
  refine ⟨⟨_, rfl, ⟨rfl, rfl, Or.inr (by decide)⟩, fun ls s' e => ?_⟩, ⟨_, rfl, ⟨rfl, rfl, Or.inl rfl⟩, fun ls s' e => ?_⟩, ⟨_, rfl, rfl, rfl, rfl⟩⟩
  · exact C104_static (t := 0) (v := 0) (w := some 0) ⟨1, fun _ => true, twice, rfl⟩ ⟨rfl, rfl, Or.inr (by decide)⟩ rfl (by decide) rfl ls s' e
  · refine (C104_hangs (t := 0) (w := none) ⟨1, fun _ => true, without, rfl⟩ ⟨rfl, rfl, Or.inl rfl⟩ (fun hf => ?_) ls s' e).1
    obtain ⟨v, hv, _⟩ := hf 0 (by decide) rfl rfl
    cases hv

/-! ### Examples -/

/-- Worker 0 is static and not in use, worker 1 is in use and not static; a second initialisation while another thread is destroying nothing. -/
example : ∃ s, (JState.start 2 fun w => w == 0).run [.call 0 (.init (some 1)), .step 0, .step 0, .call 3 (.init (some 0)), .step 3] = some s ∧ IllegalAt s 3 (some 0) ∧ Free s := by
  refine ⟨_, rfl, ⟨rfl, rfl, Or.inr (by decide)⟩, ?_⟩
  intro i hn hs _
  refine ⟨1, rfl, ?_⟩
  rintro rfl
  cases hs

/-- Two threads initialise at the same time: one wins. -/
example : ((JState.start 2 fun _ => false).run [.call 0 (.init (some 0)), .call 1 (.init (some 1)), .step 1, .step 1, .step 0, .step 0]).map (fun s => (s.hist, s.active)) =
    some ([.on 1, .illegal (some 0)], some 1) := rfl

/-- A static worker that has something to do when the process ends. -/
example : ((JState.start 2 fun w => w == 0).run [.call 0 (.init (some 0)), .step 0, .step 0, .call 0 (.log 5), .call 0 .shutDown, .step 0, .step 0, .call 0 (.init (some 1)), .step 0, .step 0,
    .call 0 (.init none), .step 0, .step 0, .step 0, .step 0, .work 0, .step 0, .step 0]).map (fun s => (s.over, (s.ws 0).got)) = some (some 1, [.msg 5]) := rfl

end G3.Props
