import Verif.Props.SinkUseSelf
/-
C94: who calls a sink holds a reference to it.
-/
namespace G3.Props
open G3 G3.Spec

variable {M : Type}

/-- The clients take a reference to sink j. -/
def clientHold (j : Nat) : ULabel M → Bool
  | .base (.hold k) => decide (k = j)
  | _ => false

/-- The clients give one up. -/
def clientDrop (j : Nat) : ULabel M → Bool
  | .base (.release k) => decide (k = j)
  | _ => false

/-- The callback of sink i takes a reference to sink j. -/
def sinkHold (i j : Nat) : ULabel M → Bool
  | .hold a b => decide (a = i) && decide (b = j)
  | _ => false

/-- It gives one up. -/
def sinkDrop (i j : Nat) : ULabel M → Bool
  | .release a b => decide (a = i) && decide (b = j)
  | _ => false

theorem own_step {u u' : UState M} {l : ULabel M} (hs : uStep u l = some u') :
    (∀ j, u'.mine j + (clientDrop j l).toNat = u.mine j + (clientHold j l).toNat) ∧
    (∀ i j, (u'.held i).count j + (sinkDrop i j l).toNat = (u.held i).count j + (sinkHold i j l).toNat) := by
  obtain ⟨_, ht⟩ := uTr_of_step hs
  have put : ∀ {α : Type} (f : Nat → α) (a : Nat) (x : α) (b : Nat), putAt f a x b = if b = a then x else f b := fun _ _ _ _ => rfl
  have er : ∀ (f : Nat → List Nat) (a b : Nat), b ∈ f a → ∀ i j, (putAt f a ((f a).erase b) i).count j + (decide (a = i) && decide (b = j)).toNat = (f i).count j := by
    intro f a b hb i j
    rw [put]
    by_cases e : i = a
    · subst e
      by_cases e2 : b = j
      · subst e2
        have := List.count_pos_iff.2 hb
        simp only [if_true, List.count_erase_self, decide_true, Bool.and_self, Bool.toNat_true]
        omega
      · simp [List.count_erase_of_ne (Ne.symm e2), e2]
    · simp [e, Ne.symm e]
  cases ht with
  | base l w hb hw =>
    refine ⟨?_, fun i j => by simp [sinkDrop, sinkHold]⟩
    intro j
    cases l <;> simp only [mineAfter, clientDrop, clientHold, Bool.toNat_false, Nat.add_zero]
    case hold k =>
      rw [put]
      by_cases e : j = k
      · subst e; simp
      · simp [e, Ne.symm e]
    case release k =>
      rw [put]
      simp only [baseOk, decide_eq_true_eq] at hb
      by_cases e : j = k
      · subst e; simp; omega
      · simp [e, Ne.symm e]
  | hold a b w _ _ =>
    refine ⟨fun j => by simp [clientDrop, clientHold], ?_⟩
    intro i j
    simp only [sinkDrop, sinkHold, Bool.toNat_false, Nat.add_zero, put]
    by_cases e : i = a
    · subst e
      by_cases e2 : b = j
      · subst e2; simp
      · simp [e2]
    · simp [e, Ne.symm e]
  | relKeep a b w _ hm _ _ => exact ⟨fun j => by simp [clientDrop, clientHold], fun i j => by simpa [sinkDrop, sinkHold] using er u.held a b hm i j⟩
  | relSelf a w _ hm _ _ => exact ⟨fun j => by simp [clientDrop, clientHold], fun i j => by simpa [sinkDrop, sinkHold] using er u.held a a hm i j⟩
  | relEnd a b w _ hm _ _ _ => exact ⟨fun j => by simp [clientDrop, clientHold], fun i j => by simpa [sinkDrop, sinkHold] using er u.held a b hm i j⟩
  | syncUb i l l' w hl => cases hl <;> exact ⟨fun j => by simp [clientDrop, clientHold], fun i j => by simp [sinkDrop, sinkHold]⟩
  | sync i l l' w hl => cases hl <;> exact ⟨fun j => by simp [clientDrop, clientHold], fun i j => by simp [sinkDrop, sinkHold]⟩
  | _ => exact ⟨fun j => by simp [clientDrop, clientHold], fun i j => by simp [sinkDrop, sinkHold]⟩

theorem own_run : ∀ {ls : List (ULabel M)} {u u' : UState M}, uRun u ls = some u' →
    (∀ j, u'.mine j + ls.countP (clientDrop j) = u.mine j + ls.countP (clientHold j)) ∧
    (∀ i j, (u'.held i).count j + ls.countP (sinkDrop i j) = (u.held i).count j + ls.countP (sinkHold i j)) := by
  intro ls
  induction ls with
  | nil => intro u u' h; cases h; simp
  | cons l ls ih =>
    intro u u' h
    obtain ⟨v, hv, hr⟩ := Option.bind_eq_some_iff.1 h
    obtain ⟨a, b⟩ := own_step hv
    obtain ⟨c, d⟩ := ih hr
    have cp : ∀ p : ULabel M → Bool, (l :: ls).countP p = ls.countP p + (p l).toNat := by
      intro p
      cases e : p l <;> simp [List.countP_cons, e]
    refine ⟨fun j => ?_, fun i j => ?_⟩
    · have := a j; have := c j; rw [cp, cp]; omega
    · have := b i j; have := d i j; rw [cp, cp]; omega

/-- C94: clients call a sink, or give it up, only if they have taken more references to it than they have given up; the same for the callback of every
sink: no call is made through a reference that someone else holds. -/
theorem C94_own {ls : List (ULabel M)} {l : ULabel M} {u : UState M} (h : uRun UState.start (ls ++ [l]) = some u) :
    (∀ j, ((∃ c, l = .base (.call j c)) ∨ l = .base (.release j)) → ls.countP (clientDrop j) < ls.countP (clientHold j)) ∧
    (∀ i j, ((∃ c, l = .call i j c) ∨ l = .release i j) → ls.countP (sinkDrop i j) < ls.countP (sinkHold i j)) := by
  have sp : ∃ v, uRun UState.start ls = some v ∧ uStep v l = some u := by
    have gen : ∀ (ls : List (ULabel M)) (a : UState M), uRun a (ls ++ [l]) = some u → ∃ v, uRun a ls = some v ∧ uStep v l = some u := by
      intro ls
      induction ls with
      | nil =>
        intro a e
        obtain ⟨v, hv, hr⟩ := Option.bind_eq_some_iff.1 e
        cases hr
        exact ⟨a, rfl, hv⟩
      | cons x ls ih =>
        intro a e
        obtain ⟨v, hv, hr⟩ := Option.bind_eq_some_iff.1 e
        obtain ⟨v', h1, h2⟩ := ih v hr
        exact ⟨v', by simp only [uRun, hv, Option.bind_some, h1], h2⟩
    exact gen ls _ h
  obtain ⟨v, hv, hs⟩ := sp
  obtain ⟨a, b⟩ := own_run hv
  obtain ⟨_, ht⟩ := uTr_of_step hs
  refine ⟨?_, ?_⟩
  · rintro j (⟨c, rfl⟩ | rfl) <;>
    · cases ht with
      | base _ w hb =>
        simp only [baseOk, decide_eq_true_eq] at hb
        have := a j
        simp only [UState.start] at this
        omega
      | syncUb _ _ _ _ hl => cases hl
      | sync _ _ _ _ hl => cases hl
  · intro i j hl
    have hm : j ∈ v.held i := by
      rcases hl with ⟨c, rfl⟩ | rfl
      · cases ht with
        | call _ _ _ w _ hm => exact hm
        | syncUb _ _ _ _ hl => cases hl
        | sync _ _ _ _ hl => cases hl
      · cases ht with
        | relKeep _ _ w _ hm => exact hm
        | relSelf _ w _ hm => exact hm
        | relEnd _ _ w _ hm => exact hm
        | syncUb _ _ _ _ hl => cases hl
        | sync _ _ _ _ hl => cases hl
    have := List.count_pos_iff.2 hm
    have := b i j
    simp only [UState.start, List.count_nil] at this
    omega

/-- Not vacuous: a client calls the sink through its own reference, while the callback of the sink holds another. -/
example : ∃ u, uRun (UState.start : UState Nat) ((oneBusy ++ [.hold 0 0, .base (.hold 0)]) ++ [.base (.call 0 7)]) = some u := ⟨_, rfl⟩

/-- The reference of the callback is not one of the clients: without their own they cannot call. -/
example : uRun (UState.start : UState Nat) ((oneBusy ++ [.hold 0 0]) ++ [.base (.call 0 7)]) = none := rfl

end G3.Props
