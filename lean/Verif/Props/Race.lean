import Verif.Model.Race
import Verif.Spec.Race
/-
C14: exactly when a LOG call touches a missing worker.
-/
namespace G3.Props
open G3 G3.Spec

theorem before_old {x : RLabel} {ls : List RLabel} (h : x ∈ ls) (l : RLabel) : before x (ls ++ [l]) = before x ls := by
  unfold before
  induction ls with
  | nil => simp at h
  | cons y r ih =>
    by_cases hy : y = x
    · subst hy; simp
    · have : x ∈ r := by
        rcases List.mem_cons.mp h with hh | hh
        · exact absurd hh.symm hy
        · exact hh
      simp only [List.cons_append, List.takeWhile_cons, ne_eq, hy, not_false_eq_true, decide_true, if_true, List.cons.injEq, true_and]
      exact ih this

theorem before_all {x : RLabel} {ls : List RLabel} (h : x ∉ ls) : before x (ls ++ [x]) = ls := by
  unfold before
  induction ls with
  | nil => simp
  | cons y r ih =>
    have hy : y ≠ x := fun hh => h (hh ▸ List.mem_cons_self)
    simp only [List.cons_append, List.takeWhile_cons, ne_eq, hy, not_false_eq_true, decide_true, if_true, List.cons.injEq, true_and]
    exact ih (fun hh => h (List.mem_cons_of_mem _ hh))

/-- Where thread t is, told by the events so far. -/
def RAt (w t : Nat) (ls : List RLabel) : LPc → Prop
  | .out => .check t ∉ ls ∧ .load t ∉ ls ∧ .call t ∉ ls
  | .passed => .check t ∈ ls ∧ .load t ∉ ls ∧ .call t ∉ ls ∧ .shutdown ∉ before (.check t) ls
  | .loaded v => .check t ∈ ls ∧ .load t ∈ ls ∧ .call t ∉ ls ∧ .shutdown ∉ before (.check t) ls ∧
      (.shutdown ∈ before (.load t) ls ∧ v = none ∨ .shutdown ∉ before (.load t) ls ∧ v = some w)
  | .done => .check t ∈ ls ∧ (.load t ∉ ls ∧ .call t ∉ ls ∧ .shutdown ∈ before (.check t) ls ∨
      .load t ∈ ls ∧ .call t ∈ ls ∧ .shutdown ∉ before (.check t) ls ∧ .shutdown ∉ before (.load t) ls ∧ .destroy w ∉ before (.call t) ls)
  | .faulty => .check t ∈ ls ∧ .load t ∈ ls ∧ .call t ∈ ls ∧ .shutdown ∉ before (.check t) ls ∧
      (.shutdown ∈ before (.load t) ls ∨ .destroy w ∈ before (.call t) ls)

/-- Events of others change nothing for t. -/
theorem rat_other {w t : Nat} {ls : List RLabel} {p : LPc} (h : RAt w t ls p) (l : RLabel) (h1 : l ≠ .check t) (h2 : l ≠ .load t) (h3 : l ≠ .call t) :
    RAt w t (ls ++ [l]) p := by
  have m : ∀ x : RLabel, l ≠ x → (x ∈ ls ++ [l] ↔ x ∈ ls) := by
    intro x hx
    simp [Ne.symm hx]
  cases p with
  | out => simp only [RAt, m _ h1, m _ h2, m _ h3]; exact h
  | passed => simp only [RAt, m _ h1, m _ h2, m _ h3, before_old h.1]; exact h
  | loaded v => simp only [RAt, m _ h1, m _ h2, m _ h3, before_old h.1, before_old h.2.1]; exact h
  | done =>
    obtain ⟨a, b⟩ := h
    refine ⟨(m _ h1).mpr a, ?_⟩
    rcases b with ⟨b1, b2, b3⟩ | ⟨b1, b2, b3, b4, b5⟩
    · exact .inl ⟨fun hh => b1 ((m _ h2).mp hh), fun hh => b2 ((m _ h3).mp hh), by rw [before_old a]; exact b3⟩
    · exact .inr ⟨(m _ h2).mpr b1, (m _ h3).mpr b2, by rw [before_old a]; exact b3, by rw [before_old b1]; exact b4, by rw [before_old b2]; exact b5⟩
  | faulty => simp only [RAt, m _ h1, m _ h2, m _ h3, before_old h.1, before_old h.2.1, before_old h.2.2.1]; exact h

/-- The state is told by the events. -/
structure RInv (w : Nat) (ls : List RLabel) (s : RState) : Prop where
  inst : s.inst = if .shutdown ∈ ls then none else some w
  alive : ∀ k, s.alive k = decide (.destroy k ∉ ls)
  at_ : ∀ t, RAt w t ls (s.pc t)

theorem rinv_step {w : Nat} {ls : List RLabel} {s s' : RState} (h : RInv w ls s) (l : RLabel) (hs : rStep s l = some s') : RInv w (ls ++ [l]) s' := by
  obtain ⟨inst, alive, pc⟩ := s
  obtain ⟨hi, ha, hp⟩ := h
  simp only at hi ha hp
  have m : ∀ x : RLabel, l ≠ x → (x ∈ ls ++ [l] ↔ x ∈ ls) := fun x hx => by simp [Ne.symm hx]
  cases l with
  | check u =>
    simp only [rStep] at hs
    split at hs
    · rename_i hout
      cases hs
      refine ⟨by simp only [RState.setPc, m _ (by simp : RLabel.check u ≠ .shutdown)]; exact hi,
        fun k => by simp only [RState.setPc, m _ (by simp : RLabel.check u ≠ .destroy k)]; exact ha k, fun t => ?_⟩
      by_cases ht : t = u
      · subst ht
        have h0 := hp t
        rw [hout] at h0
        obtain ⟨a, b, c⟩ := h0
        simp only [RState.setPc, if_true]
        have b' : RLabel.load t ∉ ls ++ [.check t] := by simp [b]
        have c' : RLabel.call t ∉ ls ++ [.check t] := by simp [c]
        by_cases hsd : RLabel.shutdown ∈ ls
        · rw [if_pos (by rw [hi, if_pos hsd])]
          exact ⟨by simp, .inl ⟨b', c', by rw [before_all a]; exact hsd⟩⟩
        · rw [if_neg (by rw [hi, if_neg hsd]; simp)]
          exact ⟨by simp, b', c', by rw [before_all a]; exact hsd⟩
      · simp only [RState.setPc, if_neg ht]
        exact rat_other (hp t) _ (by simpa using fun hh => ht hh.symm) (by simp) (by simp)
    · cases hs
  | load u =>
    simp only [rStep] at hs
    split at hs
    · rename_i hout
      cases hs
      refine ⟨by simp only [RState.setPc, m _ (by simp : RLabel.load u ≠ .shutdown)]; exact hi,
        fun k => by simp only [RState.setPc, m _ (by simp : RLabel.load u ≠ .destroy k)]; exact ha k, fun t => ?_⟩
      by_cases ht : t = u
      · subst ht
        have h0 := hp t
        rw [hout] at h0
        obtain ⟨a, b, c, d⟩ := h0
        simp only [RState.setPc, if_true]
        refine ⟨by simp [a], by simp, by simp [c], by rw [before_old a]; exact d, ?_⟩
        rw [before_all b, hi]
        by_cases hsd : RLabel.shutdown ∈ ls
        · exact .inl ⟨hsd, by rw [if_pos hsd]⟩
        · exact .inr ⟨hsd, by rw [if_neg hsd]⟩
      · simp only [RState.setPc, if_neg ht]
        exact rat_other (hp t) _ (by simp) (by simpa using fun hh => ht hh.symm) (by simp)
    · cases hs
  | call u =>
    have key : ∀ v, pc u = .loaded v → ∀ q, s' = RState.setPc ⟨inst, alive, pc⟩ u q →
        (q = .faulty ∧ (v = none ∨ ∃ x, v = some x ∧ alive x = false) ∨ q = .done ∧ ∃ x, v = some x ∧ alive x = true) → RInv w (ls ++ [.call u]) s' := by
      intro v hv q hq hcase
      subst hq
      refine ⟨by simp only [RState.setPc, m _ (by simp : RLabel.call u ≠ .shutdown)]; exact hi,
        fun k => by simp only [RState.setPc, m _ (by simp : RLabel.call u ≠ .destroy k)]; exact ha k, fun t => ?_⟩
      by_cases ht : t = u
      · subst ht
        have h0 := hp t
        rw [hv] at h0
        obtain ⟨a, b, c, d, e⟩ := h0
        simp only [RState.setPc, if_true]
        have hfal : ∀ x, alive x = false → RLabel.destroy x ∈ ls := by
          intro x hx
          rw [ha x] at hx
          simpa using hx
        have htr : ∀ x, alive x = true → RLabel.destroy x ∉ ls := by
          intro x hx
          rw [ha x] at hx
          simpa using hx
        rcases hcase with ⟨rfl, hc⟩ | ⟨rfl, x, rfl, hx⟩
        · refine ⟨by simp [a], by simp [b], by simp, by rw [before_old a]; exact d, ?_⟩
          rw [before_old b, before_all c]
          rcases e with ⟨e1, e2⟩ | ⟨e1, e2⟩
          · exact .inl e1
          · rcases hc with hc | ⟨x, hc, hx⟩
            · rw [e2] at hc; cases hc
            · rw [e2] at hc
              cases hc
              exact .inr (hfal _ hx)
        · rcases e with ⟨e1, e2⟩ | ⟨e1, e2⟩
          · cases e2
          · cases e2
            refine ⟨by simp [a], .inr ⟨by simp [b], by simp, by rw [before_old a]; exact d, by rw [before_old b]; exact e1, ?_⟩⟩
            rw [before_all c]
            exact htr _ hx
      · simp only [RState.setPc, if_neg ht]
        exact rat_other (hp t) _ (by simp) (by simp) (by simpa using fun hh => ht hh.symm)
    simp only [rStep] at hs
    split at hs
    · rename_i hl
      cases hs
      exact key none hl _ rfl (.inl ⟨rfl, .inl rfl⟩)
    · rename_i x hl
      cases hs
      by_cases hx : alive x = true
      · exact key _ hl _ rfl (.inr ⟨if_pos hx, x, rfl, hx⟩)
      · exact key _ hl _ rfl (.inl ⟨if_neg hx, .inr ⟨x, rfl, by simpa using hx⟩⟩)
    · cases hs
  | shutdown =>
    simp only [rStep, Option.some.injEq] at hs
    subst hs
    exact ⟨by simp, fun k => by show alive k = _; rw [ha k]; simp, fun t => rat_other (hp t) _ (by simp) (by simp) (by simp)⟩
  | destroy k =>
    simp only [rStep] at hs
    split at hs
    · cases hs
    · cases hs
      refine ⟨by simp only [m _ (by simp : RLabel.destroy k ≠ .shutdown)]; exact hi, fun j => ?_, fun t => rat_other (hp t) _ (by simp) (by simp) (by simp)⟩
      simp only [ha j]
      by_cases hj : j = k
      · subst hj; simp
      · simp [hj]

theorem rinv_run (w : Nat) : ∀ (ls done : List RLabel) (s s' : RState), RInv w done s → rRun s ls = some s' → RInv w (done ++ ls) s' := by
  intro ls
  induction ls with
  | nil => intro done s s' h hr; cases hr; rw [List.append_nil]; exact h
  | cons l ls ih =>
    intro done s s' h hr
    simp only [rRun, Option.bind_eq_some_iff] at hr
    obtain ⟨s1, h1, h2⟩ := hr
    have := ih (done ++ [l]) s1 s' (rinv_step h l h1) h2
    rwa [List.append_assoc] at this

/-- C14: a LOG call touches a missing worker in exactly these schedules: logging is shut down between its look at the logger and its reading of the
pointer, or the worker is destroyed between the look and the use. For any number of threads and every interleaving. -/
theorem C14_exact (w : Nat) (ls : List RLabel) (s : RState) (h : rRun (rStart w) ls = some s) (t : Nat) : s.pc t = .faulty ↔ touches w t ls := by
  have hi := rinv_run w ls [] (rStart w) s ⟨by simp [rStart], fun k => by simp [rStart], fun t => by simp [rStart, RAt]⟩ h
  rw [List.nil_append] at hi
  have hp := hi.at_ t
  unfold touches
  cases hc : s.pc t with
  | out => rw [hc] at hp; simp [hp.2.2]
  | passed => rw [hc] at hp; simp [hp.2.2.1]
  | loaded v => rw [hc] at hp; simp [hp.2.2.1]
  | done =>
    rw [hc] at hp
    obtain ⟨a, ⟨b1, b2, b3⟩ | ⟨b1, b2, b3, b4, b5⟩⟩ := hp
    · simp [b2]
    · simp [b4, b5]
  | faulty =>
    rw [hc] at hp
    simp only [true_iff]
    exact ⟨hp.2.2.1, hp.2.2.2.1, hp.2.2.2.2⟩

/-- C14: and otherwise the call is over without harm: it found no logger, or the worker got the message. -/
theorem C14_over (w : Nat) (ls : List RLabel) (s : RState) (h : rRun (rStart w) ls = some s) (t : Nat) :
    s.pc t = .done ↔ .check t ∈ ls ∧ (.shutdown ∈ before (.check t) ls ∨ .call t ∈ ls ∧ ¬ touches w t ls) := by
  have hi := rinv_run w ls [] (rStart w) s ⟨by simp [rStart], fun k => by simp [rStart], fun t => by simp [rStart, RAt]⟩ h
  rw [List.nil_append] at hi
  have hp := hi.at_ t
  unfold touches
  cases hc : s.pc t with
  | out => rw [hc] at hp; simp [hp.1]
  | passed => rw [hc] at hp; simp [hp.2.2.1, hp.2.2.2]
  | loaded v => rw [hc] at hp; simp [hp.2.2.1, hp.2.2.2.1]
  | done =>
    rw [hc] at hp
    obtain ⟨a, ⟨b1, b2, b3⟩ | ⟨b1, b2, b3, b4, b5⟩⟩ := hp
    · simp [a, b3]
    · simp [a, b2, b4, b5]
  | faulty =>
    rw [hc] at hp
    obtain ⟨a, b, c, d, e⟩ := hp
    rcases e with e | e <;> simp [a, c, d, e]

/-- Two threads, the first one in time, the second one late. -/
example : ∃ s, rRun (rStart 1) [.check 0, .check 1, .load 0, .call 0, .shutdown, .load 1, .call 1] = some s ∧
    touches 1 1 [.check 0, .check 1, .load 0, .call 0, .shutdown, .load 1, .call 1] ∧ ¬ touches 1 0 [.check 0, .check 1, .load 0, .call 0, .shutdown, .load 1, .call 1] := by
  refine ⟨_, rfl, ?_, ?_⟩ <;> (unfold touches; decide)

end G3.Props
