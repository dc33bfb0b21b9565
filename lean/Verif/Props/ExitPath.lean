import Verif.Spec.ExitPath
import Mathlib.Data.List.Induction
import Mathlib.Tactic.ByContra
/- C85: the end of a program through exit(). -/
namespace G3.Props
open G3 G3.Spec

theorem exRun_snoc (st : Bool) (ends : Int → Bool) (s : ExState) (ls : List ExLabel) (l : ExLabel) :
    exRun st ends s (ls ++ [l]) = (exRun st ends s ls).bind (fun s' => exStep st ends s' l) := by
  induction ls generalizing s with
  | nil => simp only [List.nil_append, exRun, Option.bind_some]; cases exStep st ends s l <;> rfl
  | cons x ls ih =>
    simp only [List.cons_append, exRun]
    cases exStep st ends s x with
    | none => rfl
    | some s' => exact ih s'

/-- The worker has taken a fatal message. -/
def ExWork.past : ExWork → Bool
  | .fatal _ => true
  | .flushed _ => true
  | .inExit => true
  | _ => false

/-- How far `exit` is, if it was called. -/
def exPhase (s : ExState) : Option ExPhase := s.call.map (·.phase)

def exUser : ExItem → Bool
  | .msg _ => true
  | .fatal _ => true
  | _ => false

/-- What the queue holds behind the messages `u`, and what that says about `exit` and the worker. -/
def ExTail (st : Bool) (s : ExState) (u tl : List ExItem) : Prop :=
  (tl = [] ∧ (exPhase s = none ∨ exPhase s = some .begun ∨ exPhase s = some .shut) ∧ s.token = false ∧ s.wpc ≠ .clearing ∧ s.wpc ≠ .gone) ∨
  (tl = [.clear] ∧ exPhase s = some .waiting ∧ st = true ∧ s.token = false ∧ s.wpc ≠ .clearing ∧ s.wpc ≠ .gone) ∨
  (tl = [] ∧ u = [] ∧ exPhase s = some .waiting ∧ st = true ∧ s.token = false ∧ s.wpc = .clearing) ∨
  (tl = [] ∧ u = [] ∧ exPhase s = some .waiting ∧ st = true ∧ s.token = true ∧ s.wpc = .serving ∧ s.sinkq = []) ∨
  (tl = [.stop] ∧ u = [] ∧ exPhase s = some .joining ∧ st = true ∧ s.token = true ∧ s.wpc = .serving ∧ s.sinkq = []) ∨
  (tl = [] ∧ u = [] ∧ exPhase s = some .joining ∧ st = true ∧ s.token = true ∧ s.wpc = .gone ∧ s.sinkq = []) ∨
  (tl = [] ∧ u = [] ∧ exPhase s = some .destroyed ∧ st = true ∧ s.token = true ∧ s.wpc = .gone ∧ s.sinkq = []) ∨
  (tl = [] ∧ exPhase s = some .destroyed ∧ st = false ∧ s.token = false ∧ s.wpc ≠ .clearing ∧ s.wpc ≠ .gone)

/-- What holds after every schedule; `H` lists what was handed over. -/
structure ExInv (st : Bool) (H : List ExItem) (s : ExState) : Prop where
  shape : ∃ u tl, s.queue = u ++ tl ∧ (∀ x ∈ u, exUser x = true) ∧ H = s.done ++ s.sinkq ++ u ∧ ExTail st s u tl
  logger : s.logger = true → s.wpc = .serving ∧ (exPhase s = none ∨ exPhase s = some .begun ∨ (exPhase s = some .destroyed ∧ st = false))
  unlogger : s.logger = false → ExWork.past s.wpc = true ∨ (s.call ≠ none ∧ st = true ∧ exPhase s ≠ some .begun)
  shutst : exPhase s = some .shut → st = true
  fatal : ∀ n, s.wpc = .fatal n ∨ s.wpc = .flushed n → ∃ pre, s.done ++ s.sinkq = pre ++ [.fatal n] ∧ ∀ x ∈ pre, ∃ m, x = .msg m
  clean : ExWork.past s.wpc = false → ∀ x ∈ s.done ++ s.sinkq, ∃ m, x = .msg m
  att : s.token = false → (s.wpc = .serving ∨ s.wpc = .clearing) → s.attached = true
  empty : ∀ n, s.wpc = .flushed n ∨ s.wpc = .inExit → s.sinkq = []
  inExit : s.wpc = .inExit → s.dead = some .ub ∨ ∃ c, s.call = some c ∧ c.who = .worker ∧
    ∃ pre, s.done = pre ++ [.fatal c.code] ∧ ∀ x ∈ pre, ∃ m, x = .msg m
  caller : ∀ c, s.call = some c → c.who = .worker → s.wpc = .inExit
  killed : ∀ n, s.dead = some (.killed .worker n) → s.wpc = .flushed n
  exited : ∀ w n, s.dead = some (.exited w n) → s.call = some ⟨w, n, .destroyed⟩

/-- What a step hands over. -/
def exAdds (s : ExState) (l : ExLabel) : List ExItem := if s.logger then (sentBy l).toList else []

theorem exTail_congr {st : Bool} {s s' : ExState} {u tl : List ExItem} (h : ExTail st s u tl) (h1 : exPhase s' = exPhase s)
    (h2 : s'.token = s.token) (h3 : s'.wpc = s.wpc) (h4 : s'.sinkq = s.sinkq) : ExTail st s' u tl := by
  unfold ExTail at *; rw [h1, h2, h3, h4]; exact h

theorem exInv_step {st : Bool} {ends : Int → Bool} {H : List ExItem} {s s' : ExState} {l : ExLabel} (h : ExInv st H s)
    (hs : exStep st ends s l = some s') : ExInv st (H ++ exAdds s l) s' := by
  unfold exStep at hs
  split at hs
  · cases hs
  rename_i hd
  have hd : s.dead = none := by simpa using hd
  obtain ⟨⟨u, tl, hq, hu, hH, ht⟩, h2, h3, h4, h5, h6, h7, h8, h9, h10, h11, h12⟩ := h
  cases l with
  | log t m =>
    simp only at hs
    split at hs <;> [skip; cases hs]
    simp only [Option.some.injEq] at hs; subst hs
    split
    · rename_i hl
      have ht' : tl = [] := by
        have := h2 hl
        unfold ExTail at ht; grind
      subst ht'
      refine ⟨⟨u ++ [.msg m], [], by simp [hq], ?_, by simp [hH, exAdds, hl, sentBy], ?_⟩, h2, h3, h4, h5, h6, h7, h8, h9, h10, h11, h12⟩
      · intro x hx; rcases List.mem_append.mp hx with hx | hx
        · exact hu x hx
        · simp only [List.mem_singleton] at hx; subst hx; rfl
      · have := h2 hl
        unfold ExTail at ht ⊢; simp only [exPhase] at *; grind
    · rename_i hl
      simp only [exAdds, hl, Bool.false_eq_true, if_false, List.append_nil]
      exact ⟨⟨u, tl, hq, hu, hH, ht⟩, h2, h3, h4, h5, h6, h7, h8, h9, h10, h11, h12⟩
  | fatal t n via =>
    simp only at hs
    split at hs <;> [skip; cases hs]
    split at hs
    · rename_i hl
      simp only [Option.some.injEq] at hs; subst hs
      have ht' : tl = [] := by
        have := h2 hl
        unfold ExTail at ht; grind
      subst ht'
      refine ⟨⟨u ++ [.fatal n], [], by simp [hq], ?_, by simp [hH, exAdds, hl, sentBy], ?_⟩, h2, h3, h4, h5, h6, h7, h8, h9, h10, h11, h12⟩
      · intro x hx; rcases List.mem_append.mp hx with hx | hx
        · exact hu x hx
        · simp only [List.mem_singleton] at hx; subst hx; rfl
      · have := h2 hl
        unfold ExTail at ht ⊢; simp only [exPhase] at *; grind
    · rename_i hl
      simp only [exAdds, hl, Bool.false_eq_true, if_false, List.append_nil]
      split at hs
      · simp only [Option.some.injEq] at hs; subst hs
        exact ⟨⟨u, tl, hq, hu, hH, ht⟩, h2, h3, h4, h5, h6, h7, h8, fun e => by grind, h10, by simp, by simp⟩
      · simp only [Option.some.injEq, ExState.callExit] at hs; subst hs
        split
        · rename_i hc
          refine ⟨⟨u, tl, hq, hu, hH, ?_⟩, by simp_all, ?_, by simp [exPhase], h5, h6, h7, h8, by grind, by simp, h11, by simp [hd]⟩
          · unfold ExTail at ht ⊢; simp only [exPhase] at *; grind
          · intro e; have := h3 e; grind
        · exact ⟨⟨u, tl, hq, hu, hH, ht⟩, h2, h3, h4, h5, h6, h7, h8, by grind, h10, by simp, by simp⟩
  | exit t c =>
    simp only at hs
    split at hs <;> [skip; cases hs]
    have ha : exAdds s (.exit t c) = [] := by simp [exAdds, sentBy]
    rw [ha, List.append_nil]
    simp only [Option.some.injEq, ExState.callExit] at hs; subst hs
    split
    · rename_i hc
      refine ⟨⟨u, tl, hq, hu, hH, ?_⟩, ?_, ?_, by simp [exPhase], h5, h6, h7, h8, by grind, by simp, h11, by simp [hd]⟩
      · unfold ExTail at ht ⊢; simp only [exPhase] at *; grind
      · intro e; have := h2 e; simp only [exPhase] at *; grind
      · intro e; have := h3 e; grind
    · exact ⟨⟨u, tl, hq, hu, hH, ht⟩, h2, h3, h4, h5, h6, h7, h8, by grind, h10, by simp, by simp⟩
  | unblock t =>
    simp only at hs
    split at hs <;> [skip; cases hs]
    have ha : exAdds s (.unblock t) = [] := by simp [exAdds, sentBy]
    rw [ha, List.append_nil]
    simp only [Option.some.injEq] at hs; subst hs
    exact ⟨⟨u, tl, hq, hu, hH, ht⟩, h2, h3, h4, h5, h6, h7, h8, h9, h10, h11, h12⟩
  | xShut =>
    have ha : exAdds s .xShut = [] := by simp [exAdds, sentBy]
    rw [ha, List.append_nil]
    simp only at hs
    split at hs <;> [skip; cases hs]
    rename_i c hc
    split at hs <;> [skip; cases hs]
    rename_i hp
    simp only [Option.some.injEq, ExState.to] at hs; subst hs
    have hph : exPhase s = some .begun := by simp [exPhase, hc, hp]
    split
    · refine ⟨⟨u, tl, hq, hu, hH, ?_⟩, by simp, ?_, by grind, h5, h6, h7, h8, ?_, ?_, h11, by simp [hd]⟩
      · have ht' : tl = [] ∧ s.token = false ∧ s.wpc ≠ .clearing ∧ s.wpc ≠ .gone := by simpa [ExTail, hph] using ht
        exact .inl ⟨ht'.1, .inr (.inr rfl), ht'.2⟩
      · simp only [exPhase] at *; grind
      · intro e
        rcases h9 e with h | ⟨c', e1, e2, e3⟩
        · simp [hd] at h
        · obtain rfl : c = c' := by simpa [hc] using e1
          exact .inr ⟨_, rfl, e2, e3⟩
      · intro c' e1 e2; exact h10 c hc (by grind)
    · refine ⟨⟨u, tl, hq, hu, hH, ?_⟩, ?_, ?_, ?_, h5, h6, h7, h8, ?_, ?_, h11, by simp [hd]⟩
      · simp only [ExTail, hph] at ht; simp only [ExTail, exPhase]; grind
      · simp only [exPhase] at *; grind
      · simp only [exPhase] at *; grind
      · simp only [exPhase] at *; grind
      · intro e
        rcases h9 e with h | ⟨c', e1, e2, e3⟩
        · simp [hd] at h
        · obtain rfl : c = c' := by simpa [hc] using e1
          exact .inr ⟨_, rfl, e2, e3⟩
      · intro c' e1 e2; exact h10 c hc (by grind)
  | xPush =>
    have ha : exAdds s .xPush = [] := by simp [exAdds, sentBy]
    rw [ha, List.append_nil]
    simp only at hs
    split at hs <;> [skip; cases hs]
    rename_i c hc
    split at hs <;> [skip; cases hs]
    rename_i hp
    simp only [Option.some.injEq, ExState.to] at hs; subst hs
    have ht' : tl = [] := by unfold ExTail at ht; simp only [exPhase] at *; grind
    subst ht'
    refine ⟨⟨u, [.clear], by simp [hq], hu, hH, ?_⟩, ?_, ?_, ?_, h5, h6, h7, h8, ?_, ?_, h11, by simp [hd]⟩
    · unfold ExTail at ht ⊢; simp only [exPhase] at *; grind
    · simp only [exPhase] at *; grind
    · simp only [exPhase] at *; grind
    · simp only [exPhase] at *; grind
    · intro e
      rcases h9 e with h | ⟨c', e1, e2, e3⟩
      · simp [hd] at h
      · obtain rfl : c = c' := by simpa [hc] using e1
        exact .inr ⟨_, rfl, e2, e3⟩
    · intro c' e1 e2; exact h10 c hc (by grind)
  | xReady =>
    have ha : exAdds s .xReady = [] := by simp [exAdds, sentBy]
    rw [ha, List.append_nil]
    simp only at hs
    split at hs <;> [skip; cases hs]
    rename_i c hc
    split at hs <;> [skip; cases hs]
    rename_i hp
    simp only [Option.some.injEq, ExState.to] at hs; subst hs
    have ht' : tl = [] ∧ u = [] := by unfold ExTail at ht; simp only [exPhase] at *; grind
    obtain ⟨rfl, rfl⟩ := ht'
    refine ⟨⟨[], [.stop], by simp [hq], hu, hH, ?_⟩, ?_, ?_, ?_, h5, h6, h7, h8, ?_, ?_, h11, by simp [hd]⟩
    · unfold ExTail at ht ⊢; simp only [exPhase] at *; grind
    · simp only [exPhase] at *; grind
    · simp only [exPhase] at *; grind
    · simp only [exPhase] at *; grind
    · intro e
      rcases h9 e with h | ⟨c', e1, e2, e3⟩
      · simp [hd] at h
      · obtain rfl : c = c' := by simpa [hc] using e1
        exact .inr ⟨_, rfl, e2, e3⟩
    · intro c' e1 e2; exact h10 c hc (by grind)
  | xJoin =>
    have ha : exAdds s .xJoin = [] := by simp [exAdds, sentBy]
    rw [ha, List.append_nil]
    simp only at hs
    split at hs <;> [skip; cases hs]
    rename_i c hc
    split at hs <;> [skip; cases hs]
    rename_i hp
    simp only [Option.some.injEq, ExState.to] at hs; subst hs
    refine ⟨⟨u, tl, hq, hu, hH, ?_⟩, ?_, ?_, ?_, h5, h6, h7, h8, ?_, ?_, h11, by simp [hd]⟩
    · unfold ExTail at ht ⊢; simp only [exPhase] at *; grind
    · simp only [exPhase] at *; grind
    · simp only [exPhase] at *; grind
    · simp only [exPhase] at *; grind
    · intro e
      rcases h9 e with h | ⟨c', e1, e2, e3⟩
      · simp [hd] at h
      · obtain rfl : c = c' := by simpa [hc] using e1
        exact .inr ⟨_, rfl, e2, e3⟩
    · intro c' e1 e2; exact h10 c hc (by grind)
  | xEnd =>
    have ha : exAdds s .xEnd = [] := by simp [exAdds, sentBy]
    rw [ha, List.append_nil]
    simp only at hs
    split at hs <;> [skip; cases hs]
    rename_i c hc
    split at hs <;> [skip; cases hs]
    rename_i hp
    simp only [Option.some.injEq] at hs; subst hs
    exact ⟨⟨u, tl, hq, hu, hH, ht⟩, h2, h3, h4, h5, h6, h7, h8, by grind, h10, by simp, by
      intro w n e; obtain ⟨w', n', p'⟩ := c; simp_all⟩
  | take =>
    have ha : exAdds s .take = [] := by simp [exAdds, sentBy]
    rw [ha, List.append_nil]
    simp only at hs
    split at hs <;> [skip; cases hs]
    rename_i hw
    have hcl := h6 (by rw [hw]; rfl)
    split at hs
    · cases hs
    · rename_i m q hq'
      simp only [Option.some.injEq] at hs; subst hs
      obtain ⟨u', rfl⟩ : ∃ u', u = .msg m :: u' := by
        rw [hq'] at hq; unfold ExTail at ht
        cases u with
        | nil => grind
        | cons x u' => simp only [List.cons_append, List.cons.injEq] at hq; exact ⟨u', by rw [hq.1]⟩
      have hat : s.attached = true := h7 (by unfold ExTail at ht; grind) (.inl hw)
      simp only [hat, if_true]
      refine ⟨⟨u', tl, ?_, fun x hx => hu x (by simp [hx]), by simp [hH], ?_⟩, h2, h3, h4, ?_, ?_, fun _ _ => rfl, ?_, ?_, h10, h11, h12⟩
      · rw [hq'] at hq; simpa using hq
      · unfold ExTail at ht ⊢; simp only [exPhase] at *; grind
      · intro n e; simp_all
      · intro _ x hx
        simp only [← List.append_assoc] at hx
        rcases List.mem_append.mp hx with hx | hx
        · exact hcl x hx
        · simp only [List.mem_singleton] at hx; exact ⟨m, hx⟩
      · intro n e; simp_all
      · intro e; simp_all
    · rename_i n q hq'
      simp only [Option.some.injEq] at hs; subst hs
      obtain ⟨u', rfl⟩ : ∃ u', u = .fatal n :: u' := by
        rw [hq'] at hq; unfold ExTail at ht
        cases u with
        | nil => grind
        | cons x u' => simp only [List.cons_append, List.cons.injEq] at hq; exact ⟨u', by rw [hq.1]⟩
      have hat : s.attached = true := h7 (by unfold ExTail at ht; grind) (.inl hw)
      simp only [hat, if_true]
      refine ⟨⟨u', tl, ?_, fun x hx => hu x (by simp [hx]), by simp [hH], ?_⟩, by simp, by simp [ExWork.past], h4, ?_, by simp [ExWork.past], by simp, by simp, by simp, ?_, ?_, ?_⟩
      · rw [hq'] at hq; simpa using hq
      · unfold ExTail at ht ⊢; simp only [exPhase] at *; grind
      · intro k e
        simp only [ExWork.fatal.injEq, reduceCtorEq, or_false] at e; subst e
        exact ⟨s.done ++ s.sinkq, by simp, hcl⟩
      · intro c e1 e2; have := h10 c e1 e2; simp_all
      · intro k e; simp_all
      · intro w k e; simp_all
    · rename_i q hq'
      simp only [Option.some.injEq] at hs; subst hs
      have hu' : u = [] ∧ tl = [.clear] := by
        rw [hq'] at hq; unfold ExTail at ht
        cases u with
        | nil => grind
        | cons x u' =>
          simp only [List.cons_append, List.cons.injEq] at hq
          have := hu x (by simp); rw [← hq.1] at this; cases this
      obtain ⟨rfl, rfl⟩ := hu'
      refine ⟨⟨[], [], ?_, hu, hH, ?_⟩, ?_, ?_, h4, by simp, fun _ => hcl, ?_, by simp, by simp, ?_, ?_, ?_⟩
      · rw [hq'] at hq; simpa using hq
      · unfold ExTail at ht ⊢; simp only [exPhase] at *; grind
      · intro e; have := h2 e; unfold ExTail at ht; simp only [exPhase] at *; grind
      · intro e; have := h3 e; rw [hw] at this; simpa [ExWork.past, exPhase] using this
      · intro e _; exact h7 e (.inl hw)
      · intro c e1 e2; have := h10 c e1 e2; simp_all
      · intro k e; simp_all
      · intro w k e; simp_all
    · rename_i q hq'
      simp only [Option.some.injEq] at hs; subst hs
      have hu' : u = [] ∧ tl = [.stop] := by
        rw [hq'] at hq; unfold ExTail at ht
        cases u with
        | nil => grind
        | cons x u' =>
          simp only [List.cons_append, List.cons.injEq] at hq
          have := hu x (by simp); rw [← hq.1] at this; cases this
      obtain ⟨rfl, rfl⟩ := hu'
      refine ⟨⟨[], [], ?_, hu, hH, ?_⟩, ?_, ?_, h4, by simp, fun _ => hcl, by simp, by simp, by simp, ?_, ?_, ?_⟩
      · rw [hq'] at hq; simpa using hq
      · unfold ExTail at ht ⊢; simp only [exPhase] at *; grind
      · intro e; have := h2 e; unfold ExTail at ht; simp only [exPhase] at *; grind
      · intro e; have := h3 e; rw [hw] at this; simpa [ExWork.past, exPhase] using this
      · intro c e1 e2; have := h10 c e1 e2; simp_all
      · intro k e; simp_all
      · intro w k e; simp_all
  | sink =>
    have ha : exAdds s .sink = [] := by simp [exAdds, sentBy]
    rw [ha, List.append_nil]
    simp only at hs
    split at hs
    · cases hs
    rename_i x q hq'
    simp only [Option.some.injEq] at hs; subst hs
    have e : s.done ++ [x] ++ q = s.done ++ s.sinkq := by rw [hq']; simp
    refine ⟨⟨u, tl, hq, hu, by simp only; rw [e, hH], ?_⟩, h2, h3, h4, by simp only [e]; exact h5, by simp only [e]; exact h6, h7, ?_, ?_, h10, h11, h12⟩
    · have hne : s.sinkq ≠ [] := by simp [hq']
      rcases ht with h | h | h | h | h | h | h | h
      · exact .inl h
      · exact .inr (.inl h)
      · exact .inr (.inr (.inl h))
      · exact absurd h.2.2.2.2.2.2 hne
      · exact absurd h.2.2.2.2.2.2 hne
      · exact absurd h.2.2.2.2.2.2 hne
      · exact absurd h.2.2.2.2.2.2 hne
      · exact .inr (.inr (.inr (.inr (.inr (.inr (.inr h))))))
    · intro n e; have := h8 n e; simp_all
    · intro e; have := h8 0 (.inr e); simp_all
  | cleared =>
    have ha : exAdds s .cleared = [] := by simp [exAdds, sentBy]
    rw [ha, List.append_nil]
    simp only at hs
    split at hs <;> [skip; cases hs]
    rename_i hw
    simp only [Option.some.injEq] at hs; subst hs
    have hcl := h6 (by rw [hw.1]; rfl)
    refine ⟨⟨u, tl, hq, hu, hH, ?_⟩, ?_, ?_, h4, by simp, fun _ => hcl, by simp, by simp, by simp, ?_, ?_, ?_⟩
    · unfold ExTail at ht ⊢; simp only [exPhase] at *; grind
    · intro e; have := h2 e; simp_all
    · intro e; have := h3 e; rw [hw.1] at this; simpa [ExWork.past, exPhase] using this
    · intro c e1 e2; have := h10 c e1 e2; simp_all
    · intro k e; simp_all
    · intro w k e; simp_all
  | flush =>
    have ha : exAdds s .flush = [] := by simp [exAdds, sentBy]
    rw [ha, List.append_nil]
    simp only at hs
    split at hs <;> [skip; cases hs]
    rename_i n hw
    split at hs <;> [skip; cases hs]
    rename_i he
    simp only [Option.some.injEq] at hs; subst hs
    refine ⟨⟨u, tl, hq, hu, hH, ?_⟩, ?_, by simp [ExWork.past], h4, ?_, by simp [ExWork.past], by simp, fun _ _ => he, by simp, ?_, ?_, ?_⟩
    · unfold ExTail at ht ⊢; simp only [exPhase] at *; grind
    · intro e; have := h2 e; simp_all
    · intro k e
      simp only [reduceCtorEq, ExWork.flushed.injEq, false_or] at e; subst e
      exact h5 n (.inl hw)
    · intro c e1 e2; have := h10 c e1 e2; simp_all
    · intro k e; simp_all
    · intro w k e; simp_all
  | wRaise =>
    have ha : exAdds s .wRaise = [] := by simp [exAdds, sentBy]
    rw [ha, List.append_nil]
    simp only at hs
    split at hs <;> [skip; cases hs]
    rename_i n hw
    have hsq := h8 n (.inl hw)
    obtain ⟨pre, hp1, hp2⟩ := h5 n (.inr hw)
    rw [hsq, List.append_nil] at hp1
    split at hs
    · simp only [Option.some.injEq] at hs; subst hs
      exact ⟨⟨u, tl, hq, hu, hH, ht⟩, h2, h3, h4, h5, h6, h7, h8, by simp_all, h10, by simp_all, by simp⟩
    · simp only [Option.some.injEq, ExState.callExit] at hs; subst hs
      split
      · rename_i hc
        refine ⟨⟨u, tl, hq, hu, hH, ?_⟩, ?_, by simp [ExWork.past], by simp [exPhase], by simp, by simp [ExWork.past], by simp, by simp [hsq], ?_, by simp, by simp [hd], by simp [hd]⟩
        · unfold ExTail at ht ⊢; simp only [exPhase] at *; grind
        · intro e; have := h2 e; simp_all
        · intro _; exact .inr ⟨_, rfl, rfl, pre, hp1, hp2⟩
      · rename_i c hc
        refine ⟨⟨u, tl, hq, hu, hH, ?_⟩, ?_, by simp [ExWork.past], h4, by simp, by simp [ExWork.past], by simp, by simp [hsq], by simp, ?_, by simp, by simp⟩
        · unfold ExTail at ht ⊢; simp only [exPhase] at *; grind
        · intro e; have := h2 e; simp_all
        · intro c e1 e2; rfl

theorem exInv_start (st : Bool) : ExInv st [] exStart := by
  refine ⟨⟨[], [], rfl, by simp, rfl, ?_⟩, ?_, ?_, ?_, ?_, ?_, ?_, ?_, ?_, ?_, ?_, ?_⟩ <;> simp [ExTail, exStart, exPhase]


/-- What was handed over by a schedule is what was logged, as long as there is a logger; later statements hand over nothing. -/
theorem exInv_run {st : Bool} {ends : Int → Bool} {ls : List ExLabel} {s : ExState} (h : exRun st ends exStart ls = some s) :
    ∃ H, ExInv st H s ∧ H <+: sent ls ∧ (s.logger = true → H = sent ls) ∧
      (ExWork.past s.wpc = false → s.dead ≠ some .ub → ∀ l1 l2 t c, ls = l1 ++ .exit t c :: l2 → sent l1 <+: H) := by
  induction ls using List.reverseRecOn generalizing s with
  | nil => simp only [exRun, Option.some.injEq] at h; subst h; exact ⟨[], exInv_start st, List.nil_prefix, fun _ => rfl, fun _ _ l1 l2 t c e => by simp at e⟩
  | append_singleton ls l ih =>
    rw [exRun_snoc] at h
    cases h1 : exRun st ends exStart ls with
    | none => rw [h1] at h; cases h
    | some s1 =>
      rw [h1, Option.bind_some] at h
      obtain ⟨H, hi, hp, he, hk⟩ := ih h1
      have hsn : sent (ls ++ [l]) = sent ls ++ (sentBy l).toList := by
        simp only [sent, List.filterMap_append, List.append_cancel_left_eq]
        cases h : sentBy l <;> simp [h]
      refine ⟨H ++ exAdds s1 l, exInv_step hi h, ?_, ?_, ?_⟩
      · rw [hsn]; unfold exAdds
        split
        · rename_i hl; rw [he hl]; exact List.prefix_rfl
        · rw [List.append_nil]; exact hp.trans (List.prefix_append _ _)
      · intro hl
        have hl1 : s1.logger = true := by
          by_contra hx
          have hx : s1.logger = false := by simpa using hx
          have : s.logger = s1.logger := by
            unfold exStep at h
            split at h
            · cases h
            cases l <;> simp only [ExState.callExit, ExState.to] at h <;> (repeat' (split at h)) <;> cases h <;> (try simp only) <;> grind
          rw [this, hx] at hl; cases hl
        rw [hsn, he hl1, exAdds, if_pos hl1]
      · intro hw hu l1 l2 t c e
        have hd1 : s1.dead = none := by
          unfold exStep at h
          split at h
          · cases h
          · rename_i hd; simpa using hd
        rcases List.eq_nil_or_concat l2 with rfl | ⟨l2', l', rfl⟩
        · obtain ⟨rfl, rfl⟩ : ls = l1 ∧ l = .exit t c := by simpa using List.append_inj' e rfl
          unfold exStep at h
          split at h
          · cases h
          simp only at h
          split at h <;> [skip; cases h]
          simp only [Option.some.injEq, ExState.callExit] at h
          split at h
          · rename_i hc
            subst h
            have hl : s1.logger = true := by
              by_contra hx
              rcases hi.unlogger (by simpa using hx) with h | h
              · simp only at hw; rw [hw] at h; cases h
              · exact h.1 hc
            rw [he hl]; exact List.prefix_append _ _
          · subst h; simp at hu
        · obtain ⟨rfl, -⟩ : ls = l1 ++ .exit t c :: l2' ∧ [l] = [l'] := by
            refine List.append_inj' ?_ (by simp)
            rw [e]; simp
          refine (hk ?_ (by simp [hd1]) l1 l2' t c rfl).trans (List.prefix_append _ _)
          unfold exStep at h
          split at h
          · cases h
          cases l <;> simp only [ExState.callExit, ExState.to] at h <;> (repeat' (split at h)) <;> cases h <;> (try simp only at hw) <;>
            first | exact hw | (cases hw; done) | grind [ExWork.past]

/-! ### What the sinks have got when the process ends -/

/-- The process ended by the worker thread, after a fatal event: the sinks got exactly what was logged up to and including the first fatal
event, and the process ended with its number. -/
theorem C85_fatal_end (st : Bool) (ends : Int → Bool) (ls : List ExLabel) (s : ExState) (h : exRun st ends exStart ls = some s) (n : Int)
    (hd : s.dead = some (.killed .worker n) ∨ s.dead = some (.exited .worker n)) : FlushedTo n (sent ls) s.done := by
  obtain ⟨H, hi, ⟨rest, hr⟩, -⟩ := exInv_run h
  obtain ⟨u, tl, -, -, hH, -⟩ := hi.shape
  obtain ⟨pre, hp1, hp2, hq⟩ : ∃ pre, s.done = pre ++ [.fatal n] ∧ (∀ x ∈ pre, ∃ m, x = .msg m) ∧ s.sinkq = [] := by
    rcases hd with hd | hd
    · have hw := hi.killed n hd
      have hq := hi.empty n (.inl hw)
      obtain ⟨pre, e1, e2⟩ := hi.fatal n (.inr hw)
      rw [hq, List.append_nil] at e1
      exact ⟨pre, e1, e2, hq⟩
    · have hc := hi.exited _ _ hd
      have hw := hi.caller _ hc rfl
      rcases hi.inExit hw with e | ⟨c, e1, -, pre, e2, e3⟩
      · rw [hd] at e; cases e
      · rw [hc] at e1; cases e1
        exact ⟨pre, e2, e3, hi.empty 0 (.inr hw)⟩
  refine ⟨pre, u ++ rest, ?_, hp2, hp1⟩
  rw [← hr, hH, hq, hp1]; simp

/-- A static `LogWorker` and a process that ended because a thread of the program returned from `main` or called `exit`: the sinks got
everything that was logged before that, and nothing that was not logged. -/
theorem C85_static_exit (ends : Int → Bool) (ls : List ExLabel) (s : ExState) (h : exRun true ends exStart ls = some s) (t : Nat) (c : Int)
    (hd : s.dead = some (.exited (.thread t) c)) :
    s.done <+: sent ls ∧ (∀ x ∈ s.done, ∃ m, x = .msg m) ∧ ∀ l1 l2 t' c', ls = l1 ++ .exit t' c' :: l2 → sent l1 <+: s.done := by
  obtain ⟨H, hi, hp, -, hk⟩ := exInv_run h
  obtain ⟨u, tl, hq, hu, hH, ht⟩ := hi.shape
  have hc := hi.exited _ _ hd
  have hph : exPhase s = some .destroyed := by simp [exPhase, hc]
  have ht' : tl = [] ∧ u = [] ∧ s.token = true ∧ s.wpc = .gone ∧ s.sinkq = [] := by simpa [ExTail, hph] using ht
  obtain ⟨-, rfl, -, hw, hsq⟩ := ht'
  have hH' : H = s.done := by rw [hH, hsq]; simp
  subst hH'
  have hpast : ExWork.past s.wpc = false := by rw [hw]; rfl
  refine ⟨hp, ?_, fun l1 l2 t' c' e => hk hpast (by simp [hd]) l1 l2 t' c' e⟩
  have := hi.clean hpast
  rwa [hsq, List.append_nil] at this

/-- Whatever happens, the sinks get a prefix of what was logged: nothing twice, nothing out of order, no gaps. -/
theorem C85_prefix (st : Bool) (ends : Int → Bool) (ls : List ExLabel) (s : ExState) (h : exRun st ends exStart ls = some s) :
    s.done <+: sent ls := by
  obtain ⟨H, hi, hp, -, -⟩ := exInv_run h
  obtain ⟨u, tl, -, -, hH, -⟩ := hi.shape
  refine List.IsPrefix.trans ?_ hp
  rw [hH, List.append_assoc]; exact List.prefix_append _ _

/-! ### The process ends -/

theorem exRun_append (st : Bool) (ends : Int → Bool) (s : ExState) (l1 l2 : List ExLabel) :
    exRun st ends s (l1 ++ l2) = (exRun st ends s l1).bind (exRun st ends · l2) := by
  induction l1 generalizing s with
  | nil => rfl
  | cons x l1 ih =>
    simp only [List.cons_append, exRun]
    cases exStep st ends s x with
    | none => rfl
    | some s' => exact ih s'

theorem exStep_alive {st : Bool} {ends : Int → Bool} {s s' : ExState} {l : ExLabel} (h : exStep st ends s l = some s') : s.dead = none := by
  unfold exStep at h
  split at h
  · cases h
  · rename_i hd; simpa using hd

def exItemW : ExItem → Nat
  | .msg _ => 2
  | .fatal _ => 12
  | .clear => 2
  | .stop => 1

def exWorkW : ExWork → Nat
  | .fatal _ => 10
  | .flushed _ => 9
  | .clearing => 1
  | _ => 0

def exPhaseW : Option ExPhase → Nat
  | none => 0
  | some .begun => 8
  | some .shut => 7
  | some .waiting => 4
  | some .joining => 2
  | some .destroyed => 1

/-- A bound for the number of steps the library and a running `exit` can take. -/
def exMeasure (s : ExState) : Nat :=
  (s.queue.map exItemW).sum + s.sinkq.length + exWorkW s.wpc + exPhaseW (exPhase s) + if s.dead.isSome then 0 else 1

theorem exMeasure_step {st : Bool} {ends : Int → Bool} {s s' : ExState} {l : ExLabel} (ho : isOwn l = true)
    (h : exStep st ends s l = some s') : exMeasure s' < exMeasure s := by
  have hd := exStep_alive h
  unfold exStep at h
  split at h
  · cases h
  unfold exMeasure
  cases l <;> simp only [isOwn, Bool.false_eq_true] at ho <;> simp only [ExState.callExit, ExState.to] at h <;>
    (repeat' (split at h)) <;> cases h <;> simp_all [exItemW, exWorkW, exPhaseW, exPhase] <;> (repeat' split) <;> (try simp_all) <;> omega

theorem exMeasure_run {st : Bool} {ends : Int → Bool} {s s' : ExState} {ks : List ExLabel} (ho : ∀ k ∈ ks, isOwn k = true)
    (h : exRun st ends s ks = some s') : ks.length ≤ exMeasure s := by
  induction ks generalizing s with
  | nil => simp
  | cons k ks ih =>
    simp only [exRun] at h
    cases h1 : exStep st ends s k with
    | none => rw [h1] at h; cases h
    | some s1 =>
      rw [h1, Option.bind_some] at h
      have h2 := exMeasure_step (ho k (by simp)) h1
      have h3 := ih (fun k hk => ho k (by simp [hk])) h
      simp only [List.length_cons]; omega

/-- After a fatal event or a call of `exit` there is always something left to do. -/
theorem exEvent {st : Bool} {ends : Int → Bool} {ls : List ExLabel} {s : ExState} (h : exRun st ends exStart ls = some s)
    (he : ∃ l ∈ ls, isEnding l = true) : s.dead ≠ none ∨ s.call ≠ none ∨ ExWork.past s.wpc = true ∨ ∃ n, ExItem.fatal n ∈ s.queue := by
  induction ls using List.reverseRecOn generalizing s with
  | nil => simp at he
  | append_singleton ls l ih =>
    rw [exRun_snoc] at h
    cases h1 : exRun st ends exStart ls with
    | none => rw [h1] at h; cases h
    | some s1 =>
      rw [h1, Option.bind_some] at h
      have hd := exStep_alive h
      by_cases hl : isEnding l = true
      · clear ih
        unfold exStep at h
        split at h
        · cases h
        cases l <;> simp only [isEnding, Bool.false_eq_true] at hl <;> simp only [ExState.callExit] at h <;>
          (repeat' (split at h)) <;> cases h <;> simp
      · have ih := ih h1 (by
          obtain ⟨k, hk, hk'⟩ := he
          rcases List.mem_append.mp hk with hk | hk
          · exact ⟨k, hk, hk'⟩
          · simp only [List.mem_singleton] at hk; subst hk; exact absurd hk' hl)
        rw [hd] at ih
        simp only [ne_eq, not_true_eq_false, false_or] at ih
        unfold exStep at h
        split at h
        · cases h
        cases l <;> simp only [ExState.callExit, ExState.to] at h <;>
          (repeat' (split at h)) <;> cases h <;> simp_all [ExWork.past, isEnding]

/-- `exit` called by the worker thread: its signal did not end the process. -/
theorem exWorker {st : Bool} {ends : Int → Bool} {ls : List ExLabel} {s : ExState} (h : exRun st ends exStart ls = some s)
    (c : ExCall) (hc : s.call = some c) (hw : c.who = .worker) : ends c.code = false := by
  induction ls using List.reverseRecOn generalizing s c with
  | nil => simp only [exRun, Option.some.injEq] at h; subst h; cases hc
  | append_singleton ls l ih =>
    rw [exRun_snoc] at h
    cases h1 : exRun st ends exStart ls with
    | none => rw [h1] at h; cases h
    | some s1 =>
      rw [h1, Option.bind_some] at h
      have ih : ∀ c, s1.call = some c → c.who = .worker → ends c.code = false := fun c => ih h1 c
      clear h1
      unfold exStep at h
      split at h
      · cases h
      cases l <;> simp only [ExState.callExit, ExState.to] at h <;>
          (repeat' (split at h)) <;> cases h <;> (try simp only at hc) <;> grind

/-- The worker thread has called `exit` and waits there for itself. -/
def ExStuck (s : ExState) : Prop := ∃ c, s.call = some c ∧ c.who = .worker ∧ c.phase = .waiting

theorem exProgress {st : Bool} {ends : Int → Bool} {H : List ExItem} {s : ExState} (hi : ExInv st H s) (hd : s.dead = none)
    (he : s.call ≠ none ∨ ExWork.past s.wpc = true ∨ ∃ n, ExItem.fatal n ∈ s.queue) :
    (∃ k, isOwn k = true ∧ (exStep st ends s k).isSome = true) ∨ ExStuck s := by
  obtain ⟨u, tl, hq, hu, hH, ht⟩ := hi.shape
  have hdd : s.dead.isSome = false := by simp [hd]
  have take : s.wpc = .serving → s.queue ≠ [] → ∃ k, isOwn k = true ∧ (exStep st ends s k).isSome = true := by
    intro hw hne
    refine ⟨.take, rfl, ?_⟩
    simp only [exStep, hdd, hw]
    match hqq : s.queue with
    | [] => exact absurd hqq hne
    | .msg _ :: _ => rfl
    | .fatal _ :: _ => rfl
    | .clear :: _ => rfl
    | .stop :: _ => rfl
  have sink : s.sinkq ≠ [] → ∃ k, isOwn k = true ∧ (exStep st ends s k).isSome = true := by
    intro hne
    refine ⟨.sink, rfl, ?_⟩
    simp only [exStep, hdd]
    match hqq : s.sinkq with
    | [] => exact absurd hqq hne
    | _ :: _ => rfl
  have shut : ∀ c, s.call = some c → c.phase = .begun → ∃ k, isOwn k = true ∧ (exStep st ends s k).isSome = true := by
    intro c e1 e2; exact ⟨.xShut, rfl, by simp [exStep, hdd, e1, e2]⟩
  have push : ∀ c, s.call = some c → c.phase = .shut → ∃ k, isOwn k = true ∧ (exStep st ends s k).isSome = true := by
    intro c e1 e2; exact ⟨.xPush, rfl, by simp [exStep, hdd, e1, e2]⟩
  have fin : ∀ c, s.call = some c → c.phase = .destroyed → ∃ k, isOwn k = true ∧ (exStep st ends s k).isSome = true := by
    intro c e1 e2; exact ⟨.xEnd, rfl, by simp [exStep, hdd, e1, e2]⟩
  cases hp : ExWork.past s.wpc with
  | true =>
    cases hw : s.wpc with
    | serving => rw [hw] at hp; cases hp
    | clearing => rw [hw] at hp; cases hp
    | gone => rw [hw] at hp; cases hp
    | fatal n =>
      by_cases hs : s.sinkq = []
      · exact .inl ⟨.flush, rfl, by simp [exStep, hdd, hw, hs]⟩
      · exact .inl (sink hs)
    | flushed n =>
      refine .inl ⟨.wRaise, rfl, ?_⟩
      simp only [exStep, hdd, hw]
      cases ends n <;> rfl
    | inExit =>
      rcases hi.inExit hw with e | ⟨c, e1, e2, -⟩
      · rw [hd] at e; cases e
      have hph : exPhase s = some c.phase := by simp [exPhase, e1]
      cases hc : c.phase with
      | begun => exact .inl (shut c e1 hc)
      | shut => exact .inl (push c e1 hc)
      | waiting => exact .inr ⟨c, e1, e2, hc⟩
      | joining => rw [hc] at hph; simp [ExTail, hph, hw] at ht
      | destroyed => exact .inl (fin c e1 hc)
  | false =>
    cases hc : s.call with
    | none =>
      have hph : exPhase s = none := by simp [exPhase, hc]
      have hne : s.queue ≠ [] := by
        rcases he with he | he | ⟨n, he⟩
        · exact absurd hc he
        · rw [hp] at he; cases he
        · intro e; rw [e] at he; cases he
      simp only [ExTail, hph] at ht
      have hw : s.wpc = .serving := by
        cases hw : s.wpc <;> simp_all [ExWork.past]
      exact .inl (take hw hne)
    | some c =>
      have hph : exPhase s = some c.phase := by simp [exPhase, hc]
      cases hcp : c.phase with
      | begun => exact .inl (shut c hc hcp)
      | shut => exact .inl (push c hc hcp)
      | waiting =>
        rw [hcp] at hph
        simp only [ExTail, hph, reduceCtorEq, Option.some.injEq, false_or, false_and, and_false, or_false, true_and] at ht
        rcases ht with ⟨e1, -, -, e2, e3⟩ | ⟨-, -, -, -, e⟩ | ⟨-, -, -, e, -, -⟩
        · have hw : s.wpc = .serving := by
            cases hw : s.wpc <;> simp_all [ExWork.past]
          exact .inl (take hw (by rw [hq, e1]; simp))
        · by_cases hs : s.sinkq = []
          · exact .inl ⟨.cleared, rfl, by simp [exStep, hdd, e, hs]⟩
          · exact .inl (sink hs)
        · exact .inl ⟨.xReady, rfl, by simp [exStep, hdd, hc, hcp, e]⟩
      | joining =>
        rw [hcp] at hph
        simp only [ExTail, hph, reduceCtorEq, Option.some.injEq, false_or, false_and, and_false, or_false, true_and] at ht
        rcases ht with ⟨e1, -, -, -, e2, -⟩ | ⟨-, -, -, -, e, -⟩
        · exact .inl (take e2 (by rw [hq, e1]; simp))
        · exact .inl ⟨.xJoin, rfl, by simp [exStep, hdd, hc, hcp, e]⟩
      | destroyed => exact .inl (fin c hc hcp)

/-- Stuck means stuck. -/
theorem exStuck_none {st : Bool} {ends : Int → Bool} {H : List ExItem} {s : ExState} (hi : ExInv st H s) (hd : s.dead = none)
    (hs : ExStuck s) (k : ExLabel) (hk : isOwn k = true) : exStep st ends s k = none := by
  obtain ⟨c, e1, e2, e3⟩ := hs
  have hw := hi.caller c e1 e2
  have hsq := hi.empty 0 (.inr hw)
  obtain ⟨u, tl, hq, hu, hH, ht⟩ := hi.shape
  have hph : exPhase s = some .waiting := by simp [exPhase, e1, e3]
  have htk : s.token = false := by
    simp only [ExTail, hph, hw] at ht; grind
  cases k <;> simp only [isOwn, Bool.false_eq_true] at hk <;> simp [exStep, hd, e1, e3, hw, hsq, htk]

/-- After a fatal event or a call of `exit`, the library and `exit` go on until the process has ended, unless the worker thread has called
`exit` with a static `LogWorker`: then it waits for itself and there is nothing left that can be done. -/
theorem C85_exact (st : Bool) (ends : Int → Bool) (ls : List ExLabel) (s : ExState) (h : exRun st ends exStart ls = some s)
    (he : ∃ l ∈ ls, isEnding l = true) (hd : s.dead = none) :
    (∀ k, isOwn k = true → exStep st ends s k = none) ↔ ∃ c, s.call = some c ∧ c.who = .worker ∧ c.phase = .waiting := by
  obtain ⟨H, hi, -, -, -⟩ := exInv_run h
  constructor
  · intro hn
    rcases exProgress (ends := ends) hi hd ((exEvent h he).resolve_left (by simp [hd])) with ⟨k, hk, hk'⟩ | hs
    · rw [hn k hk] at hk'; cases hk'
    · exact hs
  · intro hs k hk; exact exStuck_none hi hd hs k hk

/-- The process ends after a fatal event or a call of `exit`, if the `LogWorker` is not static or the signals of the fatal events end the
process: the library and `exit` can take only so many steps, and as long as the process has not ended they can take one. -/
theorem C85_ends_partial (st : Bool) (ends : Int → Bool) (ls : List ExLabel) (s : ExState) (h : exRun st ends exStart ls = some s)
    (he : ∃ l ∈ ls, isEnding l = true) (hn : st = false ∨ ∀ t n v, ExLabel.fatal t n v ∈ ls → ends n = true) :
    ∃ N, ∀ ks s', (∀ k ∈ ks, isOwn k = true) → exRun st ends s ks = some s' →
      ks.length ≤ N ∧ (s'.dead.isSome = true ∨ ∃ k, isOwn k = true ∧ (exStep st ends s' k).isSome = true) := by
  refine ⟨exMeasure s, fun ks s' ho hr => ⟨exMeasure_run ho hr, ?_⟩⟩
  cases hd : s'.dead with
  | some _ => exact .inl rfl
  | none =>
    right
    have h' : exRun st ends exStart (ls ++ ks) = some s' := by rw [exRun_append, h, Option.bind_some, hr]
    obtain ⟨H, hi, hp, -, -⟩ := exInv_run h'
    obtain ⟨l, hl, hl'⟩ := he
    rcases exProgress (ends := ends) hi hd ((exEvent h' ⟨l, by simp [hl], hl'⟩).resolve_left (by simp [hd])) with hk | ⟨c, e1, e2, e3⟩
    · exact hk
    · exfalso
      have hw := hi.caller c e1 e2
      rcases hn with rfl | hn
      · obtain ⟨u, tl, hq, hu, hH, ht⟩ := hi.shape
        have hph : exPhase s' = some .waiting := by simp [exPhase, e1, e3]
        simp [ExTail, hph] at ht
      · have h1 := exWorker h' c e1 e2
        rcases hi.inExit hw with e | ⟨c', e1', -, pre, e4, -⟩
        · rw [hd] at e; cases e
        rw [e1] at e1'; cases e1'
        obtain ⟨u, tl, -, -, hH, -⟩ := hi.shape
        have h2 : ExItem.fatal c.code ∈ sent (ls ++ ks) := hp.subset (by rw [hH, e4]; simp)
        simp only [sent, List.mem_filterMap] at h2
        obtain ⟨k, hk, hk'⟩ := h2
        cases k <;> simp only [sentBy, Option.some.injEq, reduceCtorEq, ExItem.fatal.injEq] at hk'
        rename_i t n v
        subst hk'
        rcases List.mem_append.mp hk with hk | hk
        · rw [hn t _ v hk] at h1; cases h1
        · have := ho _ hk; cases this

/-- Code of the program that runs on thread `t`. -/
def runsOn (t : Nat) : ExLabel → Prop
  | .log k _ => k = t
  | .fatal k _ _ => k = t
  | .exit k _ => k = t
  | _ => False

theorem stays_put {static : Bool} {ends : Int → Bool} {s s' : ExState} {l : ExLabel} (h : exStep static ends s l = some s') (t : Nat)
    (hb : s.blocked t = true ∨ ∃ c, s.call = some c ∧ c.who = .thread t) (hu : l ≠ .unblock t) :
    ¬ runsOn t l ∧ (s'.dead.isSome ∨ (s'.blocked t = true ∨ ∃ c, s'.call = some c ∧ c.who = .thread t)) := by
  have hfree : s.free t = false := by
    unfold ExState.free
    rcases hb with hb | ⟨c, hc, hw⟩
    · simp [hb]
    · simp [hc, hw]
  unfold exStep at h
  split at h
  · cases h
  cases l with
  | log k m =>
    have hk : k ≠ t := by rintro rfl; simp [hfree] at h
    refine ⟨hk, .inr ?_⟩
    simp only at h; split at h
    · simp only [Option.some.injEq] at h; subst h; split <;> exact hb
    · cases h
  | fatal k n v =>
    have hk : k ≠ t := by rintro rfl; simp [hfree] at h
    refine ⟨hk, ?_⟩
    simp only [ExState.callExit] at h
    split at h
    · split at h
      · simp only [Option.some.injEq] at h; subst h
        refine .inr (hb.imp (fun hb => ?_) id)
        simp only [hb]; split <;> rfl
      · split at h
        · simp only [Option.some.injEq] at h; subst h; exact .inl rfl
        · simp only [Option.some.injEq] at h; subst h
          rcases hb with hb | ⟨c, hc, hw⟩
          · cases hc : s.call with
            | none => exact .inr (.inl hb)
            | some c => exact .inl rfl
          · rw [hc]; exact .inl rfl
    · cases h
  | exit k c =>
    have hk : k ≠ t := by rintro rfl; simp [hfree] at h
    refine ⟨hk, ?_⟩
    simp only [ExState.callExit] at h
    split at h
    · simp only [Option.some.injEq] at h; subst h
      rcases hb with hb | ⟨c, hc, hw⟩
      · cases hc : s.call with
        | none => exact .inr (.inl hb)
        | some c => exact .inl rfl
      · rw [hc]; exact .inl rfl
    · cases h
  | unblock k =>
    refine ⟨id, .inr ?_⟩
    have hk : t ≠ k := fun e => hu (by rw [e])
    simp only at h; split at h
    · simp only [Option.some.injEq] at h; subst h
      exact hb.imp (fun hb => by simp only [if_neg hk]; exact hb) id
    · cases h
  | xShut | xPush | xReady | xJoin | xEnd =>
    refine ⟨id, ?_⟩
    cases hc : s.call with
    | none => simp [hc] at h
    | some c =>
      have hb' : s.blocked t = true ∨ c.who = .thread t := hb.imp id (fun ⟨c', h1, h2⟩ => by rw [hc] at h1; cases h1; exact h2)
      simp only [hc, ExState.to] at h
      split at h
      · first
        | (simp only [Option.some.injEq] at h; subst h; first | exact .inl rfl | skip)
        first
        | (split <;> exact .inr (hb'.imp id fun e => ⟨_, rfl, e⟩))
        | exact .inr (hb'.imp id fun e => ⟨_, rfl, e⟩)
        | skip
      · cases h
  | wRaise =>
    refine ⟨id, ?_⟩
    simp only [ExState.callExit] at h
    split at h
    · split at h
      · simp only [Option.some.injEq] at h; subst h; exact .inl rfl
      · simp only [Option.some.injEq] at h; subst h
        rcases hb with hb | ⟨c, hc, hw⟩
        · cases hc : s.call with
          | none => exact .inr (.inl hb)
          | some c => exact .inl rfl
        · rw [hc]; exact .inl rfl
    · cases h
  | take | sink | cleared | flush =>
    refine ⟨id, .inr ?_⟩
    simp only at h
    (repeat' split at h) <;> first | (cases h; done) | (simp only [Option.some.injEq] at h; subst h; exact hb)

/-- A thread that is in a fatal event or has called `exit` runs no more code of the program, unless a fatal event that the process survives
wakes it up. -/
theorem C85_stopped (static : Bool) (ends : Int → Bool) (s s' : ExState) (ls : List ExLabel) (t : Nat)
    (hb : s.blocked t = true ∨ ∃ c, s.call = some c ∧ c.who = .thread t)
    (h : exRun static ends s ls = some s') (hu : ExLabel.unblock t ∉ ls) : ∀ l ∈ ls, ¬ runsOn t l := by
  induction ls generalizing s with
  | nil => simp
  | cons l ls ih =>
    rw [exRun] at h
    cases hs : exStep static ends s l with
    | none => rw [hs] at h; cases h
    | some s1 =>
      rw [hs, Option.bind_some] at h
      obtain ⟨h1, h2⟩ := stays_put hs t hb (fun e => hu (by rw [e]; exact List.mem_cons_self))
      have hrest : ∀ l ∈ ls, ¬ runsOn t l := by
        rcases h2 with hd | hb'
        · cases ls with
          | nil => simp
          | cons l2 ls2 =>
            rw [exRun] at h
            unfold exStep at h
            rw [if_pos hd] at h
            cases h
        · exact ih s1 hb' h (fun hm => hu (List.mem_cons_of_mem _ hm))
      intro k hk
      rcases List.mem_cons.mp hk with rfl | hk
      · exact h1
      · exact hrest k hk

/-- The call of `exit` by `w` with `n`, or the raised signal `n`, comes from the program: `w` called `exit n`, or had the fatal event `n`; the worker acts for
whoever had the fatal event `n`. -/
def ExCause (ls : List ExLabel) (w : ExWho) (n : Int) : Prop :=
  match w with
  | .thread t => ExLabel.exit t n ∈ ls ∨ ∃ v, ExLabel.fatal t n v ∈ ls
  | .worker => ∃ t v, ExLabel.fatal t n v ∈ ls

structure ExNum (ends : Int → Bool) (ls : List ExLabel) (s : ExState) : Prop where
  queue : ∀ n, .fatal n ∈ s.queue → ∃ t v, ExLabel.fatal t n v ∈ ls
  wpc : ∀ n, s.wpc = .fatal n ∨ s.wpc = .flushed n → ∃ t v, ExLabel.fatal t n v ∈ ls
  call : ∀ c, s.call = some c → ExCause ls c.who c.code
  killed : ∀ w n, s.dead = some (.killed w n) → ends n = true ∧
    match w with | .thread t => ExLabel.fatal t n false ∈ ls | .worker => ∃ t v, ExLabel.fatal t n v ∈ ls
  exited : ∀ w n, s.dead = some (.exited w n) → ExCause ls w n

theorem ExCause_mono {ls : List ExLabel} (l : ExLabel) {w : ExWho} {n : Int} (h : ExCause ls w n) : ExCause (ls ++ [l]) w n := by
  cases w with
  | thread t => exact h.imp (List.mem_append_left _) (fun ⟨v, h⟩ => ⟨v, List.mem_append_left _ h⟩)
  | worker => obtain ⟨t, v, h⟩ := h; exact ⟨t, v, List.mem_append_left _ h⟩

theorem ExNum_mono {ends : Int → Bool} {ls : List ExLabel} {s : ExState} (l : ExLabel) (h : ExNum ends ls s) : ExNum ends (ls ++ [l]) s := by
  have up : ∀ n, (∃ t v, ExLabel.fatal t n v ∈ ls) → ∃ t v, ExLabel.fatal t n v ∈ ls ++ [l] := fun n ⟨t, v, h⟩ => ⟨t, v, List.mem_append_left _ h⟩
  refine ⟨fun n hn => up n (h.queue n hn), fun n hn => up n (h.wpc n hn), fun c hc => ExCause_mono l (h.call c hc), fun w n hn => ?_,
    fun w n hn => ExCause_mono l (h.exited w n hn)⟩
  obtain ⟨h1, h2⟩ := h.killed w n hn
  refine ⟨h1, ?_⟩
  cases w with
  | thread t => exact List.mem_append_left _ h2
  | worker => exact up n h2

theorem ExNum_callExit {ends : Int → Bool} {ls : List ExLabel} {s : ExState} {w : ExWho} {c : Int} (h : ExNum ends ls s) (hd : s.dead = none)
    (hc : ExCause ls w c) : ExNum ends ls (s.callExit w c) := by
  unfold ExState.callExit
  split
  · exact ⟨h.queue, h.wpc, fun x hx => by cases hx; exact hc, by simp [hd], by simp [hd]⟩
  · exact ⟨h.queue, h.wpc, h.call, by simp, by simp⟩

theorem ExNum_step {static : Bool} {ends : Int → Bool} {ls : List ExLabel} {s s' : ExState} {l : ExLabel} (h0 : ExNum ends ls s)
    (hs : exStep static ends s l = some s') : ExNum ends (ls ++ [l]) s' := by
  have h := ExNum_mono l h0
  unfold exStep at hs
  split at hs
  · cases hs
  rename_i hd
  have hd : s.dead = none := by simpa using hd
  obtain ⟨hq, hw, hc, hk, he⟩ := h
  have hto : ∀ (x : ExState) (c : ExCall) (p : ExPhase), s.call = some c → x.dead = none → (∀ n, .fatal n ∈ x.queue → .fatal n ∈ s.queue) → x.wpc = s.wpc →
      ExNum ends (ls ++ [l]) (x.to c p) := by
    intro x c p h1 h2 h3 h4
    refine ⟨fun n hn => hq n (h3 n hn), fun n hn => hw n (by rw [← h4]; exact hn), fun c' hc' => ?_, fun w n hn => ?_, fun w n hn => ?_⟩
    · cases hc'; exact hc c h1
    · simp only [ExState.to, h2] at hn; cases hn
    · simp only [ExState.to, h2] at hn; cases hn
  cases l with
  | log t m =>
    simp only at hs
    split at hs <;> [skip; cases hs]
    simp only [Option.some.injEq] at hs; subst hs
    split
    · exact ⟨fun n hn => by simp at hn; exact hq n hn, hw, hc, hk, he⟩
    · exact ⟨hq, hw, hc, hk, he⟩
  | fatal t n via =>
    simp only at hs
    split at hs <;> [skip; cases hs]
    split at hs
    · simp only [Option.some.injEq] at hs; subst hs
      refine ⟨fun k hk => ?_, hw, hc, hk, he⟩
      rcases List.mem_append.mp hk with hk | hk
      · exact hq k hk
      · simp at hk; subst hk; exact ⟨t, via, by simp⟩
    · split at hs
      · rename_i hcond
        simp only [Bool.and_eq_true, Bool.not_eq_true'] at hcond
        simp only [Option.some.injEq] at hs; subst hs
        refine ⟨hq, hw, hc, fun w k hk => ?_, fun w k hk => by cases hk⟩
        cases hk
        exact ⟨hcond.1, by simp [hcond.2]⟩
      · simp only [Option.some.injEq] at hs; subst hs
        exact ExNum_callExit ⟨hq, hw, hc, hk, he⟩ hd (.inr ⟨via, by simp⟩)
  | exit t c =>
    simp only at hs
    split at hs <;> [skip; cases hs]
    simp only [Option.some.injEq] at hs; subst hs
    exact ExNum_callExit ⟨hq, hw, hc, hk, he⟩ hd (.inl (by simp))
  | unblock t =>
    simp only at hs
    split at hs <;> [skip; cases hs]
    simp only [Option.some.injEq] at hs; subst hs
    exact ⟨hq, hw, hc, hk, he⟩
  | xShut =>
    simp only at hs
    split at hs <;> [skip; cases hs]
    rename_i c hcl
    split at hs <;> [skip; cases hs]
    simp only [Option.some.injEq] at hs; subst hs
    split
    · exact hto _ _ _ hcl hd (fun _ h => h) rfl
    · exact hto _ _ _ hcl hd (fun _ h => h) rfl
  | xPush =>
    simp only at hs
    split at hs <;> [skip; cases hs]
    rename_i c hcl
    split at hs <;> [skip; cases hs]
    simp only [Option.some.injEq] at hs; subst hs
    exact hto _ _ _ hcl hd (fun _ h => by simpa using h) rfl
  | xReady =>
    simp only at hs
    split at hs <;> [skip; cases hs]
    rename_i c hcl
    split at hs <;> [skip; cases hs]
    simp only [Option.some.injEq] at hs; subst hs
    exact hto _ _ _ hcl hd (fun _ h => by simpa using h) rfl
  | xJoin =>
    simp only at hs
    split at hs <;> [skip; cases hs]
    rename_i c hcl
    split at hs <;> [skip; cases hs]
    simp only [Option.some.injEq] at hs; subst hs
    exact hto _ _ _ hcl hd (fun _ h => h) rfl
  | xEnd =>
    simp only at hs
    split at hs <;> [skip; cases hs]
    rename_i c hcl
    split at hs <;> [skip; cases hs]
    simp only [Option.some.injEq] at hs; subst hs
    exact ⟨hq, hw, hc, fun w n hn => (by cases hn), fun w n hn => (by cases hn; exact hc c hcl)⟩
  | take =>
    simp only at hs
    split at hs <;> [skip; cases hs]
    split at hs
    · cases hs
    · rename_i m q hqe
      simp only [Option.some.injEq] at hs; subst hs
      exact ⟨fun n hn => hq n (by rw [hqe]; exact List.mem_cons_of_mem _ hn), hw, hc, hk, he⟩
    · rename_i k q hqe
      simp only [Option.some.injEq] at hs; subst hs
      refine ⟨fun n hn => hq n (by rw [hqe]; exact List.mem_cons_of_mem _ hn), fun n hn => ?_, hc, hk, he⟩
      simp at hn; subst hn
      exact hq k (by rw [hqe]; simp)
    · rename_i q hqe
      simp only [Option.some.injEq] at hs; subst hs
      exact ⟨fun n hn => hq n (by rw [hqe]; exact List.mem_cons_of_mem _ hn), by simp, hc, hk, he⟩
    · rename_i q hqe
      simp only [Option.some.injEq] at hs; subst hs
      exact ⟨fun n hn => hq n (by rw [hqe]; exact List.mem_cons_of_mem _ hn), by simp, hc, hk, he⟩
  | sink =>
    simp only at hs
    split at hs <;> [cases hs; skip]
    simp only [Option.some.injEq] at hs; subst hs
    exact ⟨hq, hw, hc, hk, he⟩
  | cleared =>
    simp only at hs
    split at hs <;> [skip; cases hs]
    simp only [Option.some.injEq] at hs; subst hs
    exact ⟨hq, by simp, hc, hk, he⟩
  | flush =>
    simp only at hs
    split at hs <;> [skip; cases hs]
    rename_i n hn
    split at hs <;> [skip; cases hs]
    simp only [Option.some.injEq] at hs; subst hs
    refine ⟨hq, fun k hk => ?_, hc, hk, he⟩
    simp at hk; subst hk
    exact hw n (.inl hn)
  | wRaise =>
    simp only at hs
    split at hs <;> [skip; cases hs]
    rename_i n hn
    split at hs
    · rename_i hen
      simp only [Option.some.injEq] at hs; subst hs
      refine ⟨hq, hw, hc, fun w k hk => ?_, fun w k hk => by cases hk⟩
      cases hk
      exact ⟨hen, hw n (.inr hn)⟩
    · simp only [Option.some.injEq] at hs; subst hs
      exact ExNum_callExit ⟨hq, by simp, hc, hk, he⟩ hd (hw n (.inr hn))

/-- The process ends with a number that the program chose: by a signal of a fatal event that is able to end it, raised by the thread that had the event or by
the worker, or by `exit` with the argument of a call of `exit` or with the number of a fatal event. -/
theorem C85_number (static : Bool) (ends : Int → Bool) (ls : List ExLabel) (s : ExState) (h : exRun static ends exStart ls = some s) :
    (∀ w n, s.dead = some (.killed w n) → ends n = true ∧
      match w with | .thread t => ExLabel.fatal t n false ∈ ls | .worker => ∃ t v, ExLabel.fatal t n v ∈ ls) ∧
    (∀ w n, s.dead = some (.exited w n) →
      match w with
      | .thread t => ExLabel.exit t n ∈ ls ∨ ∃ v, ExLabel.fatal t n v ∈ ls
      | .worker => ∃ t v, ExLabel.fatal t n v ∈ ls) := by
  have : ExNum ends ls s := by
    induction ls using List.reverseRecOn generalizing s with
    | nil =>
      simp only [exRun, Option.some.injEq] at h; subst h
      refine ⟨?_, ?_, ?_, ?_, ?_⟩ <;> simp [exStart]
    | append_singleton ls l ih =>
      rw [exRun_snoc] at h
      cases hr : exRun static ends exStart ls with
      | none => rw [hr] at h; cases h
      | some s1 => rw [hr, Option.bind_some] at h; exact ExNum_step (ih s1 hr) h
  exact ⟨this.killed, this.exited⟩

/-- Such a thread is woken up only after the end of a fatal event that did not end the process. -/
theorem C85_woken (static : Bool) (ends : Int → Bool) (ls : List ExLabel) (s : ExState) (h : exRun static ends exStart ls = some s)
    (t : Nat) (s' : ExState) (hs : exStep static ends s (.unblock t) = some s') :
    s.blocked t = true ∧ (ExLabel.wRaise ∈ ls ∨ ∃ k n v, ExLabel.fatal k n v ∈ ls ∧ (ends n = false ∨ v = true)) := by
  have hb : s.blocked t = true ∧ s.block = false := by
    unfold exStep at hs
    split at hs
    · cases hs
    · simp only at hs; split at hs
      · assumption
      · cases hs
  refine ⟨hb.1, ?_⟩
  obtain ⟨-, hb⟩ := hb
  clear hs
  induction ls using List.reverseRecOn generalizing s with
  | nil => simp only [exRun, Option.some.injEq] at h; subst h; cases hb
  | append_singleton ls l ih =>
    rw [exRun_snoc] at h
    cases hr : exRun static ends exStart ls with
    | none => rw [hr] at h; cases h
    | some s1 =>
      rw [hr, Option.bind_some] at h
      cases hb1 : s1.block with
      | false =>
        rcases ih s1 hr hb1 with h1 | ⟨k, n, v, h1, h2⟩
        · exact .inl (List.mem_append_left _ h1)
        · exact .inr ⟨k, n, v, List.mem_append_left _ h1, h2⟩
      | true =>
        have hcall : ∀ (x : ExState) (w : ExWho) (c : Int), (x.callExit w c).block = x.block := by
          intro x w c; unfold ExState.callExit; split <;> rfl
        unfold exStep at h
        split at h
        · cases h
        cases l with
        | wRaise => exact .inl (by simp)
        | fatal k n v =>
          refine .inr ⟨k, n, v, by simp, ?_⟩
          cases v with
          | true => exact .inr rfl
          | false =>
            cases he : ends n with
            | false => exact .inl rfl
            | true =>
              simp only [he, Bool.not_false, Bool.and_self, if_true] at h
              (repeat' split at h) <;> first | (cases h; done) | (simp only [Option.some.injEq] at h; subst h; simp [hb1] at hb)
        | exit k c =>
          simp only at h
          split at h
          · simp only [Option.some.injEq] at h; subst h; rw [hcall, hb1] at hb; cases hb
          · cases h
        | _ =>
          simp only [ExState.to] at h
          (repeat' split at h) <;> first
            | (cases h; done)
            | (simp only [Option.some.injEq] at h; subst h; first | (simp [hb1] at hb; done) | (split at hb <;> simp [hb1] at hb))

/-- Thread 0 has a fatal event and thread 1 calls `exit`: from then on the premises of `C85_stopped` hold for both. -/
example : ∃ s, exRun true (fun _ => true) exStart [.fatal 0 6 false, .exit 1 0] = some s ∧ s.blocked 0 = true ∧
    s.call = some ⟨.thread 1, 0, .begun⟩ := ⟨_, rfl, rfl, rfl⟩

/-- A static `LogWorker` in a process that survives the signals, as PID 1: after a fatal event the process never ends, unless another thread
has a fatal event or calls `exit`. -/
theorem C85_never (ends : Int → Bool) (ls : List ExLabel) (s : ExState) (h : exRun true ends exStart ls = some s)
    (hx : ∀ t c, ExLabel.exit t c ∉ ls) (h1 : (ls.filter isEnding).length ≤ 1)
    (hn : ∀ t n v, ExLabel.fatal t n v ∈ ls → ends n = false) : s.dead = none ∧ ∀ c, s.call = some c → c.who = .worker := by
  induction ls using List.reverseRecOn generalizing s with
  | nil => simp only [exRun, Option.some.injEq] at h; subst h; exact ⟨rfl, by simp [exStart]⟩
  | append_singleton ls l ih =>
    rw [exRun_snoc] at h
    cases hr : exRun true ends exStart ls with
    | none => rw [hr] at h; cases h
    | some s1 =>
      rw [hr, Option.bind_some] at h
      obtain ⟨hd, hc⟩ := ih s1 hr (fun t c hm => hx t c (by simp [hm])) (by rw [List.filter_append, List.length_append] at h1; omega)
        (fun t n v hm => hn t n v (by simp [hm]))
      obtain ⟨H, hi, hp, -, -⟩ := exInv_run hr
      obtain ⟨u, tl, hq, hu, hH, ht⟩ := hi.shape
      have hnum : ∀ n, ExItem.fatal n ∈ H → ends n = false := by
        intro n hm
        have h2 := hp.subset hm
        simp only [sent, List.mem_filterMap] at h2
        obtain ⟨k, hk, hk'⟩ := h2
        cases k <;> simp only [sentBy, Option.some.injEq, reduceCtorEq, ExItem.fatal.injEq] at hk'
        subst hk'
        exact hn _ _ _ (List.mem_append_left _ hk)
      unfold exStep at h
      split at h
      · cases h
      cases l with
      | exit t c => exact absurd (List.mem_append_right ls (List.mem_singleton.mpr rfl)) (hx t c)
      | fatal t n v =>
        have hl : s1.logger = true := by
          by_contra hlf
          have hnf : ∀ n, ExItem.fatal n ∉ H := by
            intro n hm
            have h2 := hp.subset hm
            simp only [sent, List.mem_filterMap] at h2
            obtain ⟨k, hk, hk'⟩ := h2
            cases k <;> simp only [sentBy, Option.some.injEq, reduceCtorEq, ExItem.fatal.injEq] at hk'
            have h3 : (ls.filter isEnding).length ≥ 1 := List.length_pos_of_mem (List.mem_filter.mpr ⟨hk, rfl⟩)
            rw [List.filter_append, List.length_append] at h1
            simp only [List.filter_cons, isEnding, if_true, List.filter_nil, List.length_singleton] at h1
            omega
          have hpast : ExWork.past s1.wpc = false := by
            by_contra hpa
            cases hw : s1.wpc with
            | serving => rw [hw] at hpa; exact hpa rfl
            | clearing => rw [hw] at hpa; exact hpa rfl
            | gone => rw [hw] at hpa; exact hpa rfl
            | fatal n =>
              obtain ⟨pre, e, -⟩ := hi.fatal _ (.inl hw)
              exact hnf n (by rw [hH, e]; simp)
            | flushed n =>
              obtain ⟨pre, e, -⟩ := hi.fatal _ (.inr hw)
              exact hnf n (by rw [hH, e]; simp)
            | inExit =>
              rcases hi.inExit hw with e | ⟨c', e1', -, pre, e4, -⟩
              · rw [hd] at e; cases e
              · exact hnf c'.code (by rw [hH, e4]; simp)
          rcases hi.unlogger (by simpa using hlf) with h | ⟨h, -, -⟩
          · rw [hpast] at h; cases h
          · obtain ⟨c, hcc⟩ := Option.ne_none_iff_exists'.mp h
            have := hi.caller c hcc (hc c hcc)
            rw [this] at hpast; cases hpast
        simp only [hl, if_true] at h
        split at h <;> [skip; cases h]
        cases h; exact ⟨hd, hc⟩
      | xEnd =>
        exfalso
        simp only at h
        split at h <;> [skip; cases h]
        rename_i c hcc
        split at h <;> [skip; cases h]
        rename_i hph
        have hw := hi.caller c hcc (hc c hcc)
        have hph' : exPhase s1 = some .destroyed := by simp [exPhase, hcc, hph]
        simp [ExTail, hph', hw] at ht
      | wRaise =>
        simp only at h
        split at h <;> [skip; cases h]
        rename_i n hw
        obtain ⟨pre, e, -⟩ := hi.fatal _ (.inr hw)
        have hen := hnum n (by rw [hH, e]; simp)
        have hcn : s1.call = none := by
          cases hcc : s1.call with
          | none => rfl
          | some c => have := hi.caller c hcc (hc c hcc); rw [hw] at this; cases this
        simp only [hen, Bool.false_eq_true, if_false, ExState.callExit, hcn, Option.some.injEq] at h
        subst h
        exact ⟨hd, by simp⟩
      | _ =>
        simp only [ExState.to] at h
        (repeat' (split at h)) <;> cases h <;> simp_all

/-- The full statement fails, first case: a static `LogWorker` in a process that survives SIGABRT. LOG(FATAL), and the process hangs for
ever: nothing the library or `exit` can do is left, and no continuation without a further fatal event or call of `exit` ends it. -/
theorem C85_negation : ∃ (ls : List ExLabel) (s : ExState), exRun true (fun _ => false) exStart ls = some s ∧
    (∃ t n v, ExLabel.fatal t n v ∈ ls) ∧ s.dead = none ∧ (∀ k, isOwn k = true → exStep true (fun _ => false) s k = none) ∧
    ∀ ks s', (∀ k ∈ ks, isEnding k = false) → exRun true (fun _ => false) s ks = some s' → s'.dead = none := by
  obtain ⟨s, h, hd, hc⟩ : ∃ s, exRun true (fun _ => false) exStart [.fatal 0 6 false, .take, .sink, .flush, .wRaise, .xShut, .xPush] = some s ∧
      s.dead = none ∧ s.call = some ⟨.worker, 6, .waiting⟩ := ⟨_, rfl, rfl, rfl⟩
  refine ⟨_, s, h, ⟨0, 6, false, by simp⟩, hd, ?_, ?_⟩
  · exact (C85_exact _ _ _ _ h ⟨.fatal 0 6 false, by simp, rfl⟩ hd).mpr ⟨_, hc, rfl, rfl⟩
  · intro ks s' hk hr
    refine (C85_never (fun _ => false) _ s' (by rw [exRun_append, h, Option.bind_some, hr]) ?_ ?_ (fun _ _ _ _ => rfl)).1
    · intro t c hm
      rcases List.mem_append.mp hm with hm | hm
      · simp at hm
      · have := hk _ hm; cases this
    · have hf : ks.filter isEnding = [] := List.filter_eq_nil_iff.mpr (fun k hm => by simp [hk k hm])
      rw [List.filter_append, hf]
      decide

/-- Second case: a `LogWorker` that is not static, for example in a `unique_ptr` of `main`. `exit` does not destroy it, and what was logged
before is lost. -/
theorem C85_negation_lost : ∃ (l1 l2 : List ExLabel) (s : ExState) (t : Nat) (c : Int),
    exRun false (fun _ => true) exStart (l1 ++ .exit t c :: l2) = some s ∧ s.dead = some (.exited (.thread t) c) ∧
      sent l1 ≠ [] ∧ s.done = [] :=
  ⟨[.log 0 7], [.xShut, .xEnd], _, 0, 0, rfl, rfl, by simp [sent, sentBy], rfl⟩

/-! ### The hypotheses are met -/

/-- `C85_static_exit`: thread 1 logs while `main` returns. -/
example : ∃ s, exRun true (fun _ => true) exStart [.log 0 1, .log 1 2, .take, .exit 0 3, .log 1 4, .xShut, .log 1 5, .xPush, .take, .sink,
      .take, .take, .sink, .sink, .cleared, .xReady, .take, .xJoin, .xEnd] = some s ∧
    s.dead = some (.exited (.thread 0) 3) ∧ s.done = [.msg 1, .msg 2, .msg 4] := ⟨_, rfl, rfl, rfl⟩

/-- `C85_fatal_end` and `C85_ends_partial`: PID 1 with a `LogWorker` that is not static. -/
example : ∃ s, exRun false (fun _ => false) exStart [.log 0 1, .fatal 1 11 true, .log 0 2, .take, .take, .sink, .sink, .flush, .wRaise,
      .unblock 1, .xShut, .xEnd] = some s ∧
    s.dead = some (.exited .worker 11) ∧ s.done = [.msg 1, .fatal 11] := ⟨_, rfl, rfl, rfl⟩

end G3.Props
